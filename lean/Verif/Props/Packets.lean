/-
C115: the packets of a history tile the stream of IMU messages.
-/
import Verif.Props.Loader

set_option linter.unusedSectionVars false

namespace Vio
open LoaderSpec

section Spec
variable {K T : Type} [Add K] [Sub K] [Mul K] [Neg K] [Div K] [Zero K] [One K] [ScalarFn K] [TimeOps T] [TimeCast T K]

/-- The packet that one call on loader `i` handed out, if any. -/
def packetOf (i : Nat) : LOp K T → LOut K T → List (Combined K T)
  | .popPacked j _, .popped ret c => if j = i ∧ ret = true then [c] else []
  | _, _ => []

/-- The packets that the packet requests on loader `i` handed out. -/
def packets (i : Nat) (ops : List (LOp K T)) (outs : List (LOut K T)) : List (Combined K T) := (ops.zip outs).flatMap (fun x => packetOf i x.1 x.2)

/-- Runs of samples one behind the other, where each run begins with the last sample of the run before. -/
def glue {α : Type} : List (List α) → List α → List α
  | [], l => l
  | c :: cs, l => c ++ (glue cs l).tail

/-- Every run ends with the sample that the next one begins with. -/
def Chained {α : Type} : List (List α) → List α → Prop
  | [], _ => True
  | c :: cs, l => (∃ x, c.getLast? = some x ∧ (glue cs l).head? = some x) ∧ Chained cs l

/-- The history neither clears loader `i` nor takes single messages from it. -/
def NoClearNoPopOne (i : Nat) (ops : List (LOp K T)) : Prop := ∀ op ∈ ops, op ≠ .clear i ∧ op ≠ .popOne i

end Spec

section Lemmas
variable {K T : Type} [Add K] [Sub K] [Mul K] [Neg K] [Div K] [Zero K] [One K] [ScalarFn K] [TimeOps T] [TimeCast T K]

/-- A packet request on loader `i`: its samples and what is left. -/
theorem packed_step {p p' : LProc K T} {i : Nat} {n : Bool} {o : LOut K T} (hs : p.step (.popPacked i n) = .ok (p', o)) :
    (∃ c, o = .popped false c ∧ (p'.loaders i).imuMeas = (p.loaders i).imuMeas) ∨
    ∃ c f taken left rest, o = .popped true c ∧ c.featMeas = some f ∧ (p.loaders i).imuMeas = taken ++ left :: rest ∧ TimeOps.le left.ts f.ts = true ∧
      ((c.imuMeas = taken ++ [left] ∧ (p'.loaders i).imuMeas = left :: rest) ∨
        ∃ mid : ImuMsg K T, mid.ts = f.ts ∧ c.imuMeas = taken ++ [left] ++ [mid] ∧ (p'.loaders i).imuMeas = mid :: rest) := by
  simp only [LProc.step] at hs
  rw [Res.bind_eq_ok] at hs
  obtain ⟨⟨l, out, ret⟩, h1, h2⟩ := hs
  simp only [Res.ok.injEq, Prod.mk.injEq] at h2
  obtain ⟨rfl, rfl⟩ := h2
  simp only [LProc.set_same]
  obtain ⟨_, h3⟩ := Loader.popPacked_cases h1
  rcases h3 with ⟨rfl, rfl, rfl⟩ | ⟨rfl, rfl, rfl⟩ | ⟨f, fs, m0, ms, taken, left, rest, rfl, hf, hq, hlt, ht, hb, h4⟩
  · exact Or.inl ⟨_, rfl, rfl⟩
  · exact Or.inl ⟨_, rfl, rfl⟩
  · right
    obtain ⟨hsplit, hle, _⟩ := Loader.takeUpTo_spec ht
    obtain ⟨tk, rfl⟩ := Loader.back_ok hb
    rcases h4 with ⟨h5, rfl, rfl⟩ | ⟨h5, right, hr, rfl, rfl⟩
    · exact ⟨_, f, tk, left, rest, rfl, rfl, by rw [hsplit]; simp, hle left (by simp), Or.inl ⟨rfl, rfl⟩⟩
    · exact ⟨_, f, tk, left, rest, rfl, rfl, by rw [hsplit]; simp, hle left (by simp), Or.inr ⟨_, rfl, rfl, rfl⟩⟩

theorem packets_cons (i : Nat) (op : LOp K T) (ops : List (LOp K T)) (o : LOut K T) (os : List (LOut K T)) :
    packets i (op :: ops) (o :: os) = packetOf i op o ++ packets i ops os := rfl

/-- The marked samples of the queue and of the packets: which ones were made by the loader. -/
theorem tile_run [TimeOrd T] {ops : List (LOp K T)} {p q : LProc K T} {outs : List (LOut K T)} (i : Nat) (hp : LProc.OffsetsFixed p) (hr : p.run ops = .ok (q, outs)) (hn : NoClearNoPopOne i ops)
    (m : List (ImuMsg K T × Bool)) (hm : m.map Prod.fst = (p.loaders i).imuMeas) :
    ∃ m' : List (ImuMsg K T × Bool),
      m'.map Prod.fst = glue ((packets i ops outs).map (·.imuMeas)) (q.loaders i).imuMeas ∧
      (m'.filter (fun x => !x.2)).map Prod.fst = (m.filter (fun x => !x.2)).map Prod.fst ++ acceptedImu i p.statics.lastImu ops ∧
      (∀ x, m.head? = some x → m'.head? = some x) ∧
      (∀ x ∈ m', x.2 = true → x ∈ m ∨ ∃ c ∈ packets i ops outs, ∃ f, c.featMeas = some f ∧ x.1.ts = f.ts) ∧
      Chained ((packets i ops outs).map (·.imuMeas)) (q.loaders i).imuMeas := by
  induction ops generalizing p outs m with
  | nil =>
    simp only [LProc.run, Res.ok.injEq, Prod.mk.injEq] at hr
    obtain ⟨rfl, rfl⟩ := hr
    exact ⟨m, by simpa [packets, glue] using hm, by simp [acceptedImu], fun x h => h, fun x h _ => Or.inl h, trivial⟩
  | cons op ops ih =>
    obtain ⟨p', o, os, h1, h2, rfl⟩ := LProc.run_cons_ok hr
    have hop := hn op (by simp)
    have ho := LProc.offsets_step _ _ _ _ hp h1
    have hn' : NoClearNoPopOne i ops := fun x hx => hn x (by simp [hx])
    have hst := (LProc.statics_step hp h1).1
    by_cases hk : ∃ b, op = .popPacked i b
    · obtain ⟨b, rfl⟩ := hk
      have hacc : acceptedImu i p.statics.lastImu (LOp.popPacked i b :: ops) = acceptedImu i p'.statics.lastImu ops := by
        rw [hst]; simp [acceptedImu, imuTimes]
      rcases packed_step h1 with ⟨c, rfl, hq⟩ | ⟨c, f, taken, left, rest, rfl, hcf, hq, hle, hcase⟩
      · obtain ⟨m', e1, e2, e3, e4, e5⟩ := ih ho h2 hn' m (by rw [hm, hq])
        rw [packets_cons, show packetOf i (LOp.popPacked i b) (LOut.popped false c) = [] from if_neg (by simp), List.nil_append]
        exact ⟨m', e1, by rw [hacc, e2], e3, e4, e5⟩
      · have hpk : packets i (LOp.popPacked i b :: ops) (LOut.popped true c :: os) = c :: packets i ops os := by
          rw [packets_cons, show packetOf i (LOp.popPacked i b) (LOut.popped true c) = [c] from if_pos ⟨rfl, rfl⟩]; rfl
        rw [hpk, hacc]
        rw [hq] at hm
        obtain ⟨mt, mr, rfl, hmt, hmr⟩ := List.map_eq_append_iff.1 hm
        obtain ⟨ml, mr, rfl, hml, hmr⟩ := List.map_eq_cons_iff.1 hmr
        rcases hcase with ⟨hc, hq'⟩ | ⟨mid, hts, hc, hq'⟩
        · obtain ⟨m', e1, e2, e3, e4, e5⟩ := ih ho h2 hn' (ml :: mr) (by rw [hq', List.map_cons, hml, hmr])
          have hh := e3 ml rfl
          obtain ⟨w, rfl⟩ : ∃ w, m' = ml :: w := by
            cases m' with
            | nil => cases hh
            | cons a w => cases hh; exact ⟨w, rfl⟩
          have hg : glue ((packets i ops os).map (·.imuMeas)) (q.loaders i).imuMeas = left :: w.map Prod.fst := by rw [← e1, List.map_cons, hml]
          refine ⟨mt ++ ml :: w, ?_, ?_, ?_, ?_, ?_⟩
          · simp only [List.map_cons, glue, hg, hc, List.map_append, hmt, hml]
            simp
          · simp only [List.filter_append, List.map_append] at e2 ⊢
            rw [e2, List.append_assoc]
          · intro x hx
            rw [List.head?_append] at hx ⊢
            exact hx
          · intro x hx hx2
            rcases List.mem_append.1 hx with hx | hx
            · exact Or.inl (List.mem_append_left _ hx)
            · rcases e4 x hx hx2 with h | ⟨c', hc', f', h'⟩
              · exact Or.inl (List.mem_append_right _ h)
              · exact Or.inr ⟨c', List.mem_cons_of_mem _ hc', f', h'⟩
          · exact ⟨⟨left, by show c.imuMeas.getLast? = _; rw [hc]; simp, by rw [hg]; rfl⟩, e5⟩
        · obtain ⟨m', e1, e2, e3, e4, e5⟩ := ih ho h2 hn' ((mid, true) :: mr) (by rw [hq', List.map_cons, hmr])
          have hh := e3 _ rfl
          obtain ⟨w, rfl⟩ : ∃ w, m' = (mid, true) :: w := by
            cases m' with
            | nil => cases hh
            | cons a w => cases hh; exact ⟨w, rfl⟩
          have hg : glue ((packets i ops os).map (·.imuMeas)) (q.loaders i).imuMeas = mid :: w.map Prod.fst := by rw [← e1, List.map_cons]
          refine ⟨mt ++ ml :: (mid, true) :: w, ?_, ?_, ?_, ?_, ?_⟩
          · simp only [List.map_cons, glue, hg, hc, List.map_append, hmt, hml]
            simp
          · have e2' : (w.filter (fun x => !x.2)).map Prod.fst = (mr.filter (fun x => !x.2)).map Prod.fst ++ acceptedImu i p'.statics.lastImu ops := by
              simpa using e2
            have h1 : ((mt ++ ml :: (mid, true) :: w).filter (fun x => !x.2)).map Prod.fst = ((mt ++ [ml]).filter (fun x => !x.2)).map Prod.fst ++ (w.filter (fun x => !x.2)).map Prod.fst := by
              rw [show mt ++ ml :: (mid, true) :: w = (mt ++ [ml]) ++ ((mid, true) :: w) by simp, List.filter_append, List.map_append]
              rfl
            rw [h1, e2', show mt ++ ml :: mr = (mt ++ [ml]) ++ mr by simp, List.filter_append (p := fun x => !x.2) (mt ++ [ml]) mr, List.map_append, List.append_assoc]
          · intro x hx
            rw [List.head?_append] at hx ⊢
            exact hx
          · intro x hx hx2
            rcases List.mem_append.1 hx with hx | hx
            · exact Or.inl (List.mem_append_left _ hx)
            · rcases List.mem_cons.1 hx with rfl | hx
              · exact Or.inl (by simp)
              · rcases e4 x hx hx2 with h | ⟨c', hc', f', h'⟩
                · rcases List.mem_cons.1 h with rfl | h
                  · exact Or.inr ⟨c, by simp, f, hcf, hts⟩
                  · exact Or.inl (by simp [h])
                · exact Or.inr ⟨c', List.mem_cons_of_mem _ hc', f', h'⟩
          · exact ⟨⟨mid, by show c.imuMeas.getLast? = _; rw [hc]; simp, by rw [hg]; rfl⟩, e5⟩
    · have hk' : ∀ b, op ≠ .popPacked i b := fun b e => hk ⟨b, e⟩
      have hf := (LProc.fifo_step i hp h1 hop.1 hk').1
      have hd : deliveredImu i [op] [o] = [] := by
        cases op <;> cases o <;> simp [deliveredImu]
        rename_i j r c
        intro e
        exact absurd (e ▸ rfl) hop.2
      rw [hd, List.nil_append] at hf
      obtain ⟨m', e1, e2, e3, e4, e5⟩ := ih ho h2 hn' (m ++ (acceptedImu i p.statics.lastImu [op]).map (fun x => (x, false))) (by
        rw [List.map_append, hm, ← hf, List.map_map]
        congr 1
        exact List.map_id _)
      have hpk : packetOf i op o = [] := by
        cases op <;> cases o <;> first | rfl | skip
        rename_i j n r c
        exact if_neg (fun e => hk' n (by rw [e.1]))
      rw [packets_cons, hpk, List.nil_append]
      refine ⟨m', e1, ?_, ?_, ?_, e5⟩
      · rw [e2, LProc.acceptedImu_cons i _ op ops, ← hst, List.filter_append, List.map_append, List.append_assoc]
        congr 2
        rw [List.filter_map, List.map_map]
        simp [Function.comp_def]
      · intro x hx
        apply e3
        rw [List.head?_append, hx]
        rfl
      · intro x hx hx2
        rcases e4 x hx hx2 with h | h
        · rcases List.mem_append.1 h with h | h
          · exact Or.inl h
          · obtain ⟨y, _, rfl⟩ := List.mem_map.1 h
            cases hx2
        · exact Or.inr h

theorem glue_sorted_cons [TimeOrd T] {c : List (ImuMsg K T)} {x : ImuMsg K T} {g : List (ImuMsg K T)} (hc : c.Pairwise (fun a b => TimeOps.le a.ts b.ts = true)) (hx : c.getLast? = some x)
    (hg : g.head? = some x) (hs : g.Pairwise (fun a b => TimeOps.le a.ts b.ts = true)) : (c ++ g.tail).Pairwise (fun a b => TimeOps.le a.ts b.ts = true) := by
  cases g with
  | nil => cases hg
  | cons y g =>
    cases hg
    obtain ⟨c', rfl⟩ := List.getLast?_eq_some_iff.1 hx
    obtain ⟨h1, h2⟩ := List.pairwise_cons.1 hs
    obtain ⟨h3, _, h5⟩ := List.pairwise_append.1 hc
    refine List.pairwise_append.2 ⟨hc, h2, fun a ha b hb => ?_⟩
    rcases List.mem_append.1 ha with ha | ha
    · exact TimeOrd.le_trans _ _ _ (h5 a ha x (by simp)) (h1 b hb)
    · rw [List.mem_singleton.1 ha]; exact h1 b hb

/-- With increasing pushes the tiles are in order. -/
theorem sorted_run [TimeOrd T] {ops : List (LOp K T)} {p q : LProc K T} {outs : List (LOut K T)} (i : Nat) (hp : LProc.OffsetsFixed p) (hv : LProc.QueuesValid p) (hi : LProc.ImuSorted p)
    (hinc : (p.statics.lastImu.toList ++ imuTimes ops).Pairwise (fun a b => TimeOps.lt a b = true)) (hr : p.run ops = .ok (q, outs)) (hn : NoClearNoPopOne i ops) :
    (glue ((packets i ops outs).map (·.imuMeas)) (q.loaders i).imuMeas).Pairwise (fun a b => TimeOps.le a.ts b.ts = true) := by
  induction ops generalizing p outs with
  | nil =>
    simp only [LProc.run, Res.ok.injEq, Prod.mk.injEq] at hr
    obtain ⟨rfl, rfl⟩ := hr
    exact (hi i).1.imp (fun h => tlt_le h)
  | cons op ops ih =>
    have hr0 := hr
    obtain ⟨p', o, os, h1, h2, rfl⟩ := LProc.run_cons_ok hr
    have hn' : NoClearNoPopOne i ops := fun x hx => hn x (by simp [hx])
    have ho := LProc.offsets_step _ _ _ _ hp h1
    have hv' := LProc.queuesValid_step hp hv h1
    have hinc0 := hinc
    rw [LProc.imuTimes_cons, ← List.append_assoc] at hinc
    obtain ⟨ha, hb, hc⟩ := List.pairwise_append.1 hinc
    have hs' : LProc.ImuSorted p' := LProc.imuSorted_step hp hv hi (fun t ht t' ht' => (List.pairwise_append.1 ha).2.2 t (by simp [ht]) t' ht') h1
    have hinc' : (p'.statics.lastImu.toList ++ imuTimes ops).Pairwise (fun a b => TimeOps.lt a b = true) := by
      rw [(LProc.statics_step hp h1).1]
      rcases LProc.imuTimes_single_le op with h | ⟨t, h⟩
      · rw [h] at hinc ⊢
        simpa using hinc
      · rw [h] at hinc ⊢
        simp only [List.append_assoc] at hinc
        simpa using (List.pairwise_append.1 hinc).2.1
    have hI := ih ho hv' hs' hinc' h2 hn'
    rw [packets_cons]
    by_cases hk : packetOf i op o = []
    · rw [hk, List.nil_append]; exact hI
    · have : ∃ b, op = .popPacked i b := by
        cases op <;> cases o <;> first | exact absurd rfl hk | skip
        rename_i j n r c
        by_cases hj : j = i
        · exact ⟨n, by rw [hj]⟩
        · exact absurd (if_neg (fun e => hj e.1)) hk
      obtain ⟨b, rfl⟩ := this
      rcases packed_step h1 with ⟨c, rfl, hq⟩ | ⟨c, f, taken, left, rest, rfl, hcf, hq, hle, hcase⟩
      · exact absurd (if_neg (by simp)) hk
      · rw [show packetOf i (LOp.popPacked i b) (LOut.popped true c) = [c] from if_pos ⟨rfl, rfl⟩]
        obtain ⟨m', e1, _, e3, _, _⟩ := tile_run i ho h2 hn' ((p'.loaders i).imuMeas.map (fun x => (x, false))) (by rw [List.map_map]; exact List.map_id _)
        have hQ := (hi i).1
        rw [hq, show taken ++ left :: rest = (taken ++ [left]) ++ rest by simp] at hQ
        have hT := (List.pairwise_append.1 hQ).1
        rcases hcase with ⟨hci, hq'⟩ | ⟨mid, hts, hci, hq'⟩
        · have hh : (glue ((packets i ops os).map (·.imuMeas)) (q.loaders i).imuMeas).head? = some left := by
            rw [← e1, List.head?_map, e3 (left, false) (by rw [hq']; rfl)]; rfl
          refine glue_sorted_cons (x := left) (by show List.Pairwise _ c.imuMeas; rw [hci]; exact hT.imp (fun h => tlt_le h)) (by show c.imuMeas.getLast? = _; rw [hci]; simp) hh hI
        · have hh : (glue ((packets i ops os).map (·.imuMeas)) (q.loaders i).imuMeas).head? = some mid := by
            rw [← e1, List.head?_map, e3 (mid, false) (by rw [hq']; rfl)]; rfl
          refine glue_sorted_cons (x := mid) ?_ (by show c.imuMeas.getLast? = _; rw [hci]; simp) hh hI
          · show List.Pairwise _ c.imuMeas
            rw [hci]
            refine List.pairwise_append.2 ⟨hT.imp (fun h => tlt_le h), List.pairwise_singleton _ _, fun x hx y hy => ?_⟩
            rw [List.mem_singleton.1 hy, hts]
            rcases List.mem_append.1 hx with hx | hx
            · exact TimeOrd.le_trans _ _ _ (tlt_le ((List.pairwise_append.1 hT).2.2 x hx left (by simp))) hle
            · rw [List.mem_singleton.1 hx]; exact hle

end Lemmas

section Main
variable {K T : Type} [Add K] [Sub K] [Mul K] [Neg K] [Div K] [Zero K] [One K] [ScalarFn K] [TimeOps T] [TimeCast T K] [TimeOrd T]

/-- C115: take any history from program start, or from a `Clear` of loader `i`, in which messages leave it only in packets.  The packets, each joined to the one before at the sample that both
share, followed by what is queued, are exactly the accepted IMU messages in order, with some samples put in between by the loader, each at the time of an image. -/
theorem C115_tiles (pre suf : List (LOp K T)) (p : LProc K T) (outs : List (LOut K T)) (i : Nat) (hpre : pre = [] ∨ ∃ pre', pre = pre' ++ [.clear i]) (hsuf : NoClearNoPopOne i suf)
    (h : LProc.init.run (pre ++ suf) = .ok (p, outs)) :
    Chained ((packets i suf (outs.drop pre.length)).map (·.imuMeas)) (p.loaders i).imuMeas ∧
    ∃ tiles : List (ImuMsg K T × Bool),
      tiles.map Prod.fst = glue ((packets i suf (outs.drop pre.length)).map (·.imuMeas)) (p.loaders i).imuMeas ∧
      (tiles.filter (fun x => !x.2)).map Prod.fst = acceptedImu i (imuTimes pre).getLast? suf ∧
      ∀ x ∈ tiles, x.2 = true → ∃ c ∈ packets i suf (outs.drop pre.length), ∃ f, c.featMeas = some f ∧ x.1.ts = f.ts := by
  obtain ⟨p', o1, o2, h1, h2, rfl, hlen⟩ := LProc.run_append h
  have ho := LProc.offsets_run LProc.offsets_init h1
  obtain ⟨hs1, _⟩ := LProc.statics_run LProc.offsets_init h1
  have he : (p'.loaders i).imuMeas = [] := by
    rcases hpre with rfl | ⟨pre', rfl⟩
    · simp only [LProc.run_nil, Res.ok.injEq, Prod.mk.injEq] at h1
      rw [← h1.1]
      rfl
    · obtain ⟨p'', _, _, _, h4, _, _⟩ := LProc.run_append h1
      obtain ⟨_, _, _, h5, h6, _⟩ := LProc.run_cons_ok h4
      simp only [LProc.run_nil, Res.ok.injEq, Prod.mk.injEq] at h6
      simp only [LProc.step, Res.ok.injEq, Prod.mk.injEq] at h5
      rw [← h6.1, ← h5.1]
      simp [Loader.clear]
  have e1 : p'.statics.lastImu = (imuTimes pre).getLast? := by
    rw [hs1]; cases (imuTimes pre).getLast? <;> rfl
  obtain ⟨m', m1, m2, _, m4, m5⟩ := tile_run i ho h2 hsuf [] (by rw [he]; rfl)
  rw [← hlen, List.drop_left]
  refine ⟨m5, m', m1, by rw [m2, e1]; rfl, fun x hx hx2 => ?_⟩
  rcases m4 x hx hx2 with h | h
  · cases h
  · exact h

/-- C115: with increasing times the samples of all packets, one packet behind the other, are in order of time. -/
theorem C115_sorted (ops : List (LOp K T)) (p : LProc K T) (outs : List (LOut K T)) (i : Nat) (hn : NoClearNoPopOne i ops)
    (hinc : (imuTimes ops).Pairwise (fun a b => TimeOps.lt a b = true)) (h : LProc.init.run ops = .ok (p, outs)) :
    (glue ((packets i ops outs).map (·.imuMeas)) (p.loaders i).imuMeas).Pairwise (fun a b => TimeOps.le a.ts b.ts = true) :=
  sorted_run i LProc.offsets_init LProc.queuesValid_init (by intro j; simp [LProc.init, Loader.init]) (by simpa [LProc.init] using hinc) h hn

end Main

/-- The time between the first and the last sample. -/
def span {K : Type} (l : List (ImuMsg K ℝ)) : ℝ := ((l.getLast?.map (·.ts)).getD 0) - ((l.head?.map (·.ts)).getD 0)

theorem span_glue {K : Type} : ∀ (cs : List (List (ImuMsg K ℝ))) (l : List (ImuMsg K ℝ)), Chained cs l → (cs.map span).sum + span l = span (glue cs l)
  | [], l, _ => by simp [glue]
  | c :: cs, l, ⟨⟨x, hx, hg⟩, hc⟩ => by
    have ih := span_glue cs l hc
    rw [List.map_cons, List.sum_cons, add_assoc, ih, glue]
    generalize glue cs l = g at hg ih
    obtain ⟨c', rfl⟩ := List.getLast?_eq_some_iff.1 hx
    cases g with
    | nil => cases hg
    | cons y g =>
      cases hg
      unfold span
      have h1 : (c' ++ [x] ++ g).head? = (c' ++ [x]).head? := by rw [List.head?_append]; cases c' <;> rfl
      have h2 : (c' ++ [x] ++ g).getLast? = (x :: g).getLast? := by rw [List.append_assoc, List.singleton_append, List.getLast?_append]; simp [List.getLast?_cons]
      rw [List.tail_cons, h1, h2]
      simp

/-- C115: no time is lost between packets and none is counted twice: the lengths of the packets and of the queue add up to the time from the first sample to the last one. -/
theorem C115_time {K : Type} [Add K] [Sub K] [Mul K] [Neg K] [Div K] [Zero K] [One K] [ScalarFn K] [TimeCast ℝ K] (ops : List (LOp K ℝ)) (p : LProc K ℝ) (outs : List (LOut K ℝ)) (i : Nat)
    (hn : NoClearNoPopOne i ops) (h : LProc.init.run ops = .ok (p, outs)) :
    ((packets i ops outs).map (fun c => span c.imuMeas)).sum + span (p.loaders i).imuMeas = span (glue ((packets i ops outs).map (·.imuMeas)) (p.loaders i).imuMeas) := by
  have hc : Chained ((packets i ops outs).map (·.imuMeas)) (p.loaders i).imuMeas := (C115_tiles [] ops p outs i (Or.inl rfl) hn h).1
  rw [← span_glue _ _ hc, List.map_map]
  rfl

/-! ### A concrete case -/

/-- Samples at 1, 2, ..., 6 and images at 2.5 and 4. -/
def exPackets : List (LOp ℚ ℚ) :=
  [.pushImu 0 ⟨0, 0, 1⟩, .pushImu 0 ⟨0, 0, 2⟩, .pushImu 0 ⟨0, 0, 3⟩, .pushFeatures 0 ⟨[], [], 5/2⟩, .popPacked 0 false, .pushImu 0 ⟨0, 0, 4⟩, .pushImu 0 ⟨0, 0, 5⟩, .pushFeatures 0 ⟨[], [], 4⟩,
    .popPacked 0 false, .pushImu 0 ⟨0, 0, 6⟩]

/-- C115: two packets that meet at the sample made for the first image; the second ends with a sample of the stream. -/
example : NoClearNoPopOne 0 exPackets ∧ (imuTimes exPackets).Pairwise (fun a b => TimeOps.lt a b = true) ∧
    (LProc.init.run exPackets).check (fun r => decide ((packets 0 exPackets r.2).map (fun c => c.imuMeas.map (·.ts)) = [[2, 3, 7/2], [7/2, 4, 5]] ∧ (r.1.loaders 0).imuMeas.map (·.ts) = [5, 6, 7])) = true := by
  refine ⟨?_, by decide +kernel, by decide +kernel⟩
  simp [NoClearNoPopOne, exPackets]

end Vio

/-
The initialisation is free of undefined behaviour on a consistent window, for every solver result; what it leaves.
-/
import Verif.Lemmas.UpdateOk
import Verif.Props.Backend
import Verif.Props.Attitude

set_option linter.unusedSectionVars false

namespace Vio
open Spec WinSpec AttSpec Update

variable {K T : Type} [Add K] [Sub K] [Mul K] [Neg K] [Div K] [Zero K] [One K] [ScalarFn K]
  [TimeOps T] [TimeCast T K]

theorem idx_of_getElem? {α : Type _} {l : List α} {i : Nat} {a : α} (h : l[i]? = some a) : idx l i = .ok a := by
  unfold idx
  rw [h]

namespace Backend

theorem triMultiView_ok (ext : Ext K) (f : Frame K T) (es : List (Nat × Nat)) : ∀ (w : Win K T),
    (∀ e ∈ es, ∃ o, (w.feat.heap e.2).observes[sub32 f.id (w.feat.heap e.2).first]? = some o ∧ ∀ x ∈ o.norms, x.1 < w.frm.extrinsics.length) →
    ∃ w', triMultiView ext f w es = .ok w' := by
  induction es with
  | nil => intro w _; exact ⟨w, rfl⟩
  | cons e es ih =>
    intro w h
    obtain ⟨o, h1, h2⟩ := h e (by simp)
    obtain ⟨vs, hv⟩ := (obsViews_iff w.frm f o.norms).2 h2
    obtain ⟨⟨good, pw⟩, ha⟩ := Triang.C53_defined ext (vs.map (·.q)) (vs.map (·.p)) (vs.map (·.n)) (w.feat.heap e.2).pw (by simp) (by simp)
    rw [triMultiView, idx_of_getElem? h1, Res.bind_ok, hv, Res.bind_ok, ha, Res.bind_ok]
    refine ih _ ?_
    intro e' he'
    obtain ⟨o', h1', h2'⟩ := h e' (by simp [he'])
    refine ⟨o', ?_, h2'⟩
    by_cases hr : e'.2 = e.2
    · rw [hr] at h1'
      simpa [FMgr.put, hr] using h1'
    · simpa [FMgr.put, hr] using h1'

/-- The features of the oldest frame begin there. -/
theorem first_frame_obs {l : Log K T} {w : Win K T} (hr : Rel l w) (hg : ∀ m ∈ l.msgs, GoodObs w.frm.extrinsics.length m) (f : Frame K T) (rest : List (Frame K T))
    (hf : w.frm.frames = f :: rest) (e : Nat × Nat) (he : e ∈ f.features) :
    ∃ o, (w.feat.heap e.2).observes[sub32 f.id (w.feat.heap e.2).first]? = some o ∧ ∀ x ∈ o.norms, x.1 < w.frm.extrinsics.length := by
  have h0 : w.frm.frames[0]? = some f := by rw [hf]; rfl
  have hl : 0 < l.msgs.length := by rw [← hr.len, hf]; simp
  have h1 : l.msgs[0]? = some l.msgs[0] := List.getElem?_eq_getElem hl
  obtain ⟨f1, -, f3, f4⟩ := hr.frames 0 f _ h0 h1
  have hlk : f.features.lookup e.1 = some e.2 := lookup_of_mem f3 he
  rw [f4 e.1] at hlk
  split at hlk
  · rename_i hs
    have ht := hr.tracks _ _ hlk
    obtain ⟨o, ho⟩ := Option.isSome_iff_exists.1 hs
    have hrep := ht.rep 0 _ h1
    rw [ho] at hrep
    split at hrep
    · rename_i hle
      have hlo := ht.lo
      have hlt := hr.lt
      have e1 : sub32 f.id (w.feat.heap e.2).first = 0 := by
        rw [f1, sub32_of_le (by omega) (by omega)]; omega
      have e2 : l.base + 0 - (w.feat.heap e.2).first = 0 := by omega
      rw [e2] at hrep
      refine ⟨o, by rw [e1]; exact hrep.symm, ?_⟩
      exact (tracks_goodObs _ ht hg o (List.mem_of_getElem? hrep.symm)).2.2
    · cases hrep
  · cases hlk

/-- A point needs an observation by camera 0, so there is a camera. -/
theorem estimateFramePose_ok (ext : Ext K) (prm : PnpParam K) {l : Log K T} {w : Win K T} (hr : Rel l w) (hg : ∀ m ∈ l.msgs, GoodObs w.frm.extrinsics.length m)
    (f f0 : Frame K T) (hf : f0 ∈ w.frm.frames) (h1 : f.features = f0.features) (h2 : f.id = f0.id) :
    ∃ good f', estimateFramePose ext prm w f = .ok (good, f') ∧ f'.key = f.key ∧ f'.v = f.v := by
  unfold estimateFramePose
  dsimp only
  split
  · exact ⟨_, _, rfl, rfl, rfl⟩
  · rename_i hl
    have hpos : 0 < w.frm.extrinsics.length := by
      have hne : framePoints w.feat f ≠ [] := by intro hc; rw [hc] at hl; simp at hl
      obtain ⟨x, hx⟩ := List.exists_mem_of_ne_nil _ hne
      unfold framePoints at hx
      rw [List.mem_filterMap] at hx
      obtain ⟨e, he, hx⟩ := hx
      split at hx
      · rw [h1] at he
        obtain ⟨hm, i, m, i1, i2, i3⟩ := rel_frameFeature hr f0 hf e he
        have hid := (hr.frames i f0 m i1 i2).id_eq
        rw [h2, hid, tracks_getNorm l e.1 _ (hr.tracks _ _ hm) hr.lt i m i2] at hx
        obtain ⟨o, ho⟩ := Option.isSome_iff_exists.1 i3
        rw [ho] at hx
        simp only [Option.bind_some, Option.map_eq_some_iff] at hx
        obtain ⟨n, hn, -⟩ := hx
        unfold Obs.getNorm at hn
        have hmem := mem_of_lookup hn
        have hobs := (report_some_mem ho).2
        exact (hg m (List.mem_of_getElem? i2) o hobs).2.2 _ hmem
      · cases hx
    have hi : idx w.frm.extrinsics 0 = .ok w.frm.extrinsics[0] := idx_of_getElem? (List.getElem?_eq_getElem hpos)
    rw [hi, Res.bind_ok]
    split
    · exact ⟨_, _, rfl, rfl, rfl⟩
    · exact ⟨_, _, rfl, rfl, rfl⟩

/-- Replaying samples into an empty queue. -/
theorem replay_ok (nExt : Nat) (g : Vec3 K) (n : Nat) (its : List (AttItem K T)) : ∀ (s : PropQueue K T),
    (s.items = [] ∧ n = 6 * (nExt + 1) ∨ s.items ≠ [] ∧ QDims s n) → its ≠ [] → ∃ s', replay true nExt g s its = .ok s' ∧ QDims s' n := by
  induction its with
  | nil => intro s _ h; exact absurd rfl h
  | cons it its ih =>
    intro s hs _
    rw [replay, if_pos rfl]
    have hq := propagate_qdims s nExt n g it.accel it.gyro it.ts hs
    by_cases hi : its = []
    · subst hi
      exact ⟨_, rfl, hq⟩
    · refine ih _ (.inr ⟨?_, hq⟩) hi
      have : (s.propagate nExt g it.accel it.gyro it.ts).items ≠ [] := by
        unfold PropQueue.propagate
        split <;> simp
      exact this

section Time
variable [LinearOrder T] [TimeLaws T]

theorem search_ok (ts thr : T) (l : List (AttItem K T)) : ∀ p : AttItem K T, ∃ r, Att.search ts thr (some p) l = .ok r := by
  induction l with
  | nil => intro p; exact ⟨_, rfl⟩
  | cons it l ih =>
    intro p
    rw [Att.search]
    split
    · dsimp only
      rw [Res.bind_ok]
      split
      · exact ⟨_, rfl⟩
      · split
        · exact ⟨_, rfl⟩
        · exact ⟨_, rfl⟩
    · exact ih it

/-- `GetAttitude` is always defined; when it succeeds, the newest item is at most `thr` older than the asked time. -/
theorem getAttitude_ok (s : Att K T) (ts thr : T) :
    ∃ r, s.getAttitude ts thr = .ok r ∧ (r ≠ none → ∃ b, s.items.getLast? = some b ∧ (ts ≤ b.ts ∨ TimeOps.sub ts b.ts ≤ thr)) := by
  unfold Att.getAttitude
  split
  · rename_i a b ha hb
    split
    · rename_i hle
      refine ⟨_, rfl, fun h => ⟨b, hb, .inr ?_⟩⟩
      split at h
      · rename_i hlt; exact le_of_lt ((TimeLaws.lt_iff _ _).1 hlt)
      · exact absurd rfl h
    · rename_i hle
      have hlt : ts ≤ b.ts := by
        by_contra hc
        exact hle ((TimeLaws.le_iff _ _).2 (le_of_lt (not_le.1 hc)))
      split
      · exact ⟨_, rfl, fun _ => ⟨b, hb, .inl hlt⟩⟩
      · rcases List.eq_nil_or_concat s.items with h0 | ⟨l', z, h0⟩
        · rw [h0] at hb; cases hb
        · rw [List.concat_eq_append] at h0
          have hz : z = b := by rw [h0] at hb; simpa using hb
          subst hz
          rw [h0, List.reverse_append, List.reverse_singleton, List.singleton_append, Att.search, if_neg hle]
          obtain ⟨r, hr⟩ := search_ok ts thr l'.reverse z
          exact ⟨r, hr, fun _ => ⟨z, by simp, .inl hlt⟩⟩
  · exact ⟨_, rfl, fun h => absurd rfl h⟩

variable [CastLaws T K]

/-- An item at most `per` older than `ts` is not old. -/
theorem not_old (ts per : T) (x : AttItem K T) (h : TimeOps.sub ts x.ts ≤ per) : ¬ Old ts (TimeCast.toK per : K) x := by
  intro ho
  have := CastLaws.gt_mono _ _ (TimeCast.toK per : K) h ho
  rw [CastLaws.lt_irrefl] at this
  cases this

/-- Cleaning is defined when the newest item is not old; the newest item survives. -/
theorem clean_ok (s : Att K T) (ts per : T) (a : AttItem K T) (ha : s.items.getLast? = some a) (h : TimeOps.sub ts a.ts ≤ per) :
    ∃ s', s.cleanOldItems ts (TimeCast.toK per : K) = .ok s' ∧ s'.items ≠ [] ∧ s'.items <:+ s.items ∧ s'.items.getLast? = some a ∧ s' = { s with items := s'.items } := by
  have hmem := List.mem_of_getLast? ha
  cases hc : s.cleanOldItems ts (TimeCast.toK per : K) with
  | ub t => exact absurd (((C27_ub_iff s ts _).1 ⟨t, hc⟩).2 a hmem) (not_old ts per a h)
  | ok s' =>
    refine ⟨s', rfl, ?_⟩
    rcases C27_clean s s' ts _ hc with ⟨h1, -⟩ | ⟨old, it, new, h1, -, -, rfl⟩
    · rw [h1] at hmem; cases hmem
    · refine ⟨by simp, ⟨old, h1.symm⟩, ?_, rfl⟩
      rw [h1, List.getLast?_append] at ha
      have hn : (it :: new).getLast? ≠ none := by simp
      obtain ⟨z, hz⟩ := Option.ne_none_iff_exists'.1 hn
      rw [hz] at ha
      simp only [Option.some_or] at ha
      rw [← ha]; exact hz

theorem sorted_le_last (l : List (AttItem K T)) (h : Sorted l) (a : AttItem K T) (ha : l.getLast? = some a) : ∀ x ∈ l, x.ts ≤ a.ts := by
  intro x hx
  rcases List.eq_nil_or_concat l with h0 | ⟨l', z, h0⟩
  · rw [h0] at hx; cases hx
  · rw [List.concat_eq_append] at h0
    subst h0
    have hz : z = a := by simpa using ha
    subst hz
    rcases List.mem_append.1 hx with hx | hx
    · exact (TimeLaws.le_iff _ _).1 ((List.pairwise_append.1 h).2.2 x hx z (by simp))
    · rw [List.mem_singleton.1 hx]

/-- Propagation queue of a running filter: sizes, and no state newer than the newest attitude.  With `ord` the newest state is as new as the newest attitude. -/
structure Live (ord : Prop) (q : PropQueue K T) (att : List (AttItem K T)) (n : Nat) : Prop where
  ne : q.items ≠ []
  dims : QDims q n
  last : ∃ a, att.getLast? = some a ∧ (∀ it ∈ q.items, it.ts ≤ a.ts) ∧ (ord → ∃ i, q.items.getLast? = some i ∧ i.ts = a.ts)

/-- `Initialize` on a window with a consistent log; the queue may already hold states, all of them with a covariance of size `n`. -/
theorem initialise_gen (env : Env K) (g : Vec3 K) (b : Backend K T) (l : Log K T) (ord : Prop) (n : Nat) (hm : b.mounted = true) (hr : Rel l b.u.w)
    (hg : ∀ m ∈ l.msgs, GoodObs b.u.w.frm.extrinsics.length m) (hs : Sorted b.att.items)
    (hi : b.u.q.items = [] ∧ n = 6 * (b.u.w.frm.extrinsics.length + 1) ∨ b.u.q.items ≠ [] ∧ QDims b.u.q n)
    (hle : ∀ a, b.att.items.getLast? = some a → ∀ it ∈ b.u.q.items, it.ts ≤ a.ts)
    (h0 : TimeOps.tlit 0 ≤ b.loader.imuPeriod) (h1 : TimeOps.mul b.loader.imuPeriod (TimeOps.tlit (55/100)) ≤ b.loader.imuPeriod) :
    ∃ good b', initialise env g b = .ok (good, b') ∧ KeepWin b.u.w b'.u.w ∧ b'.att.items <:+ b.att.items ∧ b'.att.items.getLast? = b.att.items.getLast? ∧
      (good = false → b'.u.q = b.u.q) ∧
      (good = true → 2 ≤ l.msgs.length ∧ Live ord b'.u.q b'.att.items n) := by
  unfold initialise
  split
  case h_2 => exact ⟨_, _, rfl, .refl _, List.suffix_refl _, rfl, fun _ => rfl, by simp⟩
  rename_i fi fj rest hfr
  dsimp only
  split
  · exact ⟨_, _, rfl, .refl _, List.suffix_refl _, rfl, fun _ => rfl, by simp⟩
  obtain ⟨a, ha, hat⟩ := getAttitude_ok b.att fi.ts (TimeOps.mul b.loader.imuPeriod (TimeOps.tlit (55/100)))
  rw [ha, Res.bind_ok]
  cases a with
  | none => exact ⟨_, _, rfl, .refl _, List.suffix_refl _, rfl, fun _ => rfl, by simp⟩
  | some q =>
    obtain ⟨z, hz, hz1⟩ := hat (by simp)
    dsimp only
    obtain ⟨fi', hfi⟩ : ∃ fi' : Frame K T, fi' = { fi with q := q, p := 0 } := ⟨_, rfl⟩
    have kfi : fi'.key = fi.key := by rw [hfi]; rfl
    have hff : fi'.features = fi.features := by rw [hfi]
    rw [← hfi]
    have hlen2 : 2 ≤ l.msgs.length := by rw [← hr.len, hfr]; simp
    have k1 : KeepWin b.u.w (setFrames b.u.w fi' fj rest) := by
      refine KeepWin.of_frames _ _ ?_ rfl rfl rfl
      rw [hfr]
      simp only [List.map_cons, kfi]
    have r1 := rel_keep hr k1
    have hg1 : ∀ m ∈ l.msgs, GoodObs (setFrames b.u.w fi' fj rest).frm.extrinsics.length m := hg
    obtain ⟨w1, hw1⟩ := triMultiView_ok env.ext fi' fi'.features (setFrames b.u.w fi' fj rest) (fun e he => first_frame_obs r1 hg1 fi' (fj :: rest) rfl e he)
    have hsb := (triMultiView_spec env.ext fi' fi'.features _ w1 hw1).1
    have k2 := k1.trans (SameBut.keep hsb)
    have r2 := rel_keep hr k2
    rw [hff] at hw1
    rw [hw1, Res.bind_ok]
    have hfr1 : w1.frm.frames = fi' :: fj :: rest := by rw [hsb.frm]; rfl
    have hg2 : ∀ m ∈ l.msgs, GoodObs w1.frm.extrinsics.length m := by rw [k2.ext]; exact hg
    obtain ⟨good, fj', he, e1, e2⟩ := estimateFramePose_ok env.ext b.pnp r2 hg2 { fj with q := q, p := 0 } fj (by rw [hfr1]; simp) rfl rfl
    rw [he, Res.bind_ok]
    dsimp only
    have kj : fj'.key = fj.key := e1
    have k3 : ∀ (x y : Frame K T), x.key = fi'.key → y.key = fj'.key → KeepWin b.u.w (setFrames w1 x y rest) := by
      intro x y hx hy
      refine k2.trans (KeepWin.of_frames _ _ ?_ rfl rfl rfl)
      rw [hfr1]
      simp only [List.map_cons, hx, hy, kj]
    cases good with
    | false => exact ⟨_, _, rfl, k3 _ _ rfl rfl, List.suffix_refl _, rfl, fun _ => rfl, by simp⟩
    | true =>
      simp only [Bool.not_true, Bool.false_eq_true, if_false]
      have hzp : TimeOps.sub fi.ts z.ts ≤ b.loader.imuPeriod := by
        rcases hz1 with h | h
        · refine le_trans ?_ h0
          rw [← TimeLaws.sub_self z.ts]
          exact TimeLaws.sub_le_sub_left _ _ _ h
        · exact h.trans h1
      obtain ⟨att, c1, c2, c3, c4, c5⟩ := clean_ok b.att fi.ts b.loader.imuPeriod z hz hzp
      obtain ⟨W, hW⟩ : ∃ W : Win K T, W = setFrames w1 { fi with q := q, p := 0, v := (fj'.p - 0).sdiv (TimeCast.toK (TimeOps.sub fj.ts fi.ts)) }
        { fj' with v := (fj'.p - 0).sdiv (TimeCast.toK (TimeOps.sub fj.ts fi.ts)) } rest := ⟨_, rfl⟩
      have kW : KeepWin b.u.w W := by rw [hW]; exact k3 _ _ (by rw [hfi]; rfl) rfl
      obtain ⟨st, hst⟩ : ∃ st : Motion K, st = ⟨0, (fj'.p - 0).sdiv (TimeCast.toK (TimeOps.sub fj.ts fi.ts)), q⟩ := ⟨_, rfl⟩
      obtain ⟨s', s1, s2⟩ := replay_ok b.u.w.frm.extrinsics.length g n att.items { b.u.q with initState := st } (hi.imp id fun h => ⟨h.1, ⟨⟨h.2.ex.items, h.2.ex.rows, h.2.ex.cols⟩, h.2.cov, h.2.rows, h.2.F⟩⟩) c2
      obtain ⟨-, -, -, -, r5, -⟩ := replay_spec _ _ _ _ _ _ s1
      dsimp only at r5
      have hip : initPropagator g (b.setWin W) st fi.ts = .ok { b.setWin W with att := att, u := { (b.setWin W).u with q := s' } } := by
        unfold initPropagator
        have : (b.setWin W).att.cleanOldItems fi.ts (TimeCast.toK (b.setWin W).loader.imuPeriod) = .ok att := c1
        rw [this, Res.bind_ok]
        have : replay (b.setWin W).mounted (b.setWin W).u.w.frm.extrinsics.length g { (b.setWin W).u.q with initState := st } att.items = .ok s' := by
          have e3 : (b.setWin W).u.w.frm.extrinsics.length = b.u.w.frm.extrinsics.length := kW.ext
          have e4 : (b.setWin W).mounted = true := hm
          rw [e3, e4]; exact s1
        rw [this, Res.bind_ok]
      rw [← hW, ← hst, hip, Res.bind_ok]
      have hne : s'.items ≠ [] := by
        intro hc
        rw [hc] at r5
        exact c2 (List.map_eq_nil_iff.1 (List.append_eq_nil_iff.1 r5.symm).2)
      obtain ⟨i0, is, hii⟩ := List.exists_cons_of_ne_nil hne
      dsimp only
      rw [hii, front_cons, Res.bind_ok]
      refine ⟨_, _, rfl, kW, c3, ?_, by simp, fun _ => ⟨hlen2, ?_⟩⟩
      · show att.items.getLast? = b.att.items.getLast?
        rw [c4, hz]
      · have hsa : Sorted att.items := hs.sublist c3.sublist
        refine ⟨hne, s2, z, c4, ?_, fun _ => ?_⟩
        · intro it hit
          have : it.ts ∈ b.u.q.items.map (·.ts) ++ att.items.map (·.ts) := by rw [← r5]; exact List.mem_map_of_mem hit
          rcases List.mem_append.1 this with this | this
          · obtain ⟨x, hx, hxt⟩ := List.mem_map.1 this
            rw [← hxt]
            exact hle z hz x hx
          · obtain ⟨x, hx, hxt⟩ := List.mem_map.1 this
            rw [← hxt]
            exact sorted_le_last _ hsa z c4 x hx
        · have hl := congrArg List.getLast? r5
          rw [List.getLast?_append, List.getLast?_map, List.getLast?_map, c4] at hl
          cases hq : s'.items.getLast? with
          | none => rw [hq] at hl; cases hl
          | some i =>
            rw [hq] at hl
            exact ⟨i, rfl, by simpa using hl⟩

/-- `Initialize` on a window with a consistent log. -/
theorem initialise_ok (env : Env K) (g : Vec3 K) (b : Backend K T) (l : Log K T) (ord : Prop) (hm : b.mounted = true) (hr : Rel l b.u.w)
    (hg : ∀ m ∈ l.msgs, GoodObs b.u.w.frm.extrinsics.length m) (hs : Sorted b.att.items) (hi : b.u.q.items = [])
    (h0 : TimeOps.tlit 0 ≤ b.loader.imuPeriod) (h1 : TimeOps.mul b.loader.imuPeriod (TimeOps.tlit (55/100)) ≤ b.loader.imuPeriod) :
    ∃ good b', initialise env g b = .ok (good, b') ∧ KeepWin b.u.w b'.u.w ∧ b'.att.items <:+ b.att.items ∧ b'.att.items.getLast? = b.att.items.getLast? ∧
      (good = false → b'.u.q.items = []) ∧
      (good = true → 2 ≤ l.msgs.length ∧ Live ord b'.u.q b'.att.items (6 * (b.u.w.frm.extrinsics.length + 1))) := by
  obtain ⟨good, b', e1, e2, e3, e4, e5, e6⟩ := initialise_gen env g b l ord _ hm hr hg hs (.inl ⟨hi, rfl⟩) (by rw [hi]; simp) h0 h1
  exact ⟨good, b', e1, e2, e3, e4, fun h => by rw [e5 h]; exact hi, e6⟩

end Time
end Backend
end Vio

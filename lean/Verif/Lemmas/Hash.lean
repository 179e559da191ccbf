/-
Two windows whose hash maps are iterated in different orders: every step of the window and of the filter keeps them so.
-/
import Verif.Model.Hash
import Verif.Props.OrderRun

set_option linter.unusedSectionVars false

namespace Vio
open Spec WinSpec Update

namespace Res

/-- If the first result is defined, so is the second, and they are related. -/
def Sim {α β : Type _} (R : α → β → Prop) (x : Res α) (y : Res β) : Prop := ∀ a, x = .ok a → ∃ b, y = .ok b ∧ R a b

theorem Sim.ok {α β : Type _} {R : α → β → Prop} {a : α} {b : β} (h : R a b) : Sim R (.ok a) (.ok b) := by
  intro x hx; cases hx; exact ⟨b, rfl, h⟩

theorem Sim.ub {α β : Type _} {R : α → β → Prop} {t : UB} {y : Res β} : Sim R (.ub t : Res α) y := by
  intro x hx; cases hx

theorem Sim.bind {α β γ δ : Type _} {R : α → β → Prop} {S : γ → δ → Prop} {x : Res α} {y : Res β} {f : α → Res γ} {g : β → Res δ} (h : Sim R x y)
    (hf : ∀ a b, x = .ok a → y = .ok b → R a b → Sim S (f a) (g b)) : Sim S (x >>= f) (y >>= g) := by
  intro c hc
  obtain ⟨a, ha, hc⟩ := Res.bind_eq_ok.1 hc
  obtain ⟨b, hb, hr⟩ := h a ha
  obtain ⟨d, hd, hs⟩ := hf a b ha hb hr c hc
  exact ⟨d, Res.bind_eq_ok.2 ⟨b, hb, hd⟩, hs⟩

theorem Sim.of_eq {α : Type _} {x y : Res α} (h : x = y) : Sim Eq x y := by
  intro a ha; exact ⟨a, h ▸ ha, rfl⟩

theorem Both.sim {α β : Type _} {R : α → β → Prop} {x : Res α} {y : Res β} (h : Both R x y) : Sim R x y := fun _ ha => h.ok ha

end Res
open Res

variable {K T : Type} [Add K] [Sub K] [Mul K] [Neg K] [Div K] [Zero K] [One K] [ScalarFn K]
  [TimeOps T] [TimeCast T K]

/-! ### The relations -/

theorem Frame.Reordered.refl (f : Frame K T) : f.Reordered f := ⟨rfl, .refl _, rfl, rfl, rfl, rfl, rfl⟩

theorem Frame.Reordered.trans {a b c : Frame K T} (h : a.Reordered b) (k : b.Reordered c) : a.Reordered c :=
  ⟨h.addr.trans k.addr, h.features.trans k.features, h.q.trans k.q, h.p.trans k.p, h.v.trans k.v, h.id.trans k.id, h.ts.trans k.ts⟩

theorem FMgr.Reordered.refl (s : FMgr K) : s.Reordered s := ⟨rfl, rfl, .refl _⟩

theorem FMgr.Reordered.trans {a b c : FMgr K} (h : a.Reordered b) (k : b.Reordered c) : a.Reordered c := ⟨h.heap.trans k.heap, h.next.trans k.next, h.map.trans k.map⟩

theorem FrameMgr.Reordered.refl (m : FrameMgr K T) : m.Reordered m := ⟨List.forall₂_same.2 fun _ _ => .refl _, rfl, rfl, rfl, rfl, rfl, rfl⟩

theorem forall₂_trans {α : Type _} {R : α → α → Prop} (hR : ∀ a b c, R a b → R b c → R a c) : ∀ {l1 l2 l3 : List α}, List.Forall₂ R l1 l2 → List.Forall₂ R l2 l3 → List.Forall₂ R l1 l3
  | _, _, _, .nil, .nil => .nil
  | _, _, _, .cons h1 t1, .cons h2 t2 => .cons (hR _ _ _ h1 h2) (forall₂_trans hR t1 t2)

theorem FrameMgr.Reordered.trans {a b c : FrameMgr K T} (h : a.Reordered b) (k : b.Reordered c) : a.Reordered c :=
  ⟨forall₂_trans (R := Frame.Reordered) (fun _ _ _ h k => Frame.Reordered.trans h k) h.frames k.frames, h.nextAddr.trans k.nextAddr, h.extrinsics.trans k.extrinsics, h.maxWindowSize.trans k.maxWindowSize,
    h.minTracked.trans k.minTracked, h.minParallax.trans k.minParallax, h.maxTranslation.trans k.maxTranslation⟩

theorem Win.Reordered.refl (w : Win K T) : w.Reordered w := ⟨.refl _, .refl _⟩

theorem Win.Reordered.trans {a b c : Win K T} (h : a.Reordered b) (k : b.Reordered c) : a.Reordered c := ⟨h.feat.trans k.feat, h.frm.trans k.frm⟩

theorem FrameMgr.Reordered.length {m m' : FrameMgr K T} (h : m.Reordered m') : m.frames.length = m'.frames.length := h.frames.length_eq

theorem FrameMgr.Reordered.last {m m' : FrameMgr K T} (h : m.Reordered m') :
    (m.frames.getLast? = none ∧ m'.frames.getLast? = none) ∨ ∃ f f', m.frames.getLast? = some f ∧ m'.frames.getLast? = some f' ∧ f.Reordered f' := forall₂_getLast h.frames

theorem FrameMgr.Reordered.back {m m' : FrameMgr K T} (h : m.Reordered m') : Sim Frame.Reordered (back m.frames) (back m'.frames) := by
  unfold Vio.back
  rcases h.last with ⟨h1, h2⟩ | ⟨f, f', h1, h2, h3⟩
  · rw [h1]; exact .ub
  · rw [h1, h2]; exact .ok h3

theorem FrameMgr.Reordered.front {m m' : FrameMgr K T} (h : m.Reordered m') : Sim Frame.Reordered (front m.frames) (front m'.frames) := by
  have hf := h.frames
  cases hm : m.frames with
  | nil => exact .ub
  | cons f fs =>
    rw [hm] at hf
    cases hm' : m'.frames with
    | nil => rw [hm'] at hf; cases hf
    | cons f' fs' =>
      rw [hm'] at hf
      cases hf with
      | cons h1 _ => exact .ok h1

theorem lookup_perm {α : Type _} {l l' : List (Nat × α)} (h : l.Perm l') (hn : (l.map (·.1)).Nodup) (k : Nat) : l.lookup k = l'.lookup k := by
  have hn' : (l'.map (·.1)).Nodup := (h.map _).nodup_iff.1 hn
  cases hl : l.lookup k with
  | some v => exact (lookup_of_mem hn' (h.mem_iff.1 (mem_of_lookup hl))).symm
  | none =>
    rw [lookup_eq_none_iff_keys, (h.map _).mem_iff] at hl
    exact ((lookup_eq_none_iff_keys _ _).2 hl).symm

/-! ### Insertion of a message -/

theorem addOne_hash {s s' : FMgr K} (h : s.Reordered s') (hw : s.WF) (fid id : Nat) (o : Obs K) :
    (s.addOne fid id o).1.Reordered (s'.addOne fid id o).1 ∧ (s.addOne fid id o).2 = (s'.addOne fid id o).2 := by
  unfold FMgr.addOne
  rw [← lookup_perm h.map hw.nodup id]
  cases s.map.lookup id with
  | some r => exact ⟨⟨by simp only [FMgr.put, h.heap], h.next, h.map⟩, rfl⟩
  | none => exact ⟨⟨by simp only [FMgr.put, h.heap, h.next], by simp only [h.next], by simp only [h.next]; exact h.map.append_right _⟩, h.next⟩

theorem addAll_hash (fid : Nat) (L : List (Nat × Obs K)) : ∀ {s s' : FMgr K}, s.Reordered s' → s.WF →
    (s.addAll fid L).1.Reordered (s'.addAll fid L).1 ∧ (s.addAll fid L).2 = (s'.addAll fid L).2 := by
  induction L with
  | nil => intro s s' h _; exact ⟨h, rfl⟩
  | cons e L ih =>
    intro s s' h hw
    obtain ⟨id, o⟩ := e
    rw [FMgr.addAll, FMgr.addAll]
    obtain ⟨h1, h2⟩ := addOne_hash h hw fid id o
    obtain ⟨h3, h4⟩ := ih h1 (s.addOne_spec hw fid id o).1
    exact ⟨h3, by dsimp only; rw [h2, h4]⟩

theorem addFeature_heap {s s' : FMgr K} (h : s.heap = s'.heap) (f : Frame K T) (rs : List Nat) : f.addFeatures s rs = f.addFeatures s' rs := by
  unfold Frame.addFeatures Frame.addFeature
  rw [h]

theorem insert_hash {w w' : Win K T} (h : w.Reordered w') (hw : w.feat.WF) (m : FeatMsg K T) : (w.insert m).Reordered (w'.insert m) := by
  have hnew : FrameMgr.setupNew { w.frm with nextAddr := w.frm.nextAddr + 1 } (Frame.make w.frm.nextAddr m.ts : Frame K T) =
      FrameMgr.setupNew { w'.frm with nextAddr := w'.frm.nextAddr + 1 } (Frame.make w'.frm.nextAddr m.ts) := by
    unfold FrameMgr.setupNew
    dsimp only
    rw [← h.frm.nextAddr]
    rcases h.frm.last with ⟨h1, h2⟩ | ⟨f, f', h1, h2, h3⟩
    · rw [h1, h2]
    · rw [h1, h2]
      simp only [h3.id, h3.q, h3.p, h3.v]
  unfold Win.insert FrameMgr.addNewFrame
  dsimp only
  rw [← hnew]
  generalize FrameMgr.setupNew { w.frm with nextAddr := w.frm.nextAddr + 1 } (Frame.make w.frm.nextAddr m.ts : Frame K T) = new
  unfold FMgr.addNewFeatures
  have hkey : ∀ (s s' : FMgr K) (rs : List Nat), s.Reordered s' →
      Win.Reordered ⟨s, { w.frm with nextAddr := w.frm.nextAddr + 1, frames := (w.frm.frames ++ [new]).dropLast ++ [new.addFeatures s rs] }⟩
        ⟨s', { w'.frm with nextAddr := w'.frm.nextAddr + 1, frames := (w'.frm.frames ++ [new]).dropLast ++ [new.addFeatures s' rs] }⟩ := by
    intro s s' rs hs
    refine ⟨hs, ⟨?_, by simp only [h.frm.nextAddr], h.frm.extrinsics, h.frm.maxWindowSize, h.frm.minTracked, h.frm.minParallax, h.frm.maxTranslation⟩⟩
    dsimp only
    rw [List.dropLast_concat, List.dropLast_concat, addFeature_heap hs.heap]
    exact List.rel_append (R := Frame.Reordered) h.frm.frames (.cons (.refl _) .nil)
  split
  · exact hkey _ _ _ h.feat
  · obtain ⟨h1, h2⟩ := addAll_hash new.id (m.ids.zip m.observes) h.feat hw
    dsimp only
    rw [← h2]
    exact hkey _ _ _ h1

/-! ### Marginalisation -/

theorem removeByFrameID_hash {s s' : FMgr K} (h : s.Reordered s') (hw : s.WF) (fid : Nat) (offset : Bool) : Sim FMgr.Reordered (s.removeByFrameID fid offset) (s'.removeByFrameID fid offset) := by
  have hd : ∀ e ∈ s.map, (s.heap e.2).observes ≠ [] := fun e he => hw.ne _ _ (s.lookup_mem hw he)
  have h1 := FMgr.removeLoop_spec fid offset s.map s (s.refs_nodup hw) hd
  have h2 := FMgr.removeLoop_spec fid offset s'.map s' ((h.map.map _).nodup_iff.1 (s.refs_nodup hw)) (fun e he => by rw [← h.heap]; exact hd e (h.map.mem_iff.2 he))
  unfold FMgr.removeByFrameID
  rw [h1, h2]
  refine .ok ⟨?_, h.next, ?_⟩
  · funext r
    dsimp only
    rw [← h.heap]
    have hiff : (r ∈ s.map.map (·.2)) ↔ (r ∈ s'.map.map (·.2)) := (h.map.map _).mem_iff
    simp only [hiff]
  · dsimp only
    rw [← h.heap]
    have hp := ((h.map.filter (fun e => (FMgr.bodyVal fid offset (s.heap e.2)).2)).map (fun e => (s.heap e.2).id))
    have hc : ∀ e : Nat × Nat, (!((s.map.filter (fun e => (FMgr.bodyVal fid offset (s.heap e.2)).2)).map (fun e => (s.heap e.2).id)).contains e.1) =
        (!((s'.map.filter (fun e => (FMgr.bodyVal fid offset (s.heap e.2)).2)).map (fun e => (s.heap e.2).id)).contains e.1) := by
      intro e
      rw [Bool.eq_iff_iff, Bool.not_eq_true', Bool.not_eq_true', ← Bool.not_eq_true, ← Bool.not_eq_true, List.contains_iff_mem, List.contains_iff_mem, hp.mem_iff]
    rw [funext hc]
    exact h.map.filter _

theorem forall₂_eraseIdx {α β : Type _} {R : α → β → Prop} {l : List α} {l' : List β} (h : List.Forall₂ R l l') : ∀ i, List.Forall₂ R (l.eraseIdx i) (l'.eraseIdx i) := by
  induction h with
  | nil => intro i; exact .nil
  | cons h t ih =>
    intro i
    cases i with
    | zero => exact t
    | succ i => exact .cons h (ih i)

theorem removeFrame_hash {m m' : FrameMgr K T} (h : m.Reordered m') (i : Nat) : (m.removeFrame i).1.Reordered (m'.removeFrame i).1 := by
  unfold FrameMgr.removeFrame
  rw [← h.length]
  split
  · exact h
  · refine ⟨?_, h.nextAddr, h.extrinsics, h.maxWindowSize, h.minTracked, h.minParallax, h.maxTranslation⟩
    dsimp only
    refine forall₂_eraseIdx ?_ i
    split
    · refine List.rel_append (R := Frame.Reordered) (List.forall₂_take i h.frames) ?_
      rw [List.forall₂_map_left_iff, List.forall₂_map_right_iff]
      refine (List.forall₂_drop i h.frames).imp (fun a b k => ?_)
      exact ⟨k.addr, k.features, k.q, k.p, k.v, by rw [k.id], k.ts⟩
    · exact h.frames

theorem marginalize_hash {w w' : Win K T} (h : w.Reordered w') (hw : w.feat.WF) (p : MargPolicy) : Sim Win.Reordered (w.marginalize p) (w'.marginalize p) := by
  cases p with
  | noMarg => exact .ok h
  | margNewest =>
    refine h.frm.back.bind (fun b b' _ _ hb => ?_)
    rw [← hb.id]
    refine (removeByFrameID_hash h.feat hw _ _).bind (fun s s' _ _ hs => ?_)
    rw [← h.frm.length]
    exact .ok ⟨hs, removeFrame_hash h.frm _⟩
  | margOldest =>
    refine h.frm.front.bind (fun b b' _ _ hb => ?_)
    rw [← hb.id]
    refine (removeByFrameID_hash h.feat hw _ _).bind (fun s s' _ _ hs => ?_)
    exact .ok ⟨hs, removeFrame_hash h.frm _⟩
  | margSubnew =>
    refine h.frm.back.bind (fun b b' _ _ hb => ?_)
    rw [← hb.id]
    refine (removeByFrameID_hash h.feat hw _ _).bind (fun s s' _ _ hs => ?_)
    rw [← h.frm.length]
    exact .ok ⟨hs, removeFrame_hash h.frm _⟩

theorem marginalize_wf (w w' : Win K T) (hw : w.feat.WF) (p : MargPolicy) (h : w.marginalize p = .ok w') : w'.feat.WF := by
  have key : ∀ fid off s, w.feat.removeByFrameID fid off = .ok s → s.WF := by
    intro fid off s hs
    obtain ⟨s', h1, h2⟩ := w.feat.removeByFrameID_wf hw fid off
    rw [hs] at h1
    cases h1
    exact h2
  cases p with
  | noMarg => cases h; exact hw
  | margNewest =>
    obtain ⟨_, _, h⟩ := Res.bind_eq_ok.1 h
    obtain ⟨s, hs, h⟩ := Res.bind_eq_ok.1 h
    cases h; exact key _ _ _ hs
  | margOldest =>
    obtain ⟨_, _, h⟩ := Res.bind_eq_ok.1 h
    obtain ⟨s, hs, h⟩ := Res.bind_eq_ok.1 h
    cases h; exact key _ _ _ hs
  | margSubnew =>
    obtain ⟨_, _, h⟩ := Res.bind_eq_ok.1 h
    obtain ⟨s, hs, h⟩ := Res.bind_eq_ok.1 h
    cases h; exact key _ _ _ hs

/-! ### The choice of the frame to remove -/

/-- The maps of the frames have unique keys and references. -/
def LinksNodup (m : FrameMgr K T) : Prop := ∀ f ∈ m.frames, (f.features.map (·.1)).Nodup ∧ (f.features.map (·.2)).Nodup

theorem findPrev_hash (addr : Nat) {l l' : List (Frame K T)} (h : List.Forall₂ Frame.Reordered l l') :
    (FrameMgr.findPrev addr l = none ∧ FrameMgr.findPrev addr l' = none) ∨ (FrameMgr.findPrev addr l = some none ∧ FrameMgr.findPrev addr l' = some none) ∨
      ∃ f f', FrameMgr.findPrev addr l = some (some f) ∧ FrameMgr.findPrev addr l' = some (some f') ∧ f.Reordered f' ∧ f ∈ l := by
  induction h with
  | nil => exact .inl ⟨rfl, rfl⟩
  | cons h t ih =>
    rw [FrameMgr.findPrev, FrameMgr.findPrev, ← h.addr]
    split
    · cases t with
      | nil => exact .inr (.inl ⟨rfl, rfl⟩)
      | cons h' t' => exact .inr (.inr ⟨_, _, rfl, rfl, h', by simp⟩)
    · rcases ih with ih | ih | ⟨f, f', i1, i2, i3, i4⟩
      · exact .inl ih
      · exact .inr (.inl ih)
      · exact .inr (.inr ⟨f, f', i1, i2, i3, List.mem_cons_of_mem _ i4⟩)

/-- Does a link count as tracked? -/
def counts (s : FMgr K) (frame pre : Frame K T) (e : Nat × Nat) : Bool :=
  match pre.features.lookup e.1 with
  | none => false
  | some pr => ((s.heap e.2).getNorm frame.id 0).isSome && ((s.heap pr).getNorm pre.id 0).isSome

theorem trackStep_count (s : FMgr K) (frame pre : Frame K T) (acc : Nat × K) (e : Nat × Nat) :
    (FrameMgr.trackStep s frame pre acc e).1 = if counts s frame pre e then add32 acc.1 1 else acc.1 := by
  unfold FrameMgr.trackStep counts
  cases pre.features.lookup e.1 with
  | none => rfl
  | some pr =>
    dsimp only
    cases (s.heap e.2).getNorm frame.id 0 with
    | none => rfl
    | some n =>
      dsimp only
      split <;> rename_i h <;> simp [h]

theorem trackStats_count (s : FMgr K) (frame pre : Frame K T) (l : List (Nat × Nat)) : ∀ acc : Nat × K,
    (l.foldl (FrameMgr.trackStep s frame pre) acc).1 = (fun n => add32 n 1)^[(l.filter (counts s frame pre)).length] acc.1 := by
  induction l with
  | nil => intro acc; rfl
  | cons e l ih =>
    intro acc
    rw [List.foldl_cons, ih, List.filter_cons, trackStep_count]
    split
    · rw [List.length_cons, Function.iterate_succ_apply]
    · rfl

theorem isKeyFrame_hash {w w' : Win K T} (h : w.Reordered w') (hl : LinksNodup w.frm) {f f' : Frame K T} (hf : f.Reordered f') :
    w.frm.isKeyFrame w.feat (some f) = w'.frm.isKeyFrame w'.feat (some f') := by
  unfold FrameMgr.isKeyFrame
  dsimp only
  rw [← hf.addr]
  have hrev : List.Forall₂ Frame.Reordered w.frm.frames.reverse w'.frm.frames.reverse := List.rel_reverse h.frm.frames
  rcases findPrev_hash f.addr hrev with ⟨h1, h2⟩ | ⟨h1, h2⟩ | ⟨a, a', h1, h2, h3, h4⟩
  · rw [h1, h2]
  · rw [h1, h2]
  · rw [h1, h2]
    dsimp only
    have hc : ∀ e, counts w.feat f a e = counts w'.feat f' a' e := by
      intro e
      unfold counts
      rw [← lookup_perm h3.features (hl a (List.mem_reverse.1 h4)).1, h.feat.heap, hf.id, h3.id]
    have hnum : (FrameMgr.trackStats w.feat f a).1 = (FrameMgr.trackStats w'.feat f' a').1 := by
      unfold FrameMgr.trackStats
      rw [trackStats_count, trackStats_count]
      dsimp only
      rw [← funext hc, ((hf.features).filter _).length_eq]
    rw [← hnum, ← h.frm.minTracked, ← h.frm.maxTranslation, ← hf.p, ← h3.p]

theorem decidePolicy_hash {w w' : Win K T} (h : w.Reordered w') (hl : LinksNodup w.frm) : decidePolicy w = decidePolicy w' := by
  unfold decidePolicy FrameMgr.needMarginalize
  rw [← h.frm.length, ← h.frm.maxWindowSize]
  split
  · have hrev : List.Forall₂ Frame.Reordered w.frm.frames.reverse w'.frm.frames.reverse := List.rel_reverse h.frm.frames
    generalize w.frm.frames.reverse = l at hrev
    generalize w'.frm.frames.reverse = l' at hrev
    match hrev with
    | .nil => rfl
    | .cons _ .nil => rfl
    | .cons _ (.cons h2 _) =>
      dsimp only
      rw [isKeyFrame_hash h hl h2]
  · rfl

/-! ### Triangulation of the features of a frame -/

/-- A pass over features, each of which is handled on its own: the manager, and the references for which the answer is yes. -/
def each (F : Feature K → Res (Bool × Feature K)) : FMgr K → List Nat → Res (FMgr K × List Nat)
  | s, [] => .ok (s, [])
  | s, r :: rs => do
    let x ← F (s.heap r)
    let y ← each F (s.put r x.2) rs
    .ok (y.1, if x.1 then r :: y.2 else y.2)

theorem each_defined (F : Feature K → Res (Bool × Feature K)) (rs : List Nat) : ∀ (s : FMgr K) (x : FMgr K × List Nat), rs.Nodup → each F s rs = .ok x →
    ∀ r ∈ rs, ∃ v, F (s.heap r) = .ok v := by
  induction rs with
  | nil => intro s x _ _ r hr; cases hr
  | cons r0 rs ih =>
    intro s x hn h r hr
    obtain ⟨v, hv, h⟩ := Res.bind_eq_ok.1 h
    obtain ⟨y, hy, h⟩ := Res.bind_eq_ok.1 h
    rw [List.nodup_cons] at hn
    rcases List.mem_cons.1 hr with hr | hr
    · rw [hr]; exact ⟨v, hv⟩
    · obtain ⟨v', hv'⟩ := ih _ _ hn.2 hy r hr
      have hne : r ≠ r0 := fun hc => hn.1 (hc ▸ hr)
      rw [FMgr.put_other _ _ hne] at hv'
      exact ⟨v', hv'⟩

theorem each_closed (F : Feature K → Res (Bool × Feature K)) (V : Nat → Bool × Feature K) (rs : List Nat) : ∀ s : FMgr K, rs.Nodup → (∀ r ∈ rs, F (s.heap r) = .ok (V r)) →
    each F s rs = .ok ({ s with heap := fun r => if r ∈ rs then (V r).2 else s.heap r }, rs.filter (fun r => (V r).1)) := by
  induction rs with
  | nil => intro s _ _; simp [each]
  | cons r0 rs ih =>
    intro s hn h
    rw [List.nodup_cons] at hn
    rw [each, h r0 List.mem_cons_self]
    simp only [Res.bind_ok]
    rw [ih (s.put r0 (V r0).2) hn.2 (fun r hr => by
      have hne : r ≠ r0 := by rintro rfl; exact hn.1 hr
      rw [FMgr.put_other _ _ hne]; exact h r (List.mem_cons_of_mem _ hr))]
    simp only [Res.bind_ok, Res.ok.injEq, Prod.mk.injEq]
    constructor
    · show FMgr.mk _ _ _ = FMgr.mk _ _ _
      congr 1
      funext r
      by_cases h1 : r = r0
      · subst h1; simp [hn.1]
      · simp only [List.mem_cons, h1, false_or]
        rw [FMgr.put_other s _ h1]
    · rw [List.filter_cons]

/-- The order of the features does not matter. -/
theorem each_perm (F : Feature K → Res (Bool × Feature K)) {rs rs' : List Nat} (hp : rs.Perm rs') (hn : rs.Nodup) {s s' : FMgr K} (hs : s.Reordered s') :
    Sim (fun x y => x.1.Reordered y.1 ∧ x.2.Perm y.2) (each F s rs) (each F s' rs') := by
  intro x hx
  have hd := each_defined F rs s x hn hx
  classical
  obtain ⟨V, hV⟩ : ∃ V : Nat → Bool × Feature K, ∀ r ∈ rs, F (s.heap r) = .ok (V r) := by
    refine ⟨fun r => if h : r ∈ rs then (hd r h).choose else (false, s.heap r), fun r hr => ?_⟩
    dsimp only
    rw [dif_pos hr]
    exact (hd r hr).choose_spec
  rw [each_closed F V rs s hn hV] at hx
  cases hx
  refine ⟨_, each_closed F V rs' s' (hp.nodup_iff.1 hn) (fun r hr => by rw [← hs.heap]; exact hV r (hp.mem_iff.2 hr)), ⟨?_, hs.next, hs.map⟩, hp.filter _⟩
  funext r
  simp only [hp.mem_iff, hs.heap]

theorem getFrame_hash {m m' : FrameMgr K T} (h : m.Reordered m') (id : Nat) :
    (m.getFrame id = none ∧ m'.getFrame id = none) ∨ ∃ f f', m.getFrame id = some f ∧ m'.getFrame id = some f' ∧ f.Reordered f' := by
  have hfind : ∀ {l l' : List (Frame K T)}, List.Forall₂ Frame.Reordered l l' →
      (l.find? (fun f => f.id == id) = none ∧ l'.find? (fun f => f.id == id) = none) ∨ ∃ f f', l.find? (fun f => f.id == id) = some f ∧ l'.find? (fun f => f.id == id) = some f' ∧ f.Reordered f' := by
    intro l l' hl
    induction hl with
    | nil => exact .inl ⟨rfl, rfl⟩
    | cons h t ih =>
      rw [List.find?_cons, List.find?_cons, ← h.id]
      split
      · exact .inr ⟨_, _, rfl, rfl, h⟩
      · exact ih
  unfold FrameMgr.getFrame
  have hf := h.frames
  have hlast := h.last
  cases hm : m.frames with
  | nil =>
    rw [hm] at hf
    rw [List.forall₂_nil_left_iff.1 hf]
    exact .inl ⟨rfl, rfl⟩
  | cons a t =>
    rw [hm] at hf hlast
    cases hm' : m'.frames with
    | nil => rw [hm'] at hf; cases hf
    | cons a' t' =>
      rw [hm'] at hf hlast
      rcases hlast with ⟨h1, h2⟩ | ⟨b, b', h1, h2, h3⟩
      · simp at h1
      · rw [h1, h2]
        dsimp only [List.head?_cons]
        have ha : a.Reordered a' := by cases hf with | cons h _ => exact h
        rw [← ha.id, ← h3.id]
        split
        · exact .inl ⟨rfl, rfl⟩
        · exact hfind hf

theorem obsViews_hash {m m' : FrameMgr K T} (h : m.Reordered m') {f f' : Frame K T} (hf : f.Reordered f') (ns : List (Nat × Vec2 K)) : obsViews m f ns = obsViews m' f' ns := by
  induction ns with
  | nil => rfl
  | cons x ns ih =>
    obtain ⟨c, n⟩ := x
    rw [obsViews, obsViews, ih, h.extrinsics, hf.q, hf.p]

theorem featViews_hash {m m' : FrameMgr K T} (h : m.Reordered m') (first : Nat) (os : List (Obs K)) : ∀ i, featViews m first i os = featViews m' first i os := by
  induction os with
  | nil => intro i; rfl
  | cons o os ih =>
    intro i
    rw [featViews, featViews, ih]
    rcases getFrame_hash h (add32 i first) with ⟨h1, h2⟩ | ⟨f, f', h1, h2, h3⟩
    · rw [h1, h2]; rfl
    · rw [h1, h2]
      show (do let vs ← obsViews m f o.norms; _) = (do let vs ← obsViews m' f' o.norms; _)
      rw [obsViews_hash h h3]

/-- What triangulation does to one feature. -/
def triOne (ext : Ext K) (m : FrameMgr K T) (f : Feature K) : Res (Bool × Feature K) := do
  let vs ← featViews m f.first 0 f.observes
  let x ← Triang.analytic ext (vs.map (·.q)) (vs.map (·.p)) (vs.map (·.n)) f.pw
  .ok (x.1, { f with pw := x.2, status := if x.1 then .solved else .unsolved })

theorem triangulate_one (ext : Ext K) (w : Win K T) (r : Nat) : triangulate ext w r = (do let x ← triOne ext w.frm (w.feat.heap r); .ok (x.1, { w with feat := w.feat.put r x.2 })) := by
  unfold triangulate triOne
  dsimp only
  cases featViews w.frm (w.feat.heap r).first 0 (w.feat.heap r).observes with
  | ub t => rfl
  | ok vs =>
    simp only [Res.bind_ok]
    cases Triang.analytic ext (vs.map (·.q)) (vs.map (·.p)) (vs.map (·.n)) (w.feat.heap r).pw with
    | ub t => rfl
    | ok x => rfl

theorem solvedRefs_each (ext : Ext K) (todo : List (Nat × Nat)) : ∀ w : Win K T,
    solvedRefs ext w todo = (do let x ← each (triOne ext w.frm) w.feat (todo.map (·.2)); .ok ({ w with feat := x.1 }, x.2)) := by
  induction todo with
  | nil => intro w; rfl
  | cons e todo ih =>
    intro w
    rw [solvedRefs, triangulate_one, List.map_cons, each]
    cases triOne ext w.frm (w.feat.heap e.2) with
    | ub t => rfl
    | ok x =>
      simp only [Res.bind_ok]
      rw [ih]
      dsimp only
      cases each (triOne ext w.frm) (w.feat.put e.2 x.2) (todo.map (·.2)) with
      | ub t => rfl
      | ok y => rfl

/-- What the triangulation of the first frame does to one feature. -/
def triFirst (ext : Ext K) (m : FrameMgr K T) (fr : Frame K T) (f : Feature K) : Res (Bool × Feature K) := do
  let o ← idx f.observes (sub32 fr.id f.first)
  let vs ← obsViews m fr o.norms
  let x ← Triang.analytic ext (vs.map (·.q)) (vs.map (·.p)) (vs.map (·.n)) f.pw
  .ok (x.1, { f with pw := x.2, status := if x.1 then .solved else .unsolved })

theorem triMultiView_each (ext : Ext K) (fr : Frame K T) (todo : List (Nat × Nat)) : ∀ w : Win K T,
    Backend.triMultiView ext fr w todo = (do let x ← each (triFirst ext w.frm fr) w.feat (todo.map (·.2)); .ok { w with feat := x.1 }) := by
  induction todo with
  | nil => intro w; rfl
  | cons e todo ih =>
    intro w
    rw [Backend.triMultiView, List.map_cons, each, triFirst]
    dsimp only
    cases idx (w.feat.heap e.2).observes (sub32 fr.id (w.feat.heap e.2).first) with
    | ub t => rfl
    | ok o =>
      simp only [Res.bind_ok]
      cases obsViews w.frm fr o.norms with
      | ub t => rfl
      | ok vs =>
        simp only [Res.bind_ok]
        cases Triang.analytic ext (vs.map (·.q)) (vs.map (·.p)) (vs.map (·.n)) (w.feat.heap e.2).pw with
        | ub t => rfl
        | ok x =>
          simp only [Res.bind_ok]
          rw [ih]
          dsimp only
          cases each (triFirst ext w.frm fr) (w.feat.put e.2 { w.feat.heap e.2 with pw := x.2, status := if x.1 = true then FStatus.solved else FStatus.unsolved }) (todo.map (·.2)) with
          | ub t => rfl
          | ok y => rfl

theorem triOne_hash (ext : Ext K) {m m' : FrameMgr K T} (h : m.Reordered m') : triOne ext m = triOne ext m' := by
  funext f
  unfold triOne
  rw [featViews_hash h]

theorem triFirst_hash (ext : Ext K) {m m' : FrameMgr K T} (h : m.Reordered m') {f f' : Frame K T} (hf : f.Reordered f') : triFirst ext m f = triFirst ext m' f' := by
  funext ft
  unfold triFirst
  rw [← hf.id]
  simp only [obsViews_hash h hf]

theorem solvedRefs_hash (ext : Ext K) {w w' : Win K T} (h : w.Reordered w') {l l' : List (Nat × Nat)} (hp : l.Perm l') (hn : (l.map (·.2)).Nodup) :
    Sim (fun x y => x.1.Reordered y.1 ∧ x.2.Perm y.2) (solvedRefs ext w l) (solvedRefs ext w' l') := by
  rw [solvedRefs_each, solvedRefs_each, ← triOne_hash ext h.frm]
  refine (each_perm _ (hp.map _) hn h.feat).bind (fun x y _ _ hxy => ?_)
  exact .ok ⟨⟨hxy.1, h.frm⟩, hxy.2⟩

theorem triMultiView_hash (ext : Ext K) {w w' : Win K T} (h : w.Reordered w') {f f' : Frame K T} (hf : f.Reordered f') {l l' : List (Nat × Nat)} (hp : l.Perm l') (hn : (l.map (·.2)).Nodup) :
    Sim Win.Reordered (Backend.triMultiView ext f w l) (Backend.triMultiView ext f' w' l') := by
  rw [triMultiView_each, triMultiView_each, ← triFirst_hash ext h.frm hf]
  refine (each_perm _ (hp.map _) hn h.feat).bind (fun x y _ _ hxy => ?_)
  exact .ok ⟨hxy.1, h.frm⟩

/-- The selections take the same features. -/
theorem selectGood_hash (env env' : Env K) (he : env.ext.svdLast = env'.ext.svdLast) (maxUsed : Nat) {w w' : Win K T} (hw : w.Reordered w') (pos : Nat) (f : Frame K T)
    (hb : w.frm.frames.getLast? = some f) (hnd : (f.features.map (·.2)).Nodup) (hk : KeysDiffer env pos f.features.length) (hk' : KeysDiffer env' pos f.features.length)
    (hmax : f.features.length ≤ maxUsed) :
    Sim (fun x y => x.1.Reordered y.1 ∧ x.2.1.Perm y.2.1 ∧ x.2.2 = y.2.2) (selectGood env maxUsed w pos) (selectGood env' maxUsed w' pos) := by
  obtain ⟨f', hb', hf⟩ : ∃ f', w'.frm.frames.getLast? = some f' ∧ f.Reordered f' := by
    rcases hw.frm.last with ⟨h1, h2⟩ | ⟨a, a', h1, h2, h3⟩
    · rw [hb] at h1; cases h1
    · rw [hb] at h1; cases h1; exact ⟨a', h2, h3⟩
  have hl : ∀ (e : Env K) (v : Win K T) (fr : Frame K T), v.frm.frames.getLast? = some fr →
      selectGood e maxUsed v pos = (solvedRefs e.ext v fr.features).bind (fun x => .ok (x.1, ((insertAll e [] pos x.2).reverse.map (·.2)).take maxUsed, pos + x.2.length)) := by
    intro e v fr hv
    unfold selectGood
    rw [back, hv]
    simp only [Res.bind_ok]
    rw [selectLoop_solved]
    cases solvedRefs e.ext v fr.features <;> rfl
  have bound : ∀ (fr : Frame K T) (v : Win K T), fr.features.length ≤ maxUsed → ((fr.features.map (·.2)).filter (fun r => decide ((v.feat.heap r).status = .solved))).length ≤ maxUsed := by
    intro fr v hfr
    refine (List.length_filter_le _ _).trans ?_
    rw [List.length_map]; exact hfr
  have e1 := hl env w f hb
  have e2 := hl env' w' f' hb'
  rw [← solvedRefs_ext env.ext env'.ext he] at e2
  intro x hx
  rw [hx] at e1
  obtain ⟨⟨w1, l⟩, hs, hx1⟩ := Res.bind_eq_ok.1 e1.symm
  obtain ⟨⟨w1', l'⟩, hs', r1, r2⟩ := solvedRefs_hash env.ext hw hf.features hnd _ hs
  rw [hs'] at e2
  cases hx1
  have hlen := hf.features.length_eq
  have p1 := (C84_selected env maxUsed w w1 pos _ _ f hb hnd hx hk (bound f w1 hmax)).1
  have p2 := (C84_selected env' maxUsed w' w1' pos _ _ f' hb' ((hf.features.map _).nodup_iff.1 hnd) e2 (by rw [← hlen]; exact hk') (bound f' w1' (by rw [← hlen]; exact hmax))).1
  refine ⟨_, e2, r1, ?_, ?_⟩
  · refine p1.trans (List.Perm.trans ?_ p2.symm)
    rw [r1.feat.heap]
    exact (hf.features.map _).filter _
  · show pos + l.length = pos + l'.length
    rw [r2.length_eq]

/-! ### The measurement equations -/

theorem measNorm_hash {m m' : FrameMgr K T} (h : m.Reordered m') {f f' : Frame K T} (hf : f.Reordered f') (frameID frontId backId : Nat) (pw : Vec3 K) (row : Nat) (a : DMat K) (c : Nat) (n : Vec2 K) :
    measNorm m f frameID frontId backId pw row a c n = measNorm m' f' frameID frontId backId pw row a c n := by
  unfold measNorm Update.residual jacPw jacPwb jacRwb jacPbc jacRbc camPoint bodyPoint
  rw [h.extrinsics, hf.q, hf.p]

theorem measNorms_hash {m m' : FrameMgr K T} (h : m.Reordered m') {f f' : Frame K T} (hf : f.Reordered f') (frameID frontId backId : Nat) (pw : Vec3 K) (ns : List (Nat × Vec2 K)) :
    ∀ row a, measNorms m f frameID frontId backId pw row a ns = measNorms m' f' frameID frontId backId pw row a ns := by
  induction ns with
  | nil => intro row a; rfl
  | cons x ns ih =>
    intro row a
    obtain ⟨c, n⟩ := x
    rw [measNorms, measNorms, measNorm_hash h hf]
    simp only [ih]

theorem measLoop_hash {m m' : FrameMgr K T} (h : m.Reordered m') (ft : Feature K) (os : List (Obs K)) : ∀ i row a, measLoop m ft i row a os = measLoop m' ft i row a os := by
  induction os with
  | nil => intro i row a; rfl
  | cons o os ih =>
    intro i row a
    rw [measLoop, measLoop]
    dsimp only
    rcases getFrame_hash h (add32 i ft.first) with ⟨h1, h2⟩ | ⟨f, f', h1, h2, h3⟩
    · rw [h1, h2]
    · rw [h1, h2]
      dsimp only
      have hne : m.frames ≠ [] := by
        intro hc
        unfold FrameMgr.getFrame at h1
        rw [hc] at h1
        cases h1
      obtain ⟨a0, ha⟩ : ∃ a0, front m.frames = .ok a0 := by
        cases hm : m.frames with
        | nil => exact absurd hm hne
        | cons x l => exact ⟨x, rfl⟩
      obtain ⟨b0, hb⟩ : ∃ b0, back m.frames = .ok b0 := by
        refine ⟨m.frames.getLast hne, ?_⟩
        unfold back
        rw [List.getLast?_eq_some_getLast hne]
      obtain ⟨a0', ha', ra⟩ := h.front _ ha
      obtain ⟨b0', hb', rb⟩ := h.back _ hb
      rw [ha, ha', hb, hb']
      simp only [Res.bind_ok]
      rw [← ra.id, ← rb.id, measNorms_hash h h3]
      simp only [ih]

theorem hxCols_hash {m m' : FrameMgr K T} (h : m.Reordered m') : hxCols m = hxCols m' := by
  unfold hxCols
  rw [h.extrinsics, h.length]

theorem stackLoop_hash (ext : Ext K) {w w' : Win K T} (h : w.Reordered w') (fs : List Nat) : ∀ n a, stackLoop ext w n a fs = stackLoop ext w' n a fs := by
  induction fs with
  | nil => intro n a; rfl
  | cons r fs ih =>
    intro n a
    rw [stackLoop, stackLoop]
    unfold measFeature
    rw [← h.feat.heap, ← hxCols_hash h.frm, measLoop_hash h.frm]
    simp only [ih]

theorem measure_hash (env : Env K) {w w' : Win K T} (h : w.Reordered w') (fs : List Nat) : Update.measure env w fs = Update.measure env w' fs := by
  unfold Update.measure hxRows
  rw [stackLoop_hash env.ext h, hxCols_hash h.frm, h.feat.heap]

theorem solve_hash (env : Env K) (noise : K) (P : DMat K) {w w' : Win K T} (h : w.Reordered w') (fs : List Nat) : solve env noise P w fs = solve env noise P w' fs := by
  unfold solve
  rw [measure_hash env h]

/-! ### The rest of the update -/

theorem constructCov_hash (s : PropQueue K T) {m m' : FrameMgr K T} (h : m.Reordered m') : constructCov s m = constructCov s m' := by
  unfold constructCov
  rw [h.extrinsics, h.length]

theorem setBack_hash {l l' : List (Frame K T)} (h : List.Forall₂ Frame.Reordered l l') (st : Motion K) : List.Forall₂ Frame.Reordered (setBack l st) (setBack l' st) := by
  unfold setBack
  rcases forall₂_getLast h with ⟨h1, h2⟩ | ⟨f, f', h1, h2, h3⟩
  · rw [h1, h2]; exact h
  · rw [h1, h2]
    dsimp only
    refine List.rel_append (R := Frame.Reordered) ?_ (.cons ⟨h3.addr, h3.features, rfl, rfl, rfl, h3.id, h3.ts⟩ .nil)
    rw [List.dropLast_eq_take, List.dropLast_eq_take, h.length_eq]
    exact List.forall₂_take _ h

theorem updateNewest_hash (s : PropQueue K T) {m m' : FrameMgr K T} (h : m.Reordered m') : Sim (fun x y => x.1 = y.1 ∧ x.2.Reordered y.2) (updateNewest s m) (updateNewest s m') := by
  unfold updateNewest
  rw [← forall₂_isEmpty h.frames]
  split
  · exact .ok ⟨rfl, h⟩
  · refine (Sim.of_eq rfl).bind (fun i _ _ _ e => ?_)
    subst e
    exact .ok ⟨rfl, setBack_hash h.frames i.st, h.nextAddr, h.extrinsics, h.maxWindowSize, h.minTracked, h.minParallax, h.maxTranslation⟩

theorem corrFrames_hash (dx : DMat K) (backId offset : Nat) (st : Motion K) {l l' : List (Frame K T)} (h : List.Forall₂ Frame.Reordered l l') : ∀ i,
    Sim (List.Forall₂ Frame.Reordered) (corrFrames dx backId offset st i l) (corrFrames dx backId offset st i l') := by
  induction h with
  | nil => intro i; exact .ok .nil
  | cons h t ih =>
    intro i
    rw [corrFrames, corrFrames, ← h.id]
    split
    · exact .ok (.cons ⟨h.addr, h.features, rfl, rfl, rfl, rfl, h.ts⟩ t)
    · refine (Sim.of_eq rfl).bind (fun dp _ _ _ e => ?_); subst e
      refine (Sim.of_eq rfl).bind (fun dr _ _ _ e => ?_); subst e
      refine (ih (i + 1)).bind (fun rest rest' _ _ hr => ?_)
      exact .ok (.cons ⟨h.addr, h.features, by dsimp only; rw [h.q], by dsimp only; rw [h.p], h.v, rfl, h.ts⟩ hr)

theorem correct_hash (dx : DMat K) (s : PropQueue K T) {m m' : FrameMgr K T} (h : m.Reordered m') : Sim (fun x y => x.1 = y.1 ∧ x.2.Reordered y.2) (correct dx s m) (correct dx s m') := by
  unfold correct
  cases s.items with
  | nil => exact .ub
  | cons i0 rest =>
    dsimp only
    refine (Sim.of_eq rfl).bind (fun dp _ _ _ e => ?_); subst e
    refine (Sim.of_eq rfl).bind (fun dv _ _ _ e => ?_); subst e
    refine (Sim.of_eq rfl).bind (fun dr _ _ _ e => ?_); subst e
    refine (Sim.of_eq rfl).bind (fun dba _ _ _ e => ?_); subst e
    refine (Sim.of_eq rfl).bind (fun dbg _ _ _ e => ?_); subst e
    rw [← h.extrinsics]
    refine (Sim.of_eq rfl).bind (fun ex _ _ _ e => ?_); subst e
    refine h.back.bind (fun b b' _ _ hb => ?_)
    rw [← hb.id]
    refine (corrFrames_hash dx b.id _ _ h.frames 0).bind (fun fs fs' _ _ hfs => ?_)
    exact .ok ⟨rfl, hfs, h.nextAddr, rfl, h.maxWindowSize, h.minTracked, h.minParallax, h.maxTranslation⟩

theorem expand_hash (junk : Nat → Nat → K) {m m' : FrameMgr K T} (h : m.Reordered m') (c : DMat K) : expand junk m c = expand junk m' c := by
  unfold expand
  rw [h.extrinsics, h.length]

theorem reduce_hash (junk : Nat → Nat → K) (policy : MargPolicy) {m m' : FrameMgr K T} (h : m.Reordered m') (c : DMat K) : reduce junk policy m c = reduce junk policy m' c := by
  unfold reduce
  rw [h.extrinsics, h.length]

theorem finish_hash (env : Env K) (g : Vec3 K) (u : Upd K T) (w' : Win K T) (h : u.w.Reordered w') :
    Sim (fun x y => x.1 = y.1 ∧ x.2.w = u.w ∧ y.2 = { x.2 with w := w' }) (finish env g u) (finish env g { u with w := w' }) := by
  unfold finish
  dsimp only
  rw [← expand_hash env.junk h.frm]
  refine (Sim.of_eq rfl).bind (fun c _ _ _ e => ?_); subst e
  rw [← reduce_hash env.junk u.policy h.frm]
  refine (Sim.of_eq rfl).bind (fun c' _ _ _ e => ?_); subst e
  refine (Sim.of_eq rfl).bind (fun s _ _ _ e => ?_); subst e
  exact .ok ⟨rfl, rfl, rfl⟩

/-- States of the update that are equal up to entries outside the matrices and the order of the maps. -/
structure UHash (u u' : Upd K T) : Prop where
  q : QSame u.q u'.q
  w : u.w.Reordered u'.w
  policy : u.policy = u'.policy
  cov : DMat.Agree u.cov u'.cov
  pos : u.pos = u'.pos

theorem finish_both (env env' : Env K) (g : Vec3 K) {u u' : Upd K T} (h : UHash u u') (hf : 1 ≤ u.w.frm.frames.length)
    (hr : 15 + (u.w.frm.extrinsics.length + u.w.frm.frames.length) * 6 - 6 ≤ u.cov.rows) (hc : 15 + (u.w.frm.extrinsics.length + u.w.frm.frames.length) * 6 - 6 ≤ u.cov.cols) :
    Sim (fun x y => x.1 = y.1 ∧ UHash x.2 y.2) (finish env g u) (finish env' g u') := by
  intro x hx
  obtain ⟨y, hy, e1, e2⟩ := (finish_same env env' g (u' := { u' with w := u.w }) ⟨h.q, rfl, h.policy, h.cov, h.pos⟩ hf hr hc).sim x hx
  obtain ⟨z, hz, e3, e4, e5⟩ := finish_hash env' g { u' with w := u.w } u'.w h.w y hy
  refine ⟨z, hz, e1.trans e3, ?_⟩
  rw [e5]
  exact ⟨e2.q, by rw [e2.w, e4]; exact h.w, e2.policy, e2.cov, e2.pos⟩

/-- Two updates from states that are equal up to the order of the maps end alike, if the selections and the Kalman steps agree. -/
theorem update_both (env env' : Env K) (noise : K) (maxUsed : Nat) (g : Vec3 K) {u u' : Upd K T} (ts thr : T) (h : UHash u u') (hf : 1 ≤ u.w.frm.frames.length) (hl : LinksNodup u.w.frm)
    (hN : (u.w.frm.extrinsics.length + u.w.frm.frames.length) * 6 < two32)
    (hsel : ∀ m m', updateNewest (u.q.resetOrigin ts thr).1 u.w.frm = .ok (true, m) → m.Reordered m' →
      Sim (fun x y => x.1.Reordered y.1 ∧ x.2.1.Perm y.2.1 ∧ x.2.2 = y.2.2) (selectGood env maxUsed { u.w with frm := m } u.pos) (selectGood env' maxUsed { u'.w with frm := m' } u.pos))
    (hsolve : ∀ m c c' w fs fs' pos, updateNewest (u.q.resetOrigin ts thr).1 u.w.frm = .ok (true, m) → constructCov (u.q.resetOrigin ts thr).1 u.w.frm = .ok (true, c) → DMat.Agree c c' →
      selectGood env maxUsed { u.w with frm := m } u.pos = .ok (w, fs, pos) → fs.Perm fs' → fs ≠ [] → Both KSame (solve env noise c w fs) (solve env' noise c' w fs')) :
    Sim (fun x y => x.1 = y.1 ∧ UHash x.2 y.2) (update env noise maxUsed g u ts thr) (update env' noise maxUsed g u' ts thr) := by
  rw [update_eq, update_eq]
  obtain ⟨r1, r2⟩ := resetOrigin_same h.q ts thr
  rw [← r2, ← h.pos, ← decidePolicy_hash h.w hl]
  generalize u.q.resetOrigin ts thr = qa at *
  generalize u'.q.resetOrigin ts thr = qb at *
  split
  · exact .ok ⟨rfl, r1, h.w, h.policy, h.cov, rfl⟩
  refine (Sim.of_eq rfl).bind (fun policy _ _ _ e => ?_); subst e
  rw [← constructCov_hash qb.1 h.w.frm]
  refine (constructCov_same r1 u.w.frm).sim.bind (fun ⟨gc, c⟩ ⟨gc', c'⟩ hc _ e => ?_)
  obtain ⟨e1, e2⟩ := e
  dsimp only at e1 e2 ⊢
  subst e1
  split
  · exact .ok ⟨rfl, r1, h.w, rfl, e2, rfl⟩
  rename_i hgc
  obtain rfl : gc = true := by simpa using hgc
  rw [updateNewest_same r1]
  refine (updateNewest_hash qb.1 h.w.frm).bind (fun ⟨gm, m⟩ ⟨gm', m'⟩ hm _ e => ?_)
  rw [← updateNewest_same r1] at hm
  obtain ⟨e3, e4⟩ := e
  dsimp only at e3 e4 ⊢
  subst e3
  split
  · exact .ok ⟨rfl, r1, ⟨h.w.feat, e4⟩, rfl, e2, rfl⟩
  rename_i hgm
  obtain rfl : gm = true := by simpa using hgm
  obtain ⟨n1, n2⟩ := updateNewest_length _ _ _ _ hm
  obtain ⟨d1, d2⟩ := constructCov_dims _ _ _ _ hf hN hc
  refine (hsel m m' hm e4).bind (fun ⟨w, fs, pos⟩ ⟨w', fs', pos'⟩ hs _ e => ?_)
  obtain ⟨s1, s2, s3⟩ := e
  dsimp only at s1 s2 s3 ⊢
  subst s3
  have hw : w.frm = m := by
    unfold selectGood at hs
    obtain ⟨f, _, hs⟩ := Res.bind_eq_ok.1 hs
    obtain ⟨⟨w1, good1, pos1⟩, hl, hs⟩ := Res.bind_eq_ok.1 hs
    cases hs
    exact selectLoop_frm env _ _ _ _ _ _ _ hl
  unfold afterSelect
  dsimp only
  have hem : fs.isEmpty = fs'.isEmpty := by
    rw [Bool.eq_iff_iff, List.isEmpty_iff, List.isEmpty_iff]
    exact ⟨fun hc => by rw [hc] at s2; exact s2.nil_eq.symm, fun hc => by rw [hc] at s2; exact s2.eq_nil⟩
  rw [← hem]
  have hw1 : w.frm.extrinsics.length = u.w.frm.extrinsics.length := by rw [hw, n1]
  have hw2 : w.frm.frames.length = u.w.frm.frames.length := by rw [hw, n2]
  split
  · refine finish_both env env' g ⟨r1, s1, rfl, e2, rfl⟩ ?_ ?_ ?_
    · show 1 ≤ w.frm.frames.length; omega
    · show 15 + (w.frm.extrinsics.length + w.frm.frames.length) * 6 - 6 ≤ c.rows; rw [hw1, hw2, d1]
    · show 15 + (w.frm.extrinsics.length + w.frm.frames.length) * 6 - 6 ≤ c.cols; rw [hw1, hw2, d2]
  · rename_i hfs
    rw [← solve_hash env' noise c' s1]
    refine (hsolve m c c' w fs fs' pos hm hc e2 hs s2 (by simpa using hfs)).sim.bind (fun k k' hk _ e => ?_)
    cases k with
    | none =>
      cases k' with
      | none => exact .ok ⟨rfl, r1, s1, rfl, e2, rfl⟩
      | some k' => exact absurd e (by simp [KSame])
    | some k =>
      cases k' with
      | none => exact absurd e (by simp [KSame])
      | some k' =>
        obtain ⟨k1, k2⟩ := e
        dsimp only
        have hcorr : Sim (fun x y => QSame x.1 y.1 ∧ x.2.Reordered y.2) (correct k.dx qa.1 w.frm) (correct k'.dx qb.1 w'.frm) := by
          intro x hx
          obtain ⟨y, hy, t1, t2⟩ := (correct_same k1 r1 w.frm).sim x hx
          obtain ⟨z, hz, t3, t4⟩ := correct_hash k'.dx qb.1 s1.frm y hy
          exact ⟨z, hz, t3 ▸ t1, by rw [t2]; exact t4⟩
        refine hcorr.bind (fun ⟨s, m1⟩ ⟨s', m1'⟩ hco _ e => ?_)
        obtain ⟨q1, q2⟩ := e
        dsimp only at q1 q2 ⊢
        obtain ⟨l1, l2, -⟩ := correct_length _ _ _ _ _ hco
        obtain ⟨x1, x2⟩ := solve_dims _ _ _ _ _ _ hk
        refine finish_both env env' g ⟨q1, ⟨s1.feat, q2⟩, rfl, k2, rfl⟩ ?_ ?_ ?_
        · show 1 ≤ m1.frames.length; omega
        · show 15 + (m1.extrinsics.length + m1.frames.length) * 6 - 6 ≤ k.cov.rows; rw [x1, l1, l2, hw1, hw2, d1]
        · show 15 + (m1.extrinsics.length + m1.frames.length) * 6 - 6 ≤ k.cov.cols; rw [x2, l1, l2, hw1, hw2, d2]

/-! ### The initialisation -/

namespace Backend

theorem framePoints_hash {s s' : FMgr K} (h : s.Reordered s') {f f' : Frame K T} (hf : f.Reordered f') : (framePoints s f).Perm (framePoints s' f') := by
  unfold framePoints
  rw [h.heap, hf.id]
  exact hf.features.filterMap _

theorem initPropagator_hash (g : Vec3 K) (b : Backend K T) (w' : Win K T) (h : b.u.w.Reordered w') (st : Motion K) (t : T) :
    Sim (fun x y => x.u.w = b.u.w ∧ y = x.setWin w') (initPropagator g b st t) (initPropagator g (b.setWin w') st t) := by
  unfold initPropagator
  refine (Sim.of_eq rfl).bind (fun att _ _ _ e => ?_); subst e
  have hx : (b.setWin w').u.w.frm.extrinsics.length = b.u.w.frm.extrinsics.length := by
    show w'.frm.extrinsics.length = _
    rw [h.frm.extrinsics]
  rw [hx]
  refine (Sim.of_eq rfl).bind (fun s _ _ _ e => ?_); subst e
  exact .ok ⟨rfl, rfl⟩

end Backend

section Real
variable {T : Type} [TimeOps T] [TimeCast T ℝ]

theorem vec3_add_right_comm (a b c : Vec3 ℝ) : a + b + c = a + c + b := by
  ext
  · show a.x + b.x + c.x = a.x + c.x + b.x; ring
  · show a.y + b.y + c.y = a.y + c.y + b.y; ring
  · show a.z + b.z + c.z = a.z + c.z + b.z; ring

theorem mat3_add_right_comm (a b c : Mat3 ℝ) : a + b + c = a + c + b := by
  apply Mat3.ext
  · exact vec3_add_right_comm a.r0 b.r0 c.r0
  · exact vec3_add_right_comm a.r1 b.r1 c.r1
  · exact vec3_add_right_comm a.r2 b.r2 c.r2

/-- The normal equation does not depend on the order of the points. -/
theorem normalEq_perm (kernel : Bool) (s : Pose ℝ) {l l' : List (Vec3 ℝ × Vec2 ℝ)} (h : l.Perm l') : Pnp.normalEq kernel l s = Pnp.normalEq kernel l' s := by
  unfold Pnp.normalEq
  have : RightCommutative (fun (hb : Mat6 ℝ × Vec6 ℝ) (x : Vec3 ℝ × Vec2 ℝ) => Pnp.addPoint kernel s hb x.1 x.2) := by
    constructor
    intro hb x y
    unfold Pnp.addPoint
    dsimp only
    by_cases c1 : ScalarFn.lt (ScalarFn.fabs (Pnp.toCam s x.1).z) (lit (1/1000000)) = true
    · rw [if_pos c1, if_pos c1]
    · rw [if_neg c1, if_neg c1]
      by_cases c2 : ScalarFn.lt (ScalarFn.fabs (Pnp.toCam s y.1).z) (lit (1/1000000)) = true
      · rw [if_pos c2, if_pos c2]
      · rw [if_neg c2, if_neg c2]
        cases kernel with
        | true =>
          simp only [if_true]
          refine Prod.ext (Mat6.ext ?_ ?_ ?_ ?_) (Vec6.ext ?_ ?_)
          · exact mat3_add_right_comm _ _ _
          · exact mat3_add_right_comm _ _ _
          · exact mat3_add_right_comm _ _ _
          · exact mat3_add_right_comm _ _ _
          · exact vec3_add_right_comm _ _ _
          · exact vec3_add_right_comm _ _ _
        | false =>
          simp only [Bool.false_eq_true, if_false]
          refine Prod.ext (Mat6.ext ?_ ?_ ?_ ?_) (Vec6.ext ?_ ?_)
          · exact mat3_add_right_comm _ _ _
          · exact mat3_add_right_comm _ _ _
          · exact mat3_add_right_comm _ _ _
          · exact mat3_add_right_comm _ _ _
          · exact vec3_add_right_comm _ _ _
          · exact vec3_add_right_comm _ _ _
  exact h.foldl_eq _

theorem pnpLoop_perm (ext : Ext ℝ) (prm : PnpParam ℝ) (kernel : Bool) {l l' : List (Vec3 ℝ × Vec2 ℝ)} (h : l.Perm l') (n : Nat) : ∀ s, Pnp.loop ext prm kernel l n s = Pnp.loop ext prm kernel l' n s := by
  induction n with
  | zero => intro s; rfl
  | succ n ih =>
    intro s
    rw [Pnp.loop, Pnp.loop]
    simp only [normalEq_perm kernel s h, ih]

theorem zip_fst_snd {α β : Type} (l : List (α × β)) : (l.map (·.1)).zip (l.map (·.2)) = l := by
  induction l with
  | nil => rfl
  | cons x l ih => simp only [List.map_cons, List.zip_cons_cons, ih]

theorem estimate_perm (ext : Ext ℝ) (prm : PnpParam ℝ) (kernel : Bool) {l l' : List (Vec3 ℝ × Vec2 ℝ)} (h : l.Perm l') (s : Pose ℝ) :
    Pnp.estimate ext prm kernel (l.map (·.1)) (l.map (·.2)) s = Pnp.estimate ext prm kernel (l'.map (·.1)) (l'.map (·.2)) s := by
  unfold Pnp.estimate
  rw [zip_fst_snd, zip_fst_snd, pnpLoop_perm ext prm kernel h]
  have e : (l = []) ↔ (l' = []) := ⟨fun hc => by rw [hc] at h; exact h.nil_eq.symm, fun hc => by rw [hc] at h; exact h.eq_nil⟩
  simp only [List.length_map, List.map_eq_nil_iff, e, ne_eq, not_true_eq_false, false_or]

namespace Backend

theorem estimateFramePose_hash (ext : Ext ℝ) (prm : PnpParam ℝ) {w w' : Win ℝ T} (h : w.Reordered w') {f f' : Frame ℝ T} (hf : f.Reordered f') :
    Sim (fun x y => x.1 = y.1 ∧ x.2.Reordered y.2) (estimateFramePose ext prm w f) (estimateFramePose ext prm w' f') := by
  unfold estimateFramePose
  dsimp only
  have hp := framePoints_hash h.feat hf
  rw [← hp.length_eq]
  split
  · exact .ok ⟨rfl, hf⟩
  · rw [← h.frm.extrinsics]
    refine (Sim.of_eq rfl).bind (fun e _ _ _ e' => ?_); subst e'
    rw [estimate_perm ext prm true hp, ← hf.q, ← hf.p]
    split
    · exact .ok ⟨rfl, hf.addr, hf.features, rfl, rfl, hf.v, hf.id, hf.ts⟩
    · exact .ok ⟨rfl, hf⟩

theorem setFrames_hash {w w' : Win ℝ T} (h : w.Reordered w') {a a' b b' : Frame ℝ T} (ha : a.Reordered a') (hb : b.Reordered b') {l l' : List (Frame ℝ T)} (hl : List.Forall₂ Frame.Reordered l l') :
    (setFrames w a b l).Reordered (setFrames w' a' b' l') :=
  ⟨h.feat, .cons ha (.cons hb hl), h.frm.nextAddr, h.frm.extrinsics, h.frm.maxWindowSize, h.frm.minTracked, h.frm.minParallax, h.frm.maxTranslation⟩

/-- The initialisation of a backend whose maps are iterated in another order. -/
theorem initialise_hash (env : Env ℝ) (g : Vec3 ℝ) (b : Backend ℝ T) (w' : Win ℝ T) (h : b.u.w.Reordered w') (hl : LinksNodup b.u.w.frm) :
    Sim (fun x y => x.1 = y.1 ∧ ∃ w2, y.2 = x.2.setWin w2 ∧ x.2.u.w.Reordered w2) (initialise env g b) (initialise env g (b.setWin w')) := by
  unfold initialise
  have hw : (b.setWin w').u.w = w' := rfl
  rw [hw]
  have hfr := h.frm.frames
  rcases h1 : b.u.w.frm.frames with _ | ⟨fi, _ | ⟨fj, rest⟩⟩ <;> rcases h2 : w'.frm.frames with _ | ⟨fi', _ | ⟨fj', rest'⟩⟩ <;> rw [h1, h2] at hfr <;>
    first
    | exact .ok ⟨rfl, w', rfl, h⟩
    | (exfalso; have := hfr.length_eq; simp at this; done)
    | skip
  · obtain ⟨hi, hfr⟩ := List.forall₂_cons.1 hfr
    obtain ⟨hj, hrest⟩ := List.forall₂_cons.1 hfr
    dsimp only
    rw [← hi.ts, ← hj.ts]
    split
    · exact .ok ⟨rfl, w', rfl, h⟩
    refine (Sim.of_eq rfl).bind (fun a _ _ _ e => ?_); subst e
    cases a with
    | none => exact .ok ⟨rfl, w', rfl, h⟩
    | some q =>
      dsimp only
      have ri : Frame.Reordered { fi with q := q, p := 0 } { fi' with q := q, p := 0, ts := fi.ts } := ⟨hi.addr, hi.features, rfl, rfl, hi.v, hi.id, rfl⟩
      refine (triMultiView_hash env.ext (setFrames_hash h ri hj hrest) ri hi.features (hl fi (by rw [h1]; simp)).2).bind (fun w w2 _ _ hw2 => ?_)
      refine (estimateFramePose_hash env.ext b.pnp hw2 (f := { fj with q := q, p := 0 }) (f' := { fj' with q := q, p := 0, ts := fj.ts }) ⟨hj.addr, hj.features, rfl, rfl, hj.v, hj.id, rfl⟩).bind
        (fun ⟨good, fj1⟩ ⟨good', fj1'⟩ _ _ e => ?_)
      obtain ⟨e1, e2⟩ := e
      dsimp only at e1 e2 ⊢
      subst e1
      split
      · exact .ok ⟨rfl, _, rfl, setFrames_hash hw2 ri e2 hrest⟩
      · have rij : (setFrames w { fi with q := q, p := 0, v := (fj1.p - 0).sdiv (TimeCast.toK (TimeOps.sub fj.ts fi.ts)) }
            { fj1 with v := (fj1.p - 0).sdiv (TimeCast.toK (TimeOps.sub fj.ts fi.ts)) } rest).Reordered
            (setFrames w2 { fi' with q := q, p := 0, ts := fi.ts, v := (fj1'.p - 0).sdiv (TimeCast.toK (TimeOps.sub fj.ts fi.ts)) }
            { fj1' with v := (fj1'.p - 0).sdiv (TimeCast.toK (TimeOps.sub fj.ts fi.ts)) } rest') := by
          have hv : (fj1.p - 0).sdiv (TimeCast.toK (TimeOps.sub fj.ts fi.ts)) = (fj1'.p - 0).sdiv (TimeCast.toK (TimeOps.sub fj.ts fi.ts)) := by rw [e2.p]
          have r1 : Frame.Reordered { fi with q := q, p := 0, v := (fj1.p - 0).sdiv (TimeCast.toK (TimeOps.sub fj.ts fi.ts)) }
              { fi' with q := q, p := 0, ts := fi.ts, v := (fj1'.p - 0).sdiv (TimeCast.toK (TimeOps.sub fj.ts fi.ts)) } := ⟨hi.addr, hi.features, rfl, rfl, hv, hi.id, rfl⟩
          have r2 : Frame.Reordered { fj1 with v := (fj1.p - 0).sdiv (TimeCast.toK (TimeOps.sub fj.ts fi.ts)) }
              { fj1' with v := (fj1'.p - 0).sdiv (TimeCast.toK (TimeOps.sub fj.ts fi.ts)) } := ⟨e2.addr, e2.features, e2.q, e2.p, hv, e2.id, e2.ts⟩
          exact setFrames_hash hw2 r1 r2 hrest
        rw [← e2.p]
        have key := initPropagator_hash g (b.setWin _) _ rij ⟨0, (fj1.p - 0).sdiv (TimeCast.toK (TimeOps.sub fj.ts fi.ts)), q⟩ fi.ts
        rw [← e2.p] at key
        refine key.bind (fun b1 b1' _ _ e => ?_)
        obtain ⟨k1, k2⟩ := e
        subst k2
        refine (Sim.of_eq rfl).bind (fun _ _ _ _ _ => ?_)
        refine .ok ⟨rfl, _, rfl, ?_⟩
        rw [k1]
        show Win.Reordered _ _
        rw [e2.p] at rij ⊢
        exact rij

/-! ### The backend -/

/-- Backends that are equal up to entries outside the matrices and the order of the maps. -/
structure BHash (b b' : Backend ℝ T) : Prop where
  loader : b.loader = b'.loader
  u : UHash b.u b'.u
  att : b.att = b'.att
  noise : b.noise = b'.noise
  maxUsed : b.maxUsed = b'.maxUsed
  mounted : b.mounted = b'.mounted
  pnp : b.pnp = b'.pnp
  status : b.status = b'.status

theorem BHash.same {b b' : Backend ℝ T} (h : BHash b b') : BSame b (b'.setWin b.u.w) :=
  ⟨h.loader, ⟨h.u.q, rfl, h.u.policy, h.u.cov, h.u.pos⟩, h.att, h.noise, h.maxUsed, h.mounted, h.pnp, h.status⟩

theorem BHash.of_same {b b1 : Backend ℝ T} (h : BSame b b1) {w : Win ℝ T} (hw : b1.u.w.Reordered w) : BHash b (b1.setWin w) :=
  ⟨h.loader, ⟨h.u.q, by rw [h.u.w]; exact hw, h.u.policy, h.u.cov, h.u.pos⟩, h.att, h.noise, h.maxUsed, h.mounted, h.pnp, h.status⟩

theorem BHash.setWin {b b' : Backend ℝ T} (h : BHash b b') {w w' : Win ℝ T} (hw : w.Reordered w') : BHash (b.setWin w) (b'.setWin w') :=
  ⟨h.loader, ⟨h.u.q, hw, h.u.policy, h.u.cov, h.u.pos⟩, h.att, h.noise, h.maxUsed, h.mounted, h.pnp, h.status⟩

theorem shrink_hash (sh : Win ℝ T → Win ℝ T) (hsh : ∀ w, Win.Reordered w (sh w)) (n : Nat) : ∀ {w w' : Win ℝ T}, w.Reordered w' → w.feat.WF → Sim Win.Reordered (shrink n w) (shrinkH sh n w') := by
  induction n with
  | zero => intro w w' h _; exact .ok h
  | succ n ih =>
    intro w w' h hw
    rw [shrink, shrinkH, ← h.frm.length]
    split
    · refine (marginalize_hash h hw _).bind (fun w1 w1' k1 _ h1 => ?_)
      exact ih (h1.trans (hsh w1')) (marginalize_wf _ _ hw _ k1)
    · exact .ok h

theorem shrunk_hash (sh : Win ℝ T → Win ℝ T) (hsh : ∀ w, Win.Reordered w (sh w)) {b b' : Backend ℝ T} (h : BHash b b') (hw : b.u.w.feat.WF) : Sim BHash b.shrunk (b'.shrunkH sh) := by
  unfold shrunk shrunkH
  rw [← h.u.w.frm.length]
  refine (shrink_hash sh hsh _ h.u.w hw).bind (fun w w' _ _ hw => ?_)
  exact .ok (h.setWin hw)

theorem initialise_both (env env' : Env ℝ) (h1 : env.ext.svdLast = env'.ext.svdLast) (h2 : env.ext.ldlt6 = env'.ext.ldlt6) (g : Vec3 ℝ) {b b' : Backend ℝ T} (h : BHash b b')
    (hl : LinksNodup b.u.w.frm) : Sim (fun x y => x.1 = y.1 ∧ BHash x.2 y.2) (initialise env g b) (initialise env' g b') := by
  intro x hx
  obtain ⟨y, hy, e1, e2⟩ := (initialise_same env env' h1 h2 g h.same).sim x hx
  obtain ⟨z, hz, e3, w2, e4, e5⟩ := initialise_hash env' g (b'.setWin b.u.w) b'.u.w h.u.w hl y hy
  refine ⟨z, hz, e1.trans e3, ?_⟩
  rw [e4]
  exact BHash.of_same e2 e5

theorem tryInit_both (sh : Win ℝ T → Win ℝ T) (hsh : ∀ w, Win.Reordered w (sh w)) (env env' : Env ℝ) (h1 : env.ext.svdLast = env'.ext.svdLast) (h2 : env.ext.ldlt6 = env'.ext.ldlt6) (g : Vec3 ℝ)
    {b b' : Backend ℝ T} (h : BHash b b') (hl : LinksNodup b.u.w.frm) (hwf : b.status = .needInit → ∀ r b1, initialise env g b = .ok (r, b1) → b1.u.w.feat.WF) :
    Sim BHash (b.tryInit env g) (b'.tryInitH sh env' g) := by
  unfold tryInit tryInitH
  rw [← h.status]
  cases hs : b.status with
  | needInit =>
    refine (initialise_both env env' h1 h2 g h hl).bind (fun ⟨r, b1⟩ ⟨r', b1'⟩ k1 _ e => ?_)
    obtain ⟨e1, e2⟩ := e
    dsimp only at e1 e2 ⊢
    subst e1
    split
    · exact .ok ⟨e2.loader, e2.u, e2.att, e2.noise, e2.maxUsed, e2.mounted, e2.pnp, rfl⟩
    · exact shrunk_hash sh hsh e2 (hwf hs r b1 k1)
  | initialized => exact .ok h

theorem tryUpdate_both (sh : Win ℝ T → Win ℝ T) (hsh : ∀ w, Win.Reordered w (sh w)) (env env' : Env ℝ) (g : Vec3 ℝ) {b b' : Backend ℝ T} (ts : T) (h : BHash b b')
    (hu : b.status = .initialized → Sim (fun x y => x.1 = y.1 ∧ UHash x.2 y.2) (update env b.noise b.maxUsed g b.u ts b.loader.imuPeriod) (update env' b.noise b.maxUsed g b'.u ts b.loader.imuPeriod))
    (hwf : b.status = .initialized → ∀ r u, update env b.noise b.maxUsed g b.u ts b.loader.imuPeriod = .ok (r, u) → u.w.feat.WF) :
    Sim BHash (b.tryUpdate env g ts) (b'.tryUpdateH sh env' g ts) := by
  unfold tryUpdate tryUpdateH
  rw [← h.status, ← h.mounted, ← h.noise, ← h.maxUsed, ← h.loader]
  cases hs : b.status with
  | needInit => exact .ok h
  | initialized =>
    dsimp only
    split
    · refine (hu hs).bind (fun ⟨r, u⟩ ⟨r', u'⟩ k1 _ e => ?_)
      obtain ⟨e1, e2⟩ := e
      dsimp only at e1 e2 ⊢
      subst e1
      have hw := hwf hs r u k1
      split
      · rw [← e2.policy]
        refine (marginalize_hash e2.w hw _).bind (fun w w' _ _ hww => ?_)
        refine .ok ⟨rfl, ⟨e2.q, hww.trans (hsh w'), rfl, e2.cov, e2.pos⟩, ?_, rfl, rfl, rfl, h.pnp, rfl⟩
        dsimp only
        rw [h.att, e2.q.biasA, e2.q.biasG]
      · exact shrunk_hash sh hsh ⟨rfl, e2, h.att, rfl, rfl, rfl, h.pnp, rfl⟩ hw
    · exact .ub

theorem cleanAtt_both {b b' : Backend ℝ T} (h : BHash b b') : Sim BHash b.cleanAtt b'.cleanAtt := by
  unfold cleanAtt
  rw [← h.u.w.frm.length, ← h.att, ← h.loader]
  split
  · refine h.u.w.frm.back.bind (fun f f' _ _ hf => ?_)
    rw [← hf.ts]
    refine (Sim.of_eq rfl).bind (fun att _ _ _ e => ?_); subst e
    exact .ok ⟨rfl, h.u, rfl, h.noise, h.maxUsed, h.mounted, h.pnp, h.status⟩
  · exact .ok h

theorem onImu_win (g : Vec3 ℝ) (b : Backend ℝ T) (w : Win ℝ T) (h : b.u.w.Reordered w) (ms : List (ImuMsg ℝ T)) :
    Sim (fun x y => x.1 = y.1 ∧ x.2.u.w = b.u.w ∧ y.2 = x.2.setWin w) (b.onImu g ms) ((b.setWin w).onImu g ms) := by
  cases ms with
  | nil => exact .ok ⟨rfl, rfl, rfl⟩
  | cons m ms =>
    rw [onImu, onImu]
    have ha : (b.setWin w).att = b.att := rfl
    rw [ha]
    generalize b.att.propagate g m.accel m.gyro m.ts = ar
    obtain ⟨att, res⟩ := ar
    dsimp only
    have hx : (b.setWin w).u.w.frm.extrinsics.length = b.u.w.frm.extrinsics.length := by
      show w.frm.extrinsics.length = _
      rw [h.frm.extrinsics]
    rw [hx]
    have hst : (b.setWin w).status = b.status := rfl
    have hmt : (b.setWin w).mounted = b.mounted := rfl
    rw [hst, hmt]
    split
    · exact .ok ⟨rfl, rfl, rfl⟩
    · split
      · exact .ok ⟨rfl, rfl, rfl⟩
      · exact .ub

theorem onImu_both (g : Vec3 ℝ) {b b' : Backend ℝ T} (h : BHash b b') (ms : List (ImuMsg ℝ T)) : Sim (fun x y => x.1 = y.1 ∧ x.2.u.w = b.u.w ∧ BHash x.2 y.2) (b.onImu g ms) (b'.onImu g ms) := by
  intro x hx
  obtain ⟨y, hy, e1, e2⟩ := (onImu_same g h.same ms).sim x hx
  obtain ⟨z, hz, e3, e4, e5⟩ := onImu_win g (b'.setWin b.u.w) b'.u.w h.u.w ms y hy
  have e4 : y.2.u.w = b.u.w := e4
  refine ⟨z, hz, e1.trans e3, by rw [e2.u.w, e4], ?_⟩
  rw [e5]
  refine BHash.of_same e2 ?_
  rw [e4]
  exact h.u.w

end Backend
end Real

section Run
variable {T : Type} [TimeOps T] [TimeCast T ℝ] [LinearOrder T] [TimeLaws T] [CastLaws T ℝ]
open Backend

theorem rel_links {l : Log ℝ T} {w : Win ℝ T} (h : Rel l w) : LinksNodup w.frm := by
  intro f hf
  refine ⟨?_, rel_refsNodup h f hf⟩
  obtain ⟨i, hi, hg⟩ := List.mem_iff_getElem.1 hf
  have h1 : w.frm.frames[i]? = some f := by rw [List.getElem?_eq_getElem hi, hg]
  have h2 : l.msgs[i]? = some (l.msgs[i]'(by rw [← h.len]; exact hi)) := List.getElem?_eq_getElem _
  exact (h.frames i f _ h1 h2).nodup

/-- Processes that are equal up to entries outside the matrices and the order of the maps. -/
structure PHash (p p' : BProc ℝ T) : Prop where
  statics : p.statics = p'.statics
  g : p.g = p'.g
  b : BHash p.b p'.b

/-- The update of a base run that meets the conditions, and that of a run with other orders. -/
theorem update_hash {nc N U : Nat} (hfit : Fits nc (max 1 N + 1) U) (env env' : Env ℝ) (he : ScoresOnly U env env') (g : Vec3 ℝ) {b b' : Backend ℝ T} {l : Log ℝ T} {m : FeatMsg ℝ T}
    (t : UpdReady nc N U m l b) (hst : b.status = .initialized) (h : BHash b b') (ts : T) :
    Sim (fun x y => x.1 = y.1 ∧ UHash x.2 y.2) (update env b.noise b.maxUsed g b.u ts b.loader.imuPeriod) (update env' b.noise b.maxUsed g b'.u ts b.loader.imuPeriod) := by
  obtain ⟨e1, e2, e3, e4⟩ := he
  obtain ⟨v1, v2⟩ := t.live hst
  have hr := t.core.rel
  have hg : ∀ m ∈ l.msgs, GoodObs b.u.w.frm.extrinsics.length m := by rw [t.core.ext]; exact t.core.obs
  have hf : Fits b.u.w.frm.extrinsics.length l.msgs.length b.maxUsed := by rw [t.core.ext, t.core.used]; exact hfit.mono t.len
  have hlen := hr.len
  refine update_both env env' _ _ g ts _ h.u (by omega) (rel_links hr) (by rw [hlen]; exact hf.cols) (fun m1 m1' hm hmm => ?_) (fun m1 c c' w fs fs' pos hm hc hcc hs hp _ => ?_)
  · obtain ⟨f, fl, f1, f2, f3, f4, -⟩ := selected_ready env b.maxUsed b.u _ m1 l hr hg (by omega) hf hm
    have hle := (links_le hr f m f1 t.last).trans t.ids
    rw [← f3] at hle
    have hww : Win.Reordered { b.u.w with frm := m1 } { b'.u.w with frm := m1' } := ⟨h.u.w.feat, hmm⟩
    exact selectGood_hash env env' (by rw [e1]) b.maxUsed hww _ fl f2 f4 ((e3 _).mono hle) ((e4 _).mono hle) (by rw [t.core.used]; exact hle)
  · exact solve_order env env' e2 (e1 ▸ e2) _ _ b.u ts _ l hr hg (by omega) hf t.cov m1 c c' w fs fs' pos hm hc hcc hs hp (fun _ _ _ _ _ _ => by rw [e1])

theorem runOnce_hash {nc N U : Nat} (hfit : Fits nc (max 1 N + 1) U) (sh : Win ℝ T → Win ℝ T) (hsh : ∀ w, Win.Reordered w (sh w)) (env env' : Env ℝ) (he : ScoresOnly U env env')
    {p p' : BProc ℝ T} (h : PHash p p') {ops : List (BOp ℝ T)} (hi : OrderInv nc N U p (.run env :: ops)) :
    Sim (fun x y => x.1 = y.1 ∧ BHash x.2 y.2) (p.b.runOnce env p.g) (p'.b.runOnceH sh env' p.g) := by
  unfold runOnce runOnceH
  dsimp only
  rw [← h.b.loader]
  split
  · refine (onImu_both p.g (b := { p.b with loader := p.b.loader.popOne.loader }) (b' := { p'.b with loader := p.b.loader.popOne.loader })
      ⟨rfl, h.b.u, h.b.att, h.b.noise, h.b.maxUsed, h.b.mounted, h.b.pnp, h.b.status⟩ p.b.loader.popOne.out.imuMeas).bind (fun ⟨r, b1⟩ ⟨r', b1'⟩ k1 _ e => ?_)
    obtain ⟨e1, -, e2⟩ := e
    dsimp only at e1 e2 ⊢
    subst e1
    cases hm : p.b.loader.popOne.out.featMeas with
    | none => exact .ok ⟨rfl, e2⟩
    | some m =>
      dsimp only
      obtain ⟨hwf, l, c1, c2, c3, c4, c5⟩ := order_ready env hi r b1 m k1 hm
      have key : Sim BHash (b1.onFeat env p.g m) (b1'.onFeatH sh env' p.g m) := by
        unfold onFeat onFeatH
        dsimp only
        refine (tryInit_both sh hsh env env' (by rw [he.1]) (by rw [he.1]) p.g (e2.setWin ((insert_hash e2.u.w hwf m).trans (hsh _))) (rel_links c1.rel) (fun hs r1 b2 hin => ?_)).bind
          (fun b2 b2' k2 _ s2 => ?_)
        · obtain ⟨good, b2', i1, i2, -⟩ := initialise_ok env p.g _ _ False c1.mounted c1.rel (by rw [c1.ext]; exact c1.obs) c1.sorted (c2 hs) c3 c4
          rw [hin] at i1
          cases i1
          exact (rel_keep c1.rel i2).wf
        · obtain ⟨l1, t⟩ := c5 b2 k2
          refine (tryUpdate_both sh hsh env env' p.g m.ts s2 (fun hs => update_hash hfit env env' he p.g t hs s2 m.ts) (fun hs r1 u hup => ?_)).bind (fun b3 b3' _ _ s3 => ?_)
          · obtain ⟨v1, v2⟩ := t.live hs
            obtain ⟨good, u', u1, u2, u3⟩ := update_ok env b2.noise b2.maxUsed p.g b2.u m.ts b2.loader.imuPeriod l1 t.core.rel t.core.addr (by rw [t.core.ext]; exact t.core.obs) v1
              (by rw [t.core.ext]; exact v2.dims) (by rw [t.core.ext, t.core.used]; exact hfit.mono t.len)
            rw [hup] at u1
            cases u1
            cases r1 with
            | false => rw [(u2 rfl).1]; exact t.core.rel.wf
            | true => exact (rel_keep t.core.rel (u3 rfl).1).wf
          · exact cleanAtt_both s3
      refine key.bind (fun b2 b2' _ _ s2 => ?_)
      exact .ok ⟨rfl, s2⟩
  · exact .ok ⟨rfl, rfl, h.b.u, h.b.att, h.b.noise, h.b.maxUsed, h.b.mounted, h.b.pnp, h.b.status⟩

/-- The calls of two histories: the same calls up to the scores, with reorderings. -/
def OpHash (U : Nat) (op : BOp ℝ T) (x : BOp ℝ T × (Win ℝ T → Win ℝ T)) : Prop := OpSame (ScoresOnly U) op x.1 ∧ ∀ w, Win.Reordered w (x.2 w)

theorem step_hash {nc N U : Nat} (hfit : Fits nc (max 1 N + 1) U) {op : BOp ℝ T} {x : BOp ℝ T × (Win ℝ T → Win ℝ T)} (hop : OpHash U op x)
    {p p' : BProc ℝ T} (h : PHash p p') {ops : List (BOp ℝ T)} (hi : OrderInv nc N U p (op :: ops)) : Sim (fun x y => PHash x.1 y.1 ∧ x.2 = y.2) (p.step op) (p'.stepH x.2 x.1) := by
  obtain ⟨op', sh⟩ := x
  obtain ⟨h1, hsh⟩ := hop
  dsimp only at h1 hsh ⊢
  have hb := h.b
  cases h1 with
  | imu m =>
    rw [BProc.stepH, BProc.step, BProc.step, ← hb.loader, ← h.statics]
    · exact .ok ⟨⟨rfl, h.g, rfl, hb.u, hb.att, hb.noise, hb.maxUsed, hb.mounted, hb.pnp, hb.status⟩, rfl⟩
    · simp
  | feat m =>
    rw [BProc.stepH, BProc.step, BProc.step, ← hb.loader, ← h.statics]
    · exact .ok ⟨⟨rfl, h.g, rfl, hb.u, hb.att, hb.noise, hb.maxUsed, hb.mounted, hb.pnp, hb.status⟩, rfl⟩
    · simp
  | run env env' he =>
    rw [BProc.step, BProc.stepH, ← h.g]
    refine (runOnce_hash hfit sh hsh env env' he h hi).bind (fun ⟨r, b⟩ ⟨r', b'⟩ _ _ e => ?_)
    obtain ⟨e1, e2⟩ := e
    dsimp only at e1 e2 ⊢
    subst e1
    exact .ok ⟨⟨h.statics, rfl, e2⟩, rfl⟩
  | runTest =>
    rw [BProc.stepH, BProc.step, BProc.step]
    · unfold runOnceTest
      rw [← hb.loader]
      exact .ok ⟨⟨h.statics, h.g, rfl, hb.u, hb.att, hb.noise, hb.maxUsed, hb.mounted, hb.pnp, hb.status⟩, rfl⟩
    · simp
  | publishPropagate =>
    rw [BProc.stepH, BProc.step, BProc.step]
    · have e : p.b.publishPropagate = p'.b.publishPropagate := (publish_same hb.same).1
      rw [← e]
      refine (Sim.of_eq rfl).bind (fun x _ _ _ e => ?_); subst e
      exact .ok ⟨h, rfl⟩
    · simp
  | publishUpdate =>
    rw [BProc.stepH, BProc.step, BProc.step]
    · have e : p.b.publishUpdate = p'.b.publishUpdate := (publish_same hb.same).2
      rw [← e]
      refine (Sim.of_eq rfl).bind (fun x _ _ _ e => ?_); subst e
      exact .ok ⟨h, rfl⟩
    · simp
  | reset =>
    rw [BProc.stepH, BProc.step, BProc.step]
    · exact .ok ⟨⟨h.statics, h.g, hb.loader, hb.u, hb.att, hb.noise, hb.maxUsed, hb.mounted, hb.pnp, rfl⟩, rfl⟩
    · simp

theorem run_hash {nc N U : Nat} (hfit : Fits nc (max 1 N + 1) U) {ops : List (BOp ℝ T)} {xs : List (BOp ℝ T × (Win ℝ T → Win ℝ T))} (hops : List.Forall₂ (OpHash U) ops xs) :
    ∀ p p' : BProc ℝ T, PHash p p' → OrderInv nc N U p ops → Sim (fun x y => PHash x.1 y.1 ∧ x.2 = y.2) (p.run ops) (p'.runH xs) := by
  induction hops with
  | nil => intro p p' h _; exact .ok ⟨h, rfl⟩
  | cons hop hops ih =>
    rename_i op x ops xs
    intro p p' h hi
    obtain ⟨op', sh⟩ := x
    rw [BProc.run, BProc.runH]
    refine (step_hash hfit hop h hi).bind (fun ⟨p1, o⟩ ⟨p1', o'⟩ k1 _ e => ?_)
    obtain ⟨e1, e2⟩ := e
    dsimp only at e1 e2 ⊢
    subst e2
    refine (ih p1 p1' e1 (orderInv_step hfit hi k1)).bind (fun ⟨p2, os⟩ ⟨p2', os'⟩ _ _ e => ?_)
    obtain ⟨e3, e4⟩ := e
    dsimp only at e3 e4 ⊢
    subst e4
    exact .ok ⟨e3, rfl⟩

end Run
end Vio

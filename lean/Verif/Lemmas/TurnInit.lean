/-
Attitude filter, window management and pose estimation in a world turned about gravity.
-/
import Verif.Lemmas.TurnUpd

set_option linter.unusedSectionVars false

namespace Vio
open Spec WinSpec Update Res DMat

variable {T : Type} [TimeOps T] [TimeCast T ℝ]

/-! ### The attitude filter -/

/-- An attitude in the turned world. -/
structure AttItemTurned (r : Quat ℝ) (i i' : AttItem ℝ T) : Prop where
  q : i'.q = r.mul i.q
  unit : i.q.sqNorm = 1
  accel : i'.accel = i.accel
  gyro : i'.gyro = i.gyro
  ts : i'.ts = i.ts

/-- The attitude filter of the turned world: it has started. -/
structure AttTurned (r : Quat ℝ) (a a' : Att ℝ T) : Prop where
  items : List.Forall₂ (AttItemTurned r) a.items a'.items
  ne : a.items ≠ []
  biasA : a'.biasA = a.biasA
  biasG : a'.biasG = a.biasG
  kp : a'.kp = a.kp
  ki : a'.ki = a.ki
  errInt : a'.errInt = a.errInt

theorem stepQuat_turned {r : Quat ℝ} (hr : r.sqNorm = 1) {g : Vec3 ℝ} (hg : r.rotate g = g) {a a' : Att ℝ T} (h : AttTurned r a a') {i i' : AttItem ℝ T} (hi : AttItemTurned r i i')
    (acc w : Vec3 ℝ) (t : T) : (a'.stepQuat g i' acc w t).1 = r.mul (a.stepQuat g i acc w t).1 ∧ (a'.stepQuat g i' acc w t).2 = (a.stepQuat g i acc w t).2 ∧
      (a.stepQuat g i acc w t).1.sqNorm = 1 := by
  have e : Att.gravErr g i'.q acc = Att.gravErr g i.q acc := by
    unfold Att.gravErr
    have := inverse_turn_rotate r i.q hr hi.unit g
    rw [hg] at this
    rw [hi.q, this]
  unfold Att.stepQuat
  rw [e, hi.gyro, hi.ts, h.errInt, h.ki, h.kp, hi.q]
  dsimp only
  rw [Quat.mul_assoc']
  have hp : ∀ v : Vec3 ℝ, 0 < (i.q.mul (Utility.deltaQ v)).sqNorm := by
    intro v
    rw [Quat.sqNorm_mul, hi.unit, one_mul]
    exact lt_of_lt_of_le one_pos (Quat.sqNorm_deltaQ_pos _)
  exact ⟨unit_mul_normalized r _ hr (hp _), rfl, Quat.sqNorm_normalized _ (hp _)⟩

theorem attPropagate_turned {r : Quat ℝ} (hr : r.sqNorm = 1) {g : Vec3 ℝ} (hg : r.rotate g = g) {a a' : Att ℝ T} (h : AttTurned r a a') (acc w : Vec3 ℝ) (t : T) :
    AttTurned r (a.propagate g acc w t).1 (a'.propagate g acc w t).1 ∧ (a'.propagate g acc w t).2 = (a.propagate g acc w t).2 := by
  unfold Att.propagate
  rcases forall₂_getLast h.items with ⟨h1, h2⟩ | ⟨i, i', h1, h2, hi⟩
  · exact absurd (List.getLast?_eq_none_iff.1 h1) h.ne
  · rw [h1, h2]
    dsimp only
    rw [hi.ts]
    split
    · exact ⟨h, rfl⟩
    · rw [h.biasA, h.biasG]
      obtain ⟨s1, s2, s3⟩ := stepQuat_turned hr hg h hi acc (w - a.biasG) t
      exact ⟨⟨List.rel_append h.items (.cons ⟨s1, s3, rfl, rfl, rfl⟩ .nil), by simp, rfl, rfl, h.kp, h.ki, s2⟩, rfl⟩

/-- Two attitudes found. -/
def QuatTurned (r q q' : Quat ℝ) : Prop := q' = r.mul q ∧ q.sqNorm = 1

theorem search_turned {r : Quat ℝ} (ts thr : T) {l l' : List (AttItem ℝ T)} (h : List.Forall₂ (AttItemTurned r) l l') : ∀ {p p' : Option (AttItem ℝ T)}, Option.Rel (AttItemTurned r) p p' →
    Both (Option.Rel (QuatTurned r)) (Att.search ts thr p l) (Att.search ts thr p' l') := by
  induction h with
  | nil => intro p p' _; exact Option.Rel.none
  | cons hi hl ih =>
    intro p p' hp
    rw [Att.search, Att.search, hi.ts]
    split
    · cases hp with
      | none => rfl
      | some hp =>
        simp only [Res.bind_ok]
        rw [hp.ts]
        split
        · exact Option.Rel.some ⟨hp.q, hp.unit⟩
        · split
          · exact Option.Rel.some ⟨hi.q, hi.unit⟩
          · exact Option.Rel.none
    · exact ih (Option.Rel.some hi)

theorem getAttitude_turned {r : Quat ℝ} {a a' : Att ℝ T} (h : AttTurned r a a') (ts thr : T) : Both (Option.Rel (QuatTurned r)) (a.getAttitude ts thr) (a'.getAttitude ts thr) := by
  unfold Att.getAttitude
  rcases forall₂_getLast h.items with ⟨h1, h2⟩ | ⟨b, b', h1, h2, hb⟩
  · exact absurd (List.getLast?_eq_none_iff.1 h1) h.ne
  · have hh := forall₂_head h.items
    rw [h1, h2, ← h.items.length_eq]
    revert hh
    generalize a.items.head? = c
    generalize a'.items.head? = c'
    intro hh
    cases hh with
    | none => exact Option.Rel.none
    | some hc =>
      dsimp only
      rw [hb.ts, hc.ts]
      split
      · show Option.Rel _ _ _
        split
        · exact .some ⟨hb.q, hb.unit⟩
        · exact .none
      · split
        · show Option.Rel _ _ _
          split
          · exact .some ⟨hc.q, hc.unit⟩
          · exact .none
        · exact search_turned ts thr (forall₂_reverse h.items) .none

theorem cleanLoop_turned {r : Quat ℝ} (ts : T) (thr : ℝ) {l l' : List (AttItem ℝ T)} (h : List.Forall₂ (AttItemTurned r) l l') :
    Both (fun x y => List.Forall₂ (AttItemTurned r) x y ∧ x ≠ []) (Att.cleanLoop ts thr l) (Att.cleanLoop ts thr l') := by
  induction h with
  | nil => rfl
  | cons hi hl ih =>
    rw [Att.cleanLoop, Att.cleanLoop, hi.ts]
    split
    · exact ih
    · exact ⟨.cons hi hl, by simp⟩

theorem cleanOldItems_turned {r : Quat ℝ} {a a' : Att ℝ T} (h : AttTurned r a a') (ts : T) (thr : ℝ) : Both (AttTurned r) (a.cleanOldItems ts thr) (a'.cleanOldItems ts thr) := by
  unfold Att.cleanOldItems
  rw [← forall₂_isEmpty h.items]
  split
  · exact h
  · refine (cleanLoop_turned ts thr h.items).bind (fun x y _ _ hxy => ?_)
    exact ⟨hxy.1, hxy.2, h.biasA, h.biasG, h.kp, h.ki, h.errInt⟩

/-! ### Features -/

theorem rotate_zero (r : Quat ℝ) : r.rotate 0 = 0 := by
  rw [← Quat.toMat_mulVec]
  apply Vec3.ext <;> simp [Mat3.mulVec, Vec3.dot]

theorem addOne_turned (r : Quat ℝ) (s : FMgr ℝ) (fid id : Nat) (o : Obs ℝ) : (featTurned r s).addOne fid id o = (featTurned r (s.addOne fid id o).1, (s.addOne fid id o).2) := by
  unfold FMgr.addOne
  show (match s.map.lookup id with | some x => _ | none => _) = _
  cases s.map.lookup id with
  | some x =>
    dsimp only
    rw [featTurned_put]
    have : ({ (s.heap x) with pw := r.rotate (s.heap x).pw } : Feature ℝ).addNewObserve o = { (s.heap x).addNewObserve o with pw := r.rotate ((s.heap x).addNewObserve o).pw } := by
      unfold Feature.addNewObserve
      dsimp only
      split <;> rfl
    show ((featTurned r s).put x (({ (s.heap x) with pw := r.rotate (s.heap x).pw } : Feature ℝ).addNewObserve o), x) = _
    rw [this]
  | none =>
    dsimp only
    have e : ({ Feature.make id fid o with pw := r.rotate (Feature.make id fid o).pw } : Feature ℝ) = Feature.make id fid o := by
      show (⟨_, _, _, _, r.rotate 0, _⟩ : Feature ℝ) = _
      rw [rotate_zero]
      rfl
    have := featTurned_put r s s.next (Feature.make id fid o)
    rw [e] at this
    have h2 := congrArg FMgr.heap this
    show ((⟨((featTurned r s).put s.next (Feature.make id fid o)).heap, s.next + 1, s.map ++ [(id, s.next)]⟩ : FMgr ℝ), s.next) = _
    rw [← h2]
    rfl

theorem addAll_turned (r : Quat ℝ) (fid : Nat) (l : List (Nat × Obs ℝ)) : ∀ s : FMgr ℝ, (featTurned r s).addAll fid l = (featTurned r (s.addAll fid l).1, (s.addAll fid l).2) := by
  induction l with
  | nil => intro s; rfl
  | cons x l ih =>
    intro s
    obtain ⟨id, o⟩ := x
    simp only [FMgr.addAll, addOne_turned, ih]

theorem addNewFeatures_turned (r : Quat ℝ) (s : FMgr ℝ) (ids : List Nat) (obs : List (Obs ℝ)) (fid : Nat) :
    (featTurned r s).addNewFeatures ids obs fid = (featTurned r (s.addNewFeatures ids obs fid).1, (s.addNewFeatures ids obs fid).2) := by
  unfold FMgr.addNewFeatures
  split
  · rfl
  · simp only [addAll_turned]

theorem removeShift_turned (r : Quat ℝ) (f : Feature ℝ) (fid : Nat) : Both (fun x y => y = ({ x.1 with pw := r.rotate x.1.pw }, x.2) ∧ x.1.pw = f.pw) (f.removeShift fid)
    (({ f with pw := r.rotate f.pw } : Feature ℝ).removeShift fid) := by
  unfold Feature.removeShift
  have : ({ f with pw := r.rotate f.pw } : Feature ℝ).finalFrameID = f.finalFrameID := rfl
  rw [this]
  dsimp only
  split
  · split
    · exact ⟨rfl, rfl⟩
    · refine (Both.refl (R := Eq) (fun _ => rfl) _).bind (fun o _ _ _ e2 => ?_); subst e2
      exact ⟨rfl, rfl⟩
  · split
    · exact ⟨rfl, rfl⟩
    · exact ⟨rfl, rfl⟩

theorem removeFirst_turned (r : Quat ℝ) (f : Feature ℝ) (fid : Nat) : Both (fun x y => y = ({ x.1 with pw := r.rotate x.1.pw }, x.2) ∧ x.1.pw = f.pw) (f.removeFirst fid)
    (({ f with pw := r.rotate f.pw } : Feature ℝ).removeFirst fid) := by
  unfold Feature.removeFirst
  dsimp only
  split
  · split
    · exact ⟨rfl, rfl⟩
    · refine (Both.refl (R := Eq) (fun _ => rfl) _).bind (fun o _ _ _ e2 => ?_); subst e2
      exact ⟨rfl, rfl⟩
  · exact ⟨rfl, rfl⟩

theorem removeLoop_turned (r : Quat ℝ) (fid : Nat) (off : Bool) (l : List (Nat × Nat)) : ∀ s : FMgr ℝ,
    Both (fun x y => y = (featTurned r x.1, x.2)) (FMgr.removeLoop fid off s l) (FMgr.removeLoop fid off (featTurned r s) l) := by
  induction l with
  | nil => intro s; rfl
  | cons x l ih =>
    intro s
    obtain ⟨a, i⟩ := x
    rw [FMgr.removeLoop, FMgr.removeLoop]
    have tail : ∀ x y : Feature ℝ × Bool, (y = ({ x.1 with pw := r.rotate x.1.pw }, x.2) ∧ x.1.pw = (s.heap i).pw) →
        Both (fun x y => y = (featTurned r x.1, x.2)) (do let (s', ds) ← FMgr.removeLoop fid off (s.put i x.1) l; .ok (s', if x.2 then (s.heap i).id :: ds else ds))
          (do let (s', ds) ← FMgr.removeLoop fid off ((featTurned r s).put i y.1) l; .ok (s', if y.2 then ((featTurned r s).heap i).id :: ds else ds)) := by
      intro x y hxy
      obtain ⟨f, d⟩ := x
      obtain ⟨rfl, -⟩ := hxy
      dsimp only
      rw [← featTurned_put]
      refine (ih (s.put i f)).bind (fun x y _ _ hxy => ?_)
      subst hxy
      rfl
    cases off
    · exact (removeFirst_turned r (s.heap i) fid).bind (fun x y _ _ hxy => tail x y hxy)
    · exact (removeShift_turned r (s.heap i) fid).bind (fun x y _ _ hxy => tail x y hxy)

theorem removeByFrameID_turned (r : Quat ℝ) (s : FMgr ℝ) (fid : Nat) (off : Bool) :
    Both (fun x y => y = featTurned r x) (s.removeByFrameID fid off) ((featTurned r s).removeByFrameID fid off) := by
  unfold FMgr.removeByFrameID
  refine (removeLoop_turned r fid off s.map s).bind (fun x y _ _ hxy => ?_)
  subst hxy
  rfl

/-! ### The window -/

/-- Frames of both worlds: same identity; the pose is turned if `t`. -/
structure FrameLike (r : Quat ℝ) (t : Prop) (f f' : Frame ℝ T) : Prop where
  addr : f'.addr = f.addr
  features : f'.features = f.features
  id : f'.id = f.id
  ts : f'.ts = f.ts
  pose : t → f'.p = r.rotate f.p ∧ f'.v = r.rotate f.v ∧ f'.q = r.mul f.q ∧ f.q.sqNorm = 1

/-- Windows of both worlds: the poses of the frames are turned if `t`. -/
structure WinLike (r : Quat ℝ) (t : Prop) (w w' : Win ℝ T) : Prop where
  feat : w'.feat = featTurned r w.feat
  frames : List.Forall₂ (FrameLike r t) w.frm.frames w'.frm.frames
  nextAddr : w'.frm.nextAddr = w.frm.nextAddr
  extrinsics : w'.frm.extrinsics = w.frm.extrinsics
  mounted : ∀ e ∈ w.frm.extrinsics, e.q.sqNorm = 1
  maxWindowSize : w'.frm.maxWindowSize = w.frm.maxWindowSize
  minTracked : w'.frm.minTracked = w.frm.minTracked
  minParallax : w'.frm.minParallax = w.frm.minParallax
  maxTranslation : w'.frm.maxTranslation = w.frm.maxTranslation

theorem FrameLike.turned {r : Quat ℝ} {t : Prop} (ht : t) {f f' : Frame ℝ T} (h : FrameLike r t f f') : FrameTurned r f f' :=
  ⟨h.addr, h.features, h.id, h.ts, (h.pose ht).1, (h.pose ht).2.1, (h.pose ht).2.2.1, (h.pose ht).2.2.2⟩

theorem FrameTurned.like {r : Quat ℝ} {f f' : Frame ℝ T} (h : FrameTurned r f f') (t : Prop) : FrameLike r t f f' := ⟨h.addr, h.features, h.id, h.ts, fun _ => ⟨h.p, h.v, h.q, h.unit⟩⟩

theorem WinLike.turned {r : Quat ℝ} {t : Prop} (ht : t) {w w' : Win ℝ T} (h : WinLike r t w w') : WinTurned r w w' :=
  ⟨h.feat, ⟨h.frames.imp (fun _ _ => FrameLike.turned ht), h.nextAddr, h.extrinsics, h.mounted, h.maxWindowSize, h.minTracked, h.minParallax, h.maxTranslation⟩⟩

theorem WinTurned.like {r : Quat ℝ} {w w' : Win ℝ T} (h : WinTurned r w w') (t : Prop) : WinLike r t w w' :=
  ⟨h.feat, h.frm.frames.imp (fun _ _ hf => FrameTurned.like hf t), h.frm.nextAddr, h.frm.extrinsics, h.frm.mounted, h.frm.maxWindowSize, h.frm.minTracked, h.frm.minParallax, h.frm.maxTranslation⟩

theorem WinLike.weaken {r : Quat ℝ} {t t' : Prop} (ht : t' → t) {w w' : Win ℝ T} (h : WinLike r t w w') : WinLike r t' w w' :=
  ⟨h.feat, h.frames.imp (fun _ _ hf => ⟨hf.addr, hf.features, hf.id, hf.ts, fun x => hf.pose (ht x)⟩), h.nextAddr, h.extrinsics, h.mounted, h.maxWindowSize, h.minTracked, h.minParallax, h.maxTranslation⟩

theorem addFeatures_like {r : Quat ℝ} {t : Prop} (s : FMgr ℝ) (l : List Nat) : ∀ {f f' : Frame ℝ T}, FrameLike r t f f' → FrameLike r t (f.addFeatures s l) (f'.addFeatures (featTurned r s) l) := by
  unfold Frame.addFeatures
  induction l with
  | nil => intro f f' h; exact h
  | cons i l ih =>
    intro f f' h
    rw [List.foldl_cons, List.foldl_cons]
    refine ih ?_
    unfold Frame.addFeature
    show FrameLike r t (match f.features.lookup (s.heap i).id with | some _ => _ | none => _) (match f'.features.lookup (s.heap i).id with | some _ => _ | none => _)
    rw [h.features]
    cases f.features.lookup (s.heap i).id with
    | some _ => exact h
    | none => exact ⟨h.addr, by dsimp only; rfl, h.id, h.ts, h.pose⟩

theorem insert_like {r : Quat ℝ} {t : Prop} {w w' : Win ℝ T} (h : WinLike r t w w') (hne : t → w.frm.frames ≠ []) (m : FeatMsg ℝ T) : WinLike r t (w.insert m) (w'.insert m) := by
  unfold Win.insert FrameMgr.addNewFrame
  dsimp only
  rw [h.feat, h.nextAddr]
  have hnew : FrameLike r t (FrameMgr.setupNew { w.frm with nextAddr := w.frm.nextAddr + 1 } (Frame.make w.frm.nextAddr m.ts))
      (FrameMgr.setupNew { w'.frm with nextAddr := w.frm.nextAddr + 1 } (Frame.make w.frm.nextAddr m.ts)) := by
    unfold FrameMgr.setupNew
    dsimp only
    rcases forall₂_getLast h.frames with ⟨h1, h2⟩ | ⟨i, i', h1, h2, hi⟩
    · rw [h1, h2]
      exact ⟨rfl, rfl, rfl, rfl, fun ht => absurd (List.getLast?_eq_none_iff.1 h1) (hne ht)⟩
    · rw [h1, h2]
      dsimp only
      exact ⟨rfl, rfl, by rw [hi.id], rfl, hi.pose⟩
  rw [hnew.id]
  rw [addNewFeatures_turned]
  dsimp only
  refine ⟨rfl, ?_, rfl, h.extrinsics, h.mounted, h.maxWindowSize, h.minTracked, h.minParallax, h.maxTranslation⟩
  dsimp only
  rw [List.dropLast_concat, List.dropLast_concat]
  exact List.rel_append h.frames (.cons (addFeatures_like _ _ hnew) .nil)

theorem removeFrame_like {r : Quat ℝ} {t : Prop} {m m' : FrameMgr ℝ T} (h : List.Forall₂ (FrameLike r t) m.frames m'.frames) (i : Nat) :
    List.Forall₂ (FrameLike r t) (m.removeFrame i).1.frames (m'.removeFrame i).1.frames ∧ (m.removeFrame i).1 = { m with frames := (m.removeFrame i).1.frames } ∧
      (m'.removeFrame i).1 = { m' with frames := (m'.removeFrame i).1.frames } := by
  unfold FrameMgr.removeFrame
  rw [← h.length_eq]
  split
  · exact ⟨h, rfl, rfl⟩
  · refine ⟨?_, rfl, rfl⟩
    have he : ∀ {l l' : List (Frame ℝ T)}, List.Forall₂ (FrameLike r t) l l' → ∀ i, List.Forall₂ (FrameLike r t) (l.eraseIdx i) (l'.eraseIdx i) := by
      intro l l' hl
      induction hl with
      | nil => intro i; exact .nil
      | cons a b ih =>
        intro i
        cases i with
        | zero => exact b
        | succ i => exact .cons a (ih i)
    refine he ?_ i
    split
    · refine List.rel_append (List.forall₂_take i h) ?_
      refine List.rel_map ?_ (List.forall₂_drop i h)
      intro f f' hf
      exact ⟨hf.addr, hf.features, by dsimp only; rw [hf.id], hf.ts, hf.pose⟩
    · exact h

theorem marginalize_like {r : Quat ℝ} {t : Prop} {w w' : Win ℝ T} (h : WinLike r t w w') (p : MargPolicy) : Both (WinLike r t) (w.marginalize p) (w'.marginalize p) := by
  have key : ∀ (s : FMgr ℝ) (i : Nat), WinLike r t ⟨s, (w.frm.removeFrame i).1⟩ ⟨featTurned r s, (w'.frm.removeFrame i).1⟩ := by
    intro s i
    obtain ⟨h1, h2, h3⟩ := removeFrame_like h.frames i
    refine ⟨rfl, h1, ?_, ?_, ?_, ?_, ?_, ?_, ?_⟩ <;> dsimp only <;> rw [h2] <;> (try rw [h3])
    · exact h.nextAddr
    · exact h.extrinsics
    · exact h.mounted
    · exact h.maxWindowSize
    · exact h.minTracked
    · exact h.minParallax
    · exact h.maxTranslation
  unfold Win.marginalize
  cases p with
  | noMarg => exact h
  | margOldest =>
    dsimp only
    refine (front_rel h.frames).bind (fun f f' _ _ hf => ?_)
    rw [hf.id, h.feat]
    refine (removeByFrameID_turned r _ _ _).bind (fun x y _ _ hxy => ?_)
    subst hxy
    exact key _ _
  | margSubnew =>
    dsimp only
    refine (back_rel h.frames).bind (fun f f' _ _ hf => ?_)
    rw [hf.id, h.feat]
    refine (removeByFrameID_turned r _ _ _).bind (fun x y _ _ hxy => ?_)
    subst hxy
    rw [← h.frames.length_eq]
    exact key _ _
  | margNewest =>
    dsimp only
    refine (back_rel h.frames).bind (fun f f' _ _ hf => ?_)
    rw [hf.id, h.feat]
    refine (removeByFrameID_turned r _ _ _).bind (fun x y _ _ hxy => ?_)
    subst hxy
    rw [← h.frames.length_eq]
    exact key _ _

theorem shrink_like {r : Quat ℝ} {t : Prop} (n : Nat) : ∀ {w w' : Win ℝ T}, WinLike r t w w' → Both (WinLike r t) (Backend.shrink n w) (Backend.shrink n w') := by
  induction n with
  | zero => intro w w' h; exact h
  | succ n ih =>
    intro w w' h
    rw [Backend.shrink, Backend.shrink, ← h.frames.length_eq]
    split
    · exact (marginalize_like h .margOldest).bind (fun x y _ _ hxy => ih hxy)
    · exact h

/-! ### Pose estimation -/

/-- A pose in the turned world. -/
structure PoseTurned (r : Quat ℝ) (s s' : Pose ℝ) : Prop where
  q : s'.q = r.mul s.q
  p : s'.p = r.rotate s.p
  unit : s.q.sqNorm = 1

/-- A normal equation in the turned world. -/
noncomputable def normTurned (r : Quat ℝ) (hb : Mat6 ℝ × Vec6 ℝ) : Mat6 ℝ × Vec6 ℝ :=
  (⟨(r.toMat.mul hb.1.pp).mul r.toMat.transpose, r.toMat.mul hb.1.pr, hb.1.rp.mul r.toMat.transpose, hb.1.rr⟩, ⟨r.rotate hb.2.p, hb.2.r⟩)

theorem addPoint_turned {r : Quat ℝ} (hr : r.sqNorm = 1) (k : Bool) {s s' : Pose ℝ} (h : PoseTurned r s s') (hb : Mat6 ℝ × Vec6 ℝ) (x : Vec3 ℝ) (n : Vec2 ℝ) :
    Pnp.addPoint k s' (normTurned r hb) (r.rotate x) n = normTurned r (Pnp.addPoint k s hb x n) := by
  have e1 : Pnp.toCam s' (r.rotate x) = Pnp.toCam s x := by
    unfold Pnp.toCam
    rw [h.q, h.p, ← Quat.rotate_sub, inverse_turn_rotate r _ hr h.unit]
  have e2 : Pnp.res s' (r.rotate x) n = Pnp.res s x n := by unfold Pnp.res; rw [e1]
  have e3 : Pnp.jacR s' (r.rotate x) = Pnp.jacR s x := by unfold Pnp.jacR; rw [e1]
  have e4 : Pnp.jacP s' (r.rotate x) = (Pnp.jacP s x).mulMat r.toMat.transpose := by
    unfold Pnp.jacP
    rw [e1, h.q, toMat_turn_inverse r _ hr h.unit, mul23_assoc]
    congr 1
    apply Mat3.ext <;> apply Vec3.ext <;> simp [Mat3.mul, Mat3.mulVec, Mat3.transpose, Vec3.dot] <;> ring
  unfold Pnp.addPoint
  rw [e1, e2, e3, e4]
  generalize Pnp.jacP s x = a
  generalize Pnp.jacR s x = b
  generalize Pnp.res s x n = c
  split
  · rfl
  · split
    · dsimp only
      generalize Pnp.cauchy (lit 1) c.norm = w
      unfold normTurned
      rw [← Quat.toMat_mulVec, ← Quat.toMat_mulVec]
      generalize r.toMat = R
      simp only [Prod.mk.injEq, Mat6.mk.injEq, Vec6.mk.injEq]
      refine ⟨⟨?_, ?_, ?_, trivial⟩, ?_, trivial⟩
      · apply Mat3.ext <;> apply Vec3.ext <;> simp [Mat3.mul, Mat3.mulVec, Mat3.transpose, Vec3.dot, Mat23.tmul, Mat23.mulMat] <;> ring
      · apply Mat3.ext <;> apply Vec3.ext <;> simp [Mat3.mul, Mat3.mulVec, Mat3.transpose, Vec3.dot, Mat23.tmul, Mat23.mulMat] <;> ring
      · apply Mat3.ext <;> apply Vec3.ext <;> simp [Mat3.mul, Mat3.mulVec, Mat3.transpose, Vec3.dot, Mat23.tmul, Mat23.mulMat] <;> ring
      · apply Vec3.ext <;> simp [Mat3.mulVec, Mat3.transpose, Vec3.dot, Mat23.tmulVec, Mat23.neg, Mat23.mulMat] <;> ring
    · unfold normTurned
      rw [← Quat.toMat_mulVec, ← Quat.toMat_mulVec]
      generalize r.toMat = R
      simp only [Prod.mk.injEq, Mat6.mk.injEq, Vec6.mk.injEq]
      refine ⟨⟨?_, ?_, ?_, trivial⟩, ?_, trivial⟩
      · apply Mat3.ext <;> apply Vec3.ext <;> simp [Mat3.mul, Mat3.mulVec, Mat3.transpose, Vec3.dot, Mat23.tmul, Mat23.mulMat] <;> ring
      · apply Mat3.ext <;> apply Vec3.ext <;> simp [Mat3.mul, Mat3.mulVec, Mat3.transpose, Vec3.dot, Mat23.tmul, Mat23.mulMat] <;> ring
      · apply Mat3.ext <;> apply Vec3.ext <;> simp [Mat3.mul, Mat3.mulVec, Mat3.transpose, Vec3.dot, Mat23.tmul, Mat23.mulMat] <;> ring
      · apply Vec3.ext <;> simp [Mat3.mulVec, Mat3.transpose, Vec3.dot, Mat23.tmulVec, Mat23.neg, Mat23.mulMat] <;> ring

theorem normalEq_turned {r : Quat ℝ} (hr : r.sqNorm = 1) (k : Bool) {s s' : Pose ℝ} (h : PoseTurned r s s') (pts : List (Vec3 ℝ × Vec2 ℝ)) :
    Pnp.normalEq k (pts.map (fun x => (r.rotate x.1, x.2))) s' = normTurned r (Pnp.normalEq k pts s) := by
  unfold Pnp.normalEq
  have key : ∀ (l : List (Vec3 ℝ × Vec2 ℝ)) (hb : Mat6 ℝ × Vec6 ℝ), (l.map (fun x => (r.rotate x.1, x.2))).foldl (fun hb x => Pnp.addPoint k s' hb x.1 x.2) (normTurned r hb) =
      normTurned r (l.foldl (fun hb x => Pnp.addPoint k s hb x.1 x.2) hb) := by
    intro l
    induction l with
    | nil => intro hb; rfl
    | cons x l ih =>
      intro hb
      rw [List.map_cons, List.foldl_cons, List.foldl_cons, addPoint_turned hr k h, ih]
  have e0 : normTurned r ((⟨0, 0, 0, 0⟩, ⟨0, 0⟩) : Mat6 ℝ × Vec6 ℝ) = (⟨0, 0, 0, 0⟩, ⟨0, 0⟩) := by
    unfold normTurned
    dsimp only
    rw [rotate_zero]
    have z1 : (0 : Mat3 ℝ) = ⟨⟨0, 0, 0⟩, ⟨0, 0, 0⟩, ⟨0, 0, 0⟩⟩ := rfl
    rw [z1]
    congr 2 <;> apply Mat3.ext <;> apply Vec3.ext <;> simp [Mat3.mul, Mat3.mulVec, Mat3.transpose, Vec3.dot]
  rw [← key, e0]

theorem norm6_turned {r : Quat ℝ} (hr : r.sqNorm = 1) (d : Vec6 ℝ) : (⟨r.rotate d.p, d.r⟩ : Vec6 ℝ).norm = d.norm := by
  unfold Vec6.norm
  have h : (r.rotate d.p).x * (r.rotate d.p).x + (r.rotate d.p).y * (r.rotate d.p).y + (r.rotate d.p).z * (r.rotate d.p).z = d.p.x * d.p.x + d.p.y * d.p.y + d.p.z * d.p.z := dot_turn r hr d.p d.p
  dsimp only
  rw [h]

theorem loop_turned {r : Quat ℝ} (hr : r.sqNorm = 1) {nc : Nat} {ext ext' : Ext ℝ} (he : ExtTurned r nc ext ext') (prm : PnpParam ℝ) (k : Bool) (pts : List (Vec3 ℝ × Vec2 ℝ)) (n : Nat) :
    ∀ {s s' : Pose ℝ}, PoseTurned r s s' → (Pnp.loop ext' prm k (pts.map (fun x => (r.rotate x.1, x.2))) n s').1 = (Pnp.loop ext prm k pts n s).1 ∧
      PoseTurned r (Pnp.loop ext prm k pts n s).2 (Pnp.loop ext' prm k (pts.map (fun x => (r.rotate x.1, x.2))) n s').2 := by
  induction n with
  | zero => intro s s' h; exact ⟨rfl, h⟩
  | succ n ih =>
    intro s s' h
    rw [Pnp.loop, Pnp.loop, normalEq_turned hr k h]
    dsimp only
    have hs := he.solve (Pnp.normalEq k pts s).1 (Pnp.normalEq k pts s).2
    unfold normTurned
    dsimp only
    rw [hs]
    generalize ext.ldlt6 (Pnp.normalEq k pts s).1 (Pnp.normalEq k pts s).2 = d
    rw [norm6_turned hr]
    have ha : PoseTurned r (Pnp.apply s d) (Pnp.apply s' ⟨r.rotate d.p, d.r⟩) := by
      have hp : 0 < (s.q.mul (Utility.deltaQ d.r)).sqNorm := by
        rw [Quat.sqNorm_mul, h.unit, one_mul]
        exact lt_of_lt_of_le one_pos (Quat.sqNorm_deltaQ_pos _)
      refine ⟨?_, ?_, Quat.sqNorm_normalized _ hp⟩
      · show (s'.q.mul _).normalized = _
        rw [h.q, Quat.mul_assoc', unit_mul_normalized r _ hr hp]
        rfl
      · show s'.p + r.rotate d.p = r.rotate (s.p + d.p)
        rw [h.p, Quat.rotate_add]
    split
    · exact ⟨rfl, h⟩
    · split
      · exact ⟨rfl, ha⟩
      · exact ih ha

theorem framePoints_turned {r : Quat ℝ} {t : Prop} (s : FMgr ℝ) {f f' : Frame ℝ T} (h : FrameLike r t f f') :
    Backend.framePoints (featTurned r s) f' = (Backend.framePoints s f).map (fun x => (r.rotate x.1, x.2)) := by
  unfold Backend.framePoints
  rw [h.features, h.id]
  induction f.features with
  | nil => rfl
  | cons e l ih =>
    have eh : (if ((featTurned r s).heap e.2).status = .solved then (((featTurned r s).heap e.2).getNorm f.id 0).map (fun n => (((featTurned r s).heap e.2).pw, n)) else none) =
        (if (s.heap e.2).status = .solved then ((s.heap e.2).getNorm f.id 0).map (fun n => ((s.heap e.2).pw, n)) else none).map (fun x => (r.rotate x.1, x.2)) := by
      show (if (s.heap e.2).status = .solved then ((s.heap e.2).getNorm f.id 0).map (fun n => (r.rotate (s.heap e.2).pw, n)) else none) = _
      split
      · rw [Option.map_map]
        rfl
      · rfl
    rw [List.filterMap_cons, List.filterMap_cons, eh]
    generalize (if (s.heap e.2).status = .solved then ((s.heap e.2).getNorm f.id 0).map (fun n => ((s.heap e.2).pw, n)) else none) = o
    cases o with
    | none => exact ih
    | some x =>
      show _ :: _ = _ :: _
      rw [ih]

theorem estimateFramePose_turned {r : Quat ℝ} (hr : r.sqNorm = 1) {nc : Nat} {ext ext' : Ext ℝ} (he : ExtTurned r nc ext ext') (prm : PnpParam ℝ) {w w' : Win ℝ T} (hfe : w'.feat = featTurned r w.feat)
    (hex : w'.frm.extrinsics = w.frm.extrinsics) (hmt : ∀ e ∈ w.frm.extrinsics, e.q.sqNorm = 1) {f f' : Frame ℝ T} (h : FrameLike r False f f') (hq : f'.q = r.mul f.q) (hp : f'.p = r.rotate f.p)
    (hu : f.q.sqNorm = 1) :
    Both (fun x y => y.1 = x.1 ∧ FrameLike r False x.2 y.2 ∧ y.2.q = r.mul x.2.q ∧ y.2.p = r.rotate x.2.p ∧ x.2.q.sqNorm = 1) (Backend.estimateFramePose ext prm w f)
      (Backend.estimateFramePose ext' prm w' f') := by
  unfold Backend.estimateFramePose
  rw [hfe, framePoints_turned w.feat h]
  dsimp only
  rw [List.length_map, hex]
  split
  · exact ⟨rfl, h, hq, hp, hu⟩
  · refine (Both.refl (R := Eq) (fun _ => rfl) _).bind (fun e _ hee _ e2 => ?_); subst e2
    have heu := hmt e (idx_mem hee)
    have hs : PoseTurned r ⟨f.q.mul e.q, f.q.rotate e.p + f.p⟩ ⟨f'.q.mul e.q, f'.q.rotate e.p + f'.p⟩ := by
      refine ⟨?_, ?_, unit_turn hu heu⟩
      · dsimp only; rw [hq, Quat.mul_assoc']
      · dsimp only; rw [hq, hp, Quat.rotate_mul _ _ hr hu, ← Quat.rotate_add]
    have hest : (Pnp.estimate ext' prm true (((Backend.framePoints w.feat f).map (fun x => (r.rotate x.1, x.2))).map (·.1)) (((Backend.framePoints w.feat f).map (fun x => (r.rotate x.1, x.2))).map (·.2))
          ⟨f'.q.mul e.q, f'.q.rotate e.p + f'.p⟩).1 =
        (Pnp.estimate ext prm true ((Backend.framePoints w.feat f).map (·.1)) ((Backend.framePoints w.feat f).map (·.2)) ⟨f.q.mul e.q, f.q.rotate e.p + f.p⟩).1 ∧
        PoseTurned r (Pnp.estimate ext prm true ((Backend.framePoints w.feat f).map (·.1)) ((Backend.framePoints w.feat f).map (·.2)) ⟨f.q.mul e.q, f.q.rotate e.p + f.p⟩).2
          (Pnp.estimate ext' prm true (((Backend.framePoints w.feat f).map (fun x => (r.rotate x.1, x.2))).map (·.1)) (((Backend.framePoints w.feat f).map (fun x => (r.rotate x.1, x.2))).map (·.2))
          ⟨f'.q.mul e.q, f'.q.rotate e.p + f'.p⟩).2 := by
      unfold Pnp.estimate
      generalize Backend.framePoints w.feat f = pts
      have hz : ∀ l : List (Vec3 ℝ × Vec2 ℝ), (l.map (·.1)).zip (l.map (·.2)) = l := by
        intro l
        induction l with
        | nil => rfl
        | cons a l ih => rw [List.map_cons, List.map_cons, List.zip_cons_cons, ih]
      rw [hz, hz]
      simp only [List.length_map, ne_eq, not_true_eq_false, false_or, List.map_eq_nil_iff]
      split
      · exact ⟨rfl, hs⟩
      · exact loop_turned hr he prm true pts prm.maxIter hs
    obtain ⟨h1, h2⟩ := hest
    rw [h1]
    split
    · refine ⟨rfl, ⟨h.addr, h.features, h.id, h.ts, False.elim⟩, ?_, ?_, unit_turn h2.unit (Quat.sqNorm_inverse_of_unit _ heu)⟩
      · dsimp only; rw [h2.q, Quat.mul_assoc']
      · dsimp only
        rw [h2.q, h2.p, Quat.mul_assoc', Quat.rotate_mul _ _ hr (unit_turn h2.unit (Quat.sqNorm_inverse_of_unit _ heu))]
        generalize (Quat.mul _ e.q.inverse).rotate e.p = a
        rw [Quat.rotate_add]
        congr 1
        rw [← Quat.toMat_mulVec, ← Quat.toMat_mulVec]
        apply Vec3.ext <;> simp [Mat3.mulVec, Vec3.dot] <;> ring
    · exact ⟨rfl, h, hq, hp, hu⟩

theorem triMultiView_turned {r : Quat ℝ} (hr : r.sqNorm = 1) {nc : Nat} {ext ext' : Ext ℝ} (he : ExtTurned r nc ext ext') {f f' : Frame ℝ T} (hid : f'.id = f.id) (hq : f'.q = r.mul f.q)
    (hp : f'.p = r.rotate f.p) (hu : f.q.sqNorm = 1) (l : List (Nat × Nat)) : ∀ {w w' : Win ℝ T}, w'.feat = featTurned r w.feat → w'.frm.extrinsics = w.frm.extrinsics →
      (∀ e ∈ w.frm.extrinsics, e.q.sqNorm = 1) →
      Both (fun x y => y.feat = featTurned r x.feat ∧ x.frm = w.frm ∧ y.frm = w'.frm) (Backend.triMultiView ext f w l) (Backend.triMultiView ext' f' w' l) := by
  induction l with
  | nil => intro w w' h _ _; exact ⟨h, rfl, rfl⟩
  | cons e l ih =>
    intro w w' h hex hmt
    rw [Backend.triMultiView, Backend.triMultiView, hid, h]
    refine (Both.refl (R := Eq) (fun _ => rfl) _).bind (fun o _ _ _ e2 => ?_); subst e2
    refine (obsViews_turned r hr hex hmt hq hp hu o.norms).bind (fun vs vs' _ _ hv => ?_)
    refine (analytic_turned r hr he (w.feat.heap e.2).pw hv).bind (fun x y _ _ hxy => ?_)
    obtain ⟨x1, x2⟩ := x
    obtain ⟨y1, y2⟩ := y
    obtain ⟨h1, h2⟩ := hxy
    dsimp only at h1 h2 ⊢
    subst h1 h2
    refine (ih (w := { w with feat := w.feat.put e.2 { w.feat.heap e.2 with pw := x2, status := if y1 then .solved else .unsolved } })
      (w' := { w' with feat := (featTurned r w.feat).put e.2 { (featTurned r w.feat).heap e.2 with pw := r.rotate x2, status := if y1 then .solved else .unsolved } }) ?_ hex hmt)
    dsimp only
    rw [featTurned_put]
    rfl

end Vio

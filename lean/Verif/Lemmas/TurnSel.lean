/-
Triangulation, selection of landmarks, stacking of the measurement equation and the Kalman step in a world turned about gravity.
-/
import Verif.Lemmas.TurnMeas

set_option linter.unusedSectionVars false

namespace Vio
open Spec WinSpec Update Res DMat

variable {T : Type} [TimeOps T] [TimeCast T ℝ]

/-! ### Triangulation -/

/-- A view in the turned world. -/
structure ViewTurned (r : Quat ℝ) (v v' : Triang.View ℝ) : Prop where
  q : v'.q = r.mul v.q
  p : v'.p = r.rotate v.p
  n : v'.n = v.n
  unit : v.q.sqNorm = 1

theorem idx_mem {α : Type} {l : List α} {c : Nat} {e : α} (h : idx l c = .ok e) : e ∈ l := by
  unfold idx at h
  split at h
  · rename_i x hx; cases h; exact List.mem_of_getElem? hx
  · cases h

theorem obsViews_turned (r : Quat ℝ) (hr : r.sqNorm = 1) {m m' : FrameMgr ℝ T} (hex : m'.extrinsics = m.extrinsics) (hmt : ∀ e ∈ m.extrinsics, e.q.sqNorm = 1) {f f' : Frame ℝ T}
    (hq : f'.q = r.mul f.q) (hp : f'.p = r.rotate f.p) (hu : f.q.sqNorm = 1) (l : List (Nat × Vec2 ℝ)) :
    Both (List.Forall₂ (ViewTurned r)) (obsViews m f l) (obsViews m' f' l) := by
  induction l with
  | nil => exact List.Forall₂.nil
  | cons x l ih =>
    obtain ⟨c, n⟩ := x
    rw [obsViews, obsViews, hex]
    refine (Both.refl (R := Eq) (fun _ => rfl) _).bind (fun e _ he _ e2 => ?_); subst e2
    refine ih.bind (fun vs vs' _ _ h => ?_)
    refine List.Forall₂.cons ⟨?_, ?_, rfl, unit_turn hu (hmt e (idx_mem he))⟩ h
    · show f'.q.mul e.q = _
      rw [hq, Quat.mul_assoc']
    · show f'.q.rotate e.p + f'.p = _
      rw [hq, hp, Quat.rotate_mul _ _ hr hu, ← Quat.rotate_add]

theorem featViews_turned (r : Quat ℝ) (hr : r.sqNorm = 1) {m m' : FrameMgr ℝ T} (hm : FramesTurned r m m') (first : Nat) (os : List (Obs ℝ)) : ∀ i,
    Both (List.Forall₂ (ViewTurned r)) (featViews m first i os) (featViews m' first i os) := by
  induction os with
  | nil => intro i; exact List.Forall₂.nil
  | cons o os ih =>
    intro i
    rw [featViews, featViews]
    have hg := getFrame_turned hm.frames (add32 i first)
    have : Both (FrameTurned r) (deref (m.getFrame (add32 i first))) (deref (m'.getFrame (add32 i first))) := by
      unfold deref
      revert hg
      generalize m.getFrame (add32 i first) = a
      generalize m'.getFrame (add32 i first) = b
      intro hg
      cases hg with
      | none => rfl
      | some h => exact h
    refine this.bind (fun f f' _ _ hf => ?_)
    refine (obsViews_turned r hr hm.extrinsics hm.mounted hf.q hf.p hf.unit o.norms).bind (fun a a' _ _ ha => ?_)
    refine (ih (i + 1)).bind (fun b b' _ _ hb => ?_)
    exact List.rel_append ha hb

theorem viewRow_turned (r : Quat ℝ) (hr : r.sqNorm = 1) {v v' : Triang.View ℝ} (h : ViewTurned r v v') (k j : Nat) (hj : j < 4) :
    Triang.viewRow v'.q v'.p v'.n k j = turnTriples r.toMat (fun b => b == 0) (Triang.viewRow v.q v.p v.n k) j := by
  have e1 : v'.q.inverse.toMat = v.q.inverse.toMat.mul r.toMat.transpose := by rw [h.q, toMat_turn_inverse r _ hr h.unit]
  have e2 : v'.q.inverse.rotate v'.p = v.q.inverse.rotate v.p := by rw [h.q, h.p, inverse_turn_rotate r _ hr h.unit]
  unfold Triang.viewRow
  rw [e1, e2, h.n]
  generalize v.q.inverse.toMat = m
  generalize v.q.inverse.rotate v.p = t
  generalize r.toMat = R
  by_cases hk : k = 0
  · subst hk
    interval_cases j <;> simp [turnTriples, Mat3.mul, Mat3.transpose, Mat3.mulVec, Vec3.dot, Vec3.get, Mat3.get, Mat3.row] <;> ring
  · simp only [hk, if_false]
    interval_cases j <;> simp [turnTriples, Mat3.mul, Mat3.transpose, Mat3.mulVec, Vec3.dot, Vec3.get, Mat3.get, Mat3.row] <;> ring

theorem systemRows_views (vs : List (Triang.View ℝ)) :
    Triang.systemRows (vs.map (·.q)) (vs.map (·.p)) (vs.map (·.n)) = .ok (vs.map (fun v => Triang.viewRow v.q v.p v.n)) := by
  induction vs with
  | nil => rfl
  | cons v vs ih => rw [List.map_cons, List.map_cons, List.map_cons, Triang.systemRows, ih]; rfl

theorem stack2_turned (r : Quat ℝ) (hr : r.sqNorm = 1) {vs vs' : List (Triang.View ℝ)} (h : List.Forall₂ (ViewTurned r) vs vs') :
    SystemTurned r.toMat (fun b => b == 0) (Triang.stack2 (vs.map (fun v => Triang.viewRow v.q v.p v.n))) (Triang.stack2 (vs'.map (fun v => Triang.viewRow v.q v.p v.n))) := by
  have hl := h.length_eq
  have key : ∀ i j, i < 2 * vs.length → j < 4 → (Triang.stack2 (vs'.map (fun v => Triang.viewRow v.q v.p v.n))).e i j =
      turnTriples r.toMat (fun b => b == 0) ((Triang.stack2 (vs.map (fun v => Triang.viewRow v.q v.p v.n))).e i) j := by
    intro i j hi hj
    have h1 : i / 2 < vs.length := by omega
    have hv := List.forall₂_iff_get.1 h |>.2 (i / 2) h1 (hl ▸ h1)
    have e1 : (vs.map (fun v => Triang.viewRow v.q v.p v.n))[i / 2]? = some (Triang.viewRow (vs.get ⟨i / 2, h1⟩).q (vs.get ⟨i / 2, h1⟩).p (vs.get ⟨i / 2, h1⟩).n) := by
      rw [List.getElem?_map, List.getElem?_eq_getElem h1]; rfl
    have e2 : (vs'.map (fun v => Triang.viewRow v.q v.p v.n))[i / 2]? = some (Triang.viewRow (vs'.get ⟨i / 2, hl ▸ h1⟩).q (vs'.get ⟨i / 2, hl ▸ h1⟩).p (vs'.get ⟨i / 2, hl ▸ h1⟩).n) := by
      rw [List.getElem?_map, List.getElem?_eq_getElem (hl ▸ h1)]; rfl
    simp only [Triang.stack2, e1, e2]
    exact viewRow_turned r hr hv _ _ hj
  refine ⟨?_, rfl, by simp [Triang.stack2], fun i j hi hj => key i j ?_ (by simp only [Triang.stack2] at hj; omega), fun i hi => ?_⟩
  · simp only [Triang.stack2, List.length_map, hl]
  · simpa [Triang.stack2] using hi
  · have := key i 3 (by simpa [Triang.stack2] using hi) (by omega)
    exact this

theorem inFront_turned (r : Quat ℝ) (hr : r.sqNorm = 1) (pw : Vec3 ℝ) {vs vs' : List (Triang.View ℝ)} (h : List.Forall₂ (ViewTurned r) vs vs') :
    Triang.inFront (r.rotate pw) (vs'.map (·.q)) (vs'.map (·.p)) = Triang.inFront pw (vs.map (·.q)) (vs.map (·.p)) := by
  induction h with
  | nil => rfl
  | cons hv _ ih =>
    rw [List.map_cons, List.map_cons, List.map_cons, List.map_cons, Triang.inFront, Triang.inFront, hv.q, hv.p, ← Quat.rotate_sub, inverse_turn_rotate r _ hr hv.unit, ih]

theorem analytic_turned (r : Quat ℝ) (hr : r.sqNorm = 1) {nc : Nat} {ext ext' : Ext ℝ} (he : ExtTurned r nc ext ext') (pw : Vec3 ℝ) {vs vs' : List (Triang.View ℝ)}
    (h : List.Forall₂ (ViewTurned r) vs vs') : Both (fun x y => y.1 = x.1 ∧ y.2 = r.rotate x.2) (Triang.analytic ext (vs.map (·.q)) (vs.map (·.p)) (vs.map (·.n)) pw)
      (Triang.analytic ext' (vs'.map (·.q)) (vs'.map (·.p)) (vs'.map (·.n)) (r.rotate pw)) := by
  unfold Triang.analytic
  rw [List.length_map, List.length_map, h.length_eq]
  split
  · exact ⟨rfl, rfl⟩
  · rw [systemRows_views, systemRows_views, Res.bind_ok, Res.bind_ok]
    obtain ⟨s, hs, e3, e⟩ := he.svd _ _ (stack2_turned r hr h) rfl
    dsimp only
    generalize ext.svdLast (Triang.stack2 (vs.map (fun v => Triang.viewRow v.q v.p v.n))) = x at e3 e ⊢
    generalize ext'.svdLast (Triang.stack2 (vs'.map (fun v => Triang.viewRow v.q v.p v.n))) = x' at e3 e ⊢
    have habs : ScalarFn.fabs (x' 3) = ScalarFn.fabs (x 3) := by
      show |x' 3| = |x 3|
      have : |s| * |s| = 1 := by rw [← abs_mul, hs, abs_one]
      have h1 : |s| = 1 := by nlinarith [abs_nonneg s]
      rw [e3, abs_mul, h1, one_mul]
    rw [habs]
    split
    · exact ⟨rfl, rfl⟩
    · have hpw : (⟨x' 0 / x' 3, x' 1 / x' 3, x' 2 / x' 3⟩ : Vec3 ℝ) = r.rotate ⟨x 0 / x 3, x 1 / x 3, x 2 / x 3⟩ := by
        have hs0 : s ≠ 0 := fun h0 => by rw [h0] at hs; norm_num at hs
        have l1 : (⟨x 0 / x 3, x 1 / x 3, x 2 / x 3⟩ : Vec3 ℝ) = .smul (1 / x 3) ⟨x 0, x 1, x 2⟩ := by
          apply Vec3.ext <;> simp only [Vec3.smul] <;> ring
        have l2 : (⟨x' 0 / x' 3, x' 1 / x' 3, x' 2 / x' 3⟩ : Vec3 ℝ) = .smul (1 / x' 3) ⟨x' 0, x' 1, x' 2⟩ := by
          apply Vec3.ext <;> simp only [Vec3.smul] <;> ring
        rw [l1, l2, e, e3, Quat.rotate_smul]
        have : 1 / (s * x 3) * s = 1 / x 3 := by rw [one_div, mul_inv]; field_simp
        apply Vec3.ext <;> simp only [Vec3.smul] <;> rw [← mul_assoc, this]
      rw [hpw, inFront_turned r hr _ h]
      refine (Both.refl (R := Eq) (fun _ => rfl) _).bind (fun g _ _ _ e2 => ?_); subst e2
      exact ⟨rfl, rfl⟩

theorem featTurned_put (r : Quat ℝ) (s : FMgr ℝ) (i : Nat) (f : Feature ℝ) : featTurned r (s.put i f) = (featTurned r s).put i { f with pw := r.rotate f.pw } := by
  unfold featTurned FMgr.put
  congr 1
  funext x
  dsimp only
  split <;> rfl

theorem triangulate_turned (r : Quat ℝ) (hr : r.sqNorm = 1) {nc : Nat} {ext ext' : Ext ℝ} (he : ExtTurned r nc ext ext') {w w' : Win ℝ T} (hw : WinTurned r w w') (i : Nat) :
    Both (fun x y => y.1 = x.1 ∧ WinTurned r x.2 y.2 ∧ x.2.frm = w.frm ∧ y.2.frm = w'.frm) (triangulate ext w i) (triangulate ext' w' i) := by
  unfold triangulate
  rw [hw.feat]
  refine (featViews_turned r hr hw.frm _ _ 0).bind (fun vs vs' _ _ h => ?_)
  refine (analytic_turned r hr he (w.feat.heap i).pw h).bind (fun x y _ _ hxy => ?_)
  obtain ⟨x1, x2⟩ := x
  obtain ⟨y1, y2⟩ := y
  obtain ⟨h1, h2⟩ := hxy
  dsimp only at h1 h2
  subst h1 h2
  refine ⟨rfl, ⟨?_, hw.frm⟩, rfl, rfl⟩
  show (featTurned r w.feat).put i _ = featTurned r (w.feat.put i _)
  rw [featTurned_put]
  rfl

theorem selectLoop_turned (r : Quat ℝ) (hr : r.sqNorm = 1) {nc : Nat} {env env' : Env ℝ} (he : EnvTurned r nc env env') (l : List (Nat × Nat)) :
    ∀ (w w' : Win ℝ T) (good : List (Nat × Nat)) (pos : Nat), WinTurned r w w' →
    Both (fun x y => WinTurned r x.1 y.1 ∧ y.2 = x.2 ∧ x.1.frm = w.frm ∧ y.1.frm = w'.frm) (selectLoop env w good pos l) (selectLoop env' w' good pos l) := by
  induction l with
  | nil => intro w w' good pos hw; exact ⟨hw, rfl, rfl, rfl⟩
  | cons e l ih =>
    intro w w' good pos hw
    rw [selectLoop, selectLoop]
    refine (triangulate_turned r hr he.ext hw e.2).bind (fun x y _ _ h => ?_)
    obtain ⟨x1, x2⟩ := x
    obtain ⟨y1, y2⟩ := y
    obtain ⟨h1, h2, h3, h4⟩ := h
    dsimp only at h1 h2 h3 h4 ⊢
    subst h1
    rw [he.rnd, he.key]
    split
    · exact (ih x2 y2 _ _ h2).mono (fun a b _ _ hab => ⟨hab.1, hab.2.1, hab.2.2.1.trans h3, hab.2.2.2.trans h4⟩)
    · exact (ih x2 y2 _ _ h2).mono (fun a b _ _ hab => ⟨hab.1, hab.2.1, hab.2.2.1.trans h3, hab.2.2.2.trans h4⟩)

theorem selectGood_turned (r : Quat ℝ) (hr : r.sqNorm = 1) {nc : Nat} {env env' : Env ℝ} (he : EnvTurned r nc env env') (maxUsed : Nat) {w w' : Win ℝ T} (pos : Nat) (hw : WinTurned r w w') :
    Both (fun x y => WinTurned r x.1 y.1 ∧ y.2 = x.2 ∧ x.1.frm = w.frm ∧ y.1.frm = w'.frm) (selectGood env maxUsed w pos) (selectGood env' maxUsed w' pos) := by
  unfold selectGood
  refine (back_rel hw.frm.frames).bind (fun f f' _ _ hf => ?_)
  rw [hf.features]
  refine (selectLoop_turned r hr he f.features w w' [] pos hw).bind (fun x y _ _ h => ?_)
  obtain ⟨x1, x2, x3⟩ := x
  obtain ⟨y1, y2, y3⟩ := y
  obtain ⟨h1, h2, h3, h4⟩ := h
  dsimp only at h2
  cases h2
  exact ⟨h1, rfl, h3, h4⟩

/-! ### Stacking and compression -/

theorem stackLoop_turned (r : Quat ℝ) (hr : r.sqNorm = 1) {w w' : Win ℝ T} (hw : WinTurned r w w') {ext ext' : Ext ℝ} (he : ExtTurned r w.frm.extrinsics.length ext ext') (fs : List Nat) :
    ∀ (n : Nat) (a a' : DMat ℝ), SystemTurned r.toMat (inWorld w.frm.extrinsics.length) a a' → a.cols = hxCols w.frm + 1 →
    Both (Option.Rel (fun x y => SystemTurned r.toMat (inWorld w.frm.extrinsics.length) x y ∧ x.cols = hxCols w.frm + 1)) (stackLoop ext w n a fs) (stackLoop ext' w' n a' fs) := by
  have hcols : hxCols w'.frm = hxCols w.frm := by unfold hxCols; rw [hw.frm.extrinsics, hw.frm.frames.length_eq]
  induction fs with
  | nil => intro n a a' ha hc; exact Option.Rel.some ⟨ha, hc⟩
  | cons i fs ih =>
    intro n a a' ha hc
    rw [stackLoop, stackLoop, hcols, hw.feat]
    have hft : (featTurned r w.feat).heap i = { w.feat.heap i with pw := r.rotate (w.feat.heap i).pw } := rfl
    have hsub : subRows ({ w.feat.heap i with pw := r.rotate (w.feat.heap i).pw } : Feature ℝ) = subRows (w.feat.heap i) := rfl
    rw [hft, hsub]
    refine (measFeature_turned r hr hw.frm he (w.feat.heap i)).bind (fun x y _ _ h => ?_)
    cases h with
    | none => exact Option.Rel.none
    | some h =>
      dsimp only
      generalize subRows (w.feat.heap i) = z
      have hk := ha.setRows h n z _ hc.symm
      refine hk.bind (fun a1 a1' k1 _ h1 => ?_)
      exact ih _ _ _ h1 (by rw [setBlock_cols k1, hc])

theorem compress_turned (r : Quat ℝ) {nc : Nat} {env env' : Env ℝ} (he : EnvTurned r nc env env') {a a' : DMat ℝ} (ha : SystemTurned r.toMat (inWorld nc) a a') (hc : 4 < a.cols) :
    Both (fun x y => SystemTurned r.toMat (inWorld nc) x y ∧ x.cols = a.cols) (compress env a) (compress env' a') := by
  unfold compress
  rw [ha.rows, ha.cols, he.junk]
  have hw := ha.width
  split
  · rename_i hgt
    obtain ⟨hf, e1, e2, e3, e4⟩ := DMat.block_spec (a := a) (i := 0) (j := 0) (r := a.rows) (c := a.cols - 1) (by omega) (by omega)
    obtain ⟨hf', e1', e2', e3', e4'⟩ := DMat.block_spec (a := a') (i := 0) (j := 0) (r := a.rows) (c := a.cols - 1) (by rw [ha.rows]; omega) (by rw [ha.cols]; omega)
    rw [e1, e1']
    simp only [Res.bind_ok]
    have hct : ColsTurned r.toMat (turnedCols nc hf.cols) hf hf' := by
      refine ⟨by rw [e2, e2'], by rw [e3, e3'], by rw [e3]; omega, fun i j hi hj => ?_⟩
      rw [e2] at hi
      rw [e3] at hj
      rw [e4', Nat.zero_add, Nat.zero_add, ha.coef i j hi (by omega)]
      have e : ∀ k, hf.e i k = a.e i k := fun k => by rw [e4, Nat.zero_add, Nat.zero_add]
      have h3 : ¬ a.cols - 1 = 3 := by omega
      unfold turnTriples
      simp only [e, turnedCols, e3, h3, if_false]
    have hq := ha.applyQt (ext := env.ext) (ext' := env'.ext) (A := hf) (A' := hf') (fun i j hi hj => he.ext.qr hf hf' hct i j (by rw [e2]; exact hi) (by rw [e2]; exact hj))
    refine ⟨⟨rfl, rfl, hw, fun i j hi hj => ?_, fun i hi => ?_⟩, rfl⟩
    · have hi' : i < a.cols - 1 := hi
      have hj' : j + 1 < a.cols := hj
      have key : ∀ (b : DMat ℝ) (k : Nat), b.rows = a.rows → b.cols = a.cols → k < a.cols → (b.conservativeResize env.junk (a.cols - 1) a.cols).e i k = b.e i k := by
        intro b k h1 h2 hk
        simp only [DMat.conservativeResize]
        rw [if_pos]
        rw [h1, h2]; exact ⟨by omega, hk⟩
      rw [key (applyQt env'.ext hf' a') j ha.rows ha.cols (by omega), hq.coef i j (show i < a.rows by omega) hj']
      exact tt_congr _ _ (n := a.cols - 1) (by omega) (by omega) (fun k hk => (key (applyQt env.ext hf a) k rfl rfl (by omega)).symm)
    · have hi' : i < a.cols - 1 := hi
      have key : ∀ (b : DMat ℝ), b.rows = a.rows → b.cols = a.cols → (b.conservativeResize env.junk (a.cols - 1) a.cols).e i (a.cols - 1) = b.e i (a.cols - 1) := by
        intro b h1 h2
        simp only [DMat.conservativeResize]
        rw [if_pos]
        rw [h1, h2]; exact ⟨by omega, by omega⟩
      exact (key (applyQt env'.ext hf' a') ha.rows ha.cols).trans ((hq.rhs i (show i < a.rows by omega)).trans (key (applyQt env.ext hf a) rfl rfl).symm)
  · exact ⟨ha, rfl⟩

theorem measure_turned (r : Quat ℝ) (hr : r.sqNorm = 1) {w w' : Win ℝ T} (hw : WinTurned r w w') {env env' : Env ℝ} (he : EnvTurned r w.frm.extrinsics.length env env') (fs : List Nat) :
    Both (Option.Rel (fun x y => SystemTurned r.toMat (inWorld w.frm.extrinsics.length) x y ∧ x.cols = hxCols w.frm + 1)) (Update.measure env w fs) (Update.measure env' w' fs) := by
  unfold Update.measure
  have hcols : hxCols w'.frm = hxCols w.frm := by unfold hxCols; rw [hw.frm.extrinsics, hw.frm.frames.length_eq]
  have hrows : hxRows w' fs = hxRows w fs := by
    unfold hxRows
    rw [hw.feat]
    rfl
  rw [hcols, hrows]
  refine (stackLoop_turned r hr hw he.ext fs 0 _ _ (SystemTurned.zero _ _ _ _ (by unfold hxCols; simp only [imuStateSize]; omega)) rfl).bind (fun x y _ _ h => ?_)
  cases h with
  | none => exact Option.Rel.none
  | some h =>
    refine (compress_turned r he h.1 (by rw [h.2]; unfold hxCols; simp only [imuStateSize]; omega)).bind (fun b b' _ _ hb => ?_)
    exact Option.Rel.some ⟨hb.1, hb.2.trans h.2⟩

/-! ### The Kalman step -/

theorem invEig_turned {r : Quat ℝ} {nc : Nat} {ext ext' : Ext ℝ} (he : ExtTurned r nc ext ext') (S S' : DMat ℝ) (m : Nat) (h1 : S.rows = m) (h2 : S.cols = m) (h1' : S'.rows = m) (h2' : S'.cols = m)
    (h : S'.toM m m = S.toM m m) : (invEig ext' S').toM m m = (invEig ext S).toM m m := by
  obtain ⟨k1, k2⟩ := he.eig S S' (by rw [h1, h1']) (by rw [h2, h2']) (fun i j hi hj => by
    rw [h1] at hi; rw [h2] at hj
    exact congrFun (congrFun h ⟨i, hi⟩) ⟨j, hj⟩)
  ext i j
  simp only [invEig, DMat.toM]
  rw [h1, h1']
  refine sumTo_congr (fun k hk => ?_)
  rw [k2 i k (by rw [h1]; exact i.2) (by rw [h1]; exact hk), k2 j k (by rw [h1]; exact j.2) (by rw [h1]; exact hk), k1 k (by rw [h1]; exact hk)]

open Matrix in
theorem kalman_turned (r : Quat ℝ) (hr : r.sqNorm = 1) {nc : Nat} {ext ext' : Ext ℝ} (he : ExtTurned r nc ext ext') (noise : ℝ) {P P' hxr hxr' : DMat ℝ}
    (hP : CovTurned r.toMat (inWorld nc) P P') (hsq : P.cols = P.rows) (hH : SystemTurned r.toMat (inWorld nc) hxr hxr') :
    Both (fun k k' => k'.dx.rows = k.dx.rows ∧ k'.dx.cols = 1 ∧ k.dx.cols = 1 ∧ k.dx.rows = P.rows ∧ (∀ i, i < P.rows → k'.dx.e i 0 = turnTriples r.toMat (inWorld nc) (fun l => k.dx.e l 0) i) ∧
      CovTurned r.toMat (inWorld nc) k.cov k'.cov ∧ k.cov.rows = P.rows ∧ k.cov.cols = P.rows) (kalman ext noise P hxr) (kalman ext' noise P' hxr') := by
  have hw := hH.width
  by_cases hn : P.rows + 1 = hxr.cols
  · have hn3 : P.rows % 3 = 0 := by omega
    obtain ⟨k, S, e0, e1, e2, e3, e4, e5, e6, e7, e8, e9, e10⟩ := kalman_eq ext noise P hxr P.rows hxr.rows rfl hsq rfl hn.symm
    obtain ⟨k', S', f0, f1, f2, f3, f4, f5, f6, f7, f8, f9, f10⟩ := kalman_eq ext' noise P' hxr' P.rows hxr.rows hP.rows (hP.cols.trans hsq) hH.rows (hH.cols.trans hn.symm)
    rw [e0, f0]
    have D1 := tM_orth r.toMat (rotM_orth r hr) (inWorld nc) hn3
    have gP : P'.toM P.rows P.rows = tM r.toMat (inWorld nc) P.rows * P.toM P.rows P.rows * (tM r.toMat (inWorld nc) P.rows).transpose :=
      (toM_turned r.toMat _ _ hn3 hn3 P P').2 (fun i j hi hj => hP.coef i j hi (by rw [hsq]; exact hj))
    have gH : hxr'.toM hxr.rows P.rows = hxr.toM hxr.rows P.rows * (tM r.toMat (inWorld nc) P.rows).transpose :=
      toM_turnedCols r.toMat _ hn3 hxr hxr' (fun i j hi hj => hH.coef i j hi (by omega))
    have gr : (Matrix.of fun (i : Fin hxr.rows) (_ : Fin 1) => hxr'.e i P.rows) = Matrix.of fun (i : Fin hxr.rows) (_ : Fin 1) => hxr.e i P.rows := by
      ext i j
      have := hH.rhs i i.2
      have e : hxr.cols - 1 = P.rows := by omega
      rw [e] at this
      exact this
    have cov' : ∀ C : Matrix (Fin P.rows) (Fin P.rows) ℝ, C = C := fun _ => rfl
    rw [gH, gP] at f3 f4
    rw [gH, gP] at f10
    rw [gr] at f7
    generalize hD : tM r.toMat (inWorld nc) P.rows = D at *
    generalize hPP : P.toM P.rows P.rows = A at *
    generalize hHH : hxr.toM hxr.rows P.rows = H at *
    have ePH : D * A * Dᵀ * (H * Dᵀ)ᵀ = D * (A * Hᵀ) := by
      rw [Matrix.transpose_mul, Matrix.transpose_transpose]
      calc D * A * Dᵀ * (D * Hᵀ) = D * A * (Dᵀ * D) * Hᵀ := by simp only [Matrix.mul_assoc]
        _ = D * (A * Hᵀ) := by rw [D1, Matrix.mul_one, Matrix.mul_assoc]
    have eS : S'.toM hxr.rows hxr.rows = S.toM hxr.rows hxr.rows := by
      rw [f3, e3, ePH]
      congr 1
      calc H * Dᵀ * (D * (A * Hᵀ)) = H * (Dᵀ * D) * (A * Hᵀ) := by simp only [Matrix.mul_assoc]
        _ = H * (A * Hᵀ) := by rw [D1, Matrix.mul_one]
    have eX := invEig_turned he S S' hxr.rows e1 e2 f1 f2 eS
    have eG : k'.gain.toM P.rows hxr.rows = D * k.gain.toM P.rows hxr.rows := by
      rw [f4, e4, ePH, eX, Matrix.mul_assoc]
    have eD : k'.dx.toM P.rows 1 = D * k.dx.toM P.rows 1 := by
      rw [f7, e7, eG, Matrix.mul_assoc]
    have eIK : (1 - k'.gain.toM P.rows hxr.rows * (H * Dᵀ)) * (D * A * Dᵀ) = D * ((1 - k.gain.toM P.rows hxr.rows * H) * A) * Dᵀ := by
      rw [eG, Matrix.sub_mul, Matrix.sub_mul, Matrix.mul_sub, Matrix.sub_mul, Matrix.one_mul, Matrix.one_mul]
      congr 1
      calc D * k.gain.toM P.rows hxr.rows * (H * Dᵀ) * (D * A * Dᵀ) = D * (k.gain.toM P.rows hxr.rows * H * (Dᵀ * D) * A) * Dᵀ := by simp only [Matrix.mul_assoc]
        _ = D * (k.gain.toM P.rows hxr.rows * H * A) * Dᵀ := by rw [D1, Matrix.mul_one]
    have eC : k'.cov.toM P.rows P.rows = D * k.cov.toM P.rows P.rows * Dᵀ := by
      rw [f10, e10, eIK]
      simp only [Matrix.transpose_mul, Matrix.transpose_transpose, Matrix.mul_smul, Matrix.smul_mul, Matrix.mul_add, Matrix.add_mul, Matrix.mul_assoc]
    subst hD
    refine ⟨by rw [f5, e5], f6, e6, e5, fun i hi => (toM_turnedRows r.toMat _ hn3 k.dx k'.dx).1 eD i 0 hi (by omega), ⟨by rw [f8, e8], by rw [f9, e9], fun i j hi hj => ?_⟩, e8, e9⟩
    exact (toM_turned r.toMat _ _ hn3 hn3 k.cov k'.cov).1 eC i j (by rw [← e8]; exact hi) (by rw [← e9]; exact hj)
  · have ub : ∀ (ext : Ext ℝ) (P hxr : DMat ℝ), P.cols + 1 ≠ hxr.cols → 1 ≤ hxr.cols → kalman ext noise P hxr = .ub .dimMismatch := by
      intro ext P hxr h h1
      unfold kalman
      obtain ⟨hf, e1, e2, e3, e4⟩ := DMat.block_spec (a := hxr) (i := 0) (j := 0) (r := hxr.rows) (c := hxr.cols - 1) (by omega) (by omega)
      obtain ⟨hf', e1', e2', e3', e4'⟩ := DMat.block_spec (a := hxr) (i := 0) (j := hxr.cols - 1) (r := hxr.rows) (c := 1) (by omega) (by omega)
      rw [e1, Res.bind_ok, e1', Res.bind_ok]
      have : P.mul hf.transpose = .ub .dimMismatch := by
        unfold DMat.mul
        rw [if_neg]
        rw [DMat.transpose_rows, e3]; omega
      rw [this]
      rfl
    rw [ub ext P hxr (by rw [hsq]; exact hn) (by omega), ub ext' P' hxr' (by rw [hP.cols, hsq, hH.cols]; exact hn) (by rw [hH.cols]; omega)]
    rfl

end Vio

/-
The transition matrix and the noise input matrix of the propagation as linear maps of error states.
-/
import Verif.Props.Propagator
import Verif.Lemmas.Quat

set_option linter.unusedSectionVars false

namespace Vio
open PropSpec PropQueue

/-- The discrete transition matrix. -/
noncomputable def fM (d : ℝ) (R : Mat3 ℝ) (ma mg : Vec3 ℝ) : Matrix (Fin 15) (Fin 15) ℝ := Matrix.of fun i j => Fspec d R ma mg i j

/-- The noise input matrix. -/
noncomputable def gM (d : ℝ) (R : Mat3 ℝ) : Matrix (Fin 15) (Fin 12) ℝ := Matrix.of fun i j => Gspec d R i j

/-- An error state as a vector. -/
noncomputable def ev (x : ErrState ℝ) : Fin 15 → ℝ := fun i => errToVec (fun _ => 0) x i

/-- Entries of the block diagonal matrix that turns the components given in the world frame, position and velocity. -/
noncomputable def turnE (r : Quat ℝ) (x y : Nat) : ℝ :=
  match x / 3, y / 3 with
  | 0, 0 | 1, 1 => r.toMat.get (x % 3) (y % 3)
  | 2, 2 | 3, 3 | 4, 4 => delta (x % 3) (y % 3)
  | _, _ => 0

/-- The matrix that turns position and velocity. -/
noncomputable def turnM (r : Quat ℝ) : Matrix (Fin 15) (Fin 15) ℝ := Matrix.of fun x y => turnE r x y

/-- The linear map of the transition matrix. -/
noncomputable def fmap (d : ℝ) (R : Mat3 ℝ) (ma mg : Vec3 ℝ) (x : ErrState ℝ) : ErrState ℝ :=
  { p := x.p + Vec3.smul d x.v
    v := x.v - Vec3.smul d (R.mulVec (ma.cross x.theta)) - Vec3.smul d (R.mulVec x.ba)
    theta := x.theta - Vec3.smul d (mg.cross x.theta) - Vec3.smul d x.bg
    ba := x.ba
    bg := x.bg }

/-- The linear map of `turnM`. -/
noncomputable def turn (r : Quat ℝ) (x : ErrState ℝ) : ErrState ℝ := { x with p := r.rotate x.p, v := r.rotate x.v }

/-- Three components of a noise vector. -/
def part (n : Fin 12 → ℝ) (k : Fin 4) : Vec3 ℝ := ⟨n ⟨3 * k, by omega⟩, n ⟨3 * k + 1, by omega⟩, n ⟨3 * k + 2, by omega⟩⟩

/-- The linear map of the noise input matrix. -/
noncomputable def gmap (d : ℝ) (R : Mat3 ℝ) (n : Fin 12 → ℝ) : ErrState ℝ :=
  { p := Vec3.smul (1 / 2 * d * d) (R.mulVec (part n 0))
    v := Vec3.smul d (R.mulVec (part n 0))
    theta := Vec3.smul d (part n 1)
    ba := Vec3.smul d (part n 2)
    bg := Vec3.smul d (part n 3) }

theorem errToVec_eq (x : ErrState ℝ) (j : Nat) : errToVec (fun _ => (0 : ℝ)) x j = if j < 3 then x.p.get j else if j < 6 then x.v.get (j - 3) else if j < 9 then x.theta.get (j - 6)
    else if j < 12 then x.ba.get (j - 9) else if j < 15 then x.bg.get (j - 12) else 0 := by
  simp only [errToVec, setSeg3, indexP, indexV, indexR, indexBA, indexBG]
  split_ifs <;> first | rfl | omega

theorem sum_ev (f : Nat → ℝ) (x : ErrState ℝ) : ∑ j : Fin 15, f j * ev x j =
    (f 0 * x.p.x + f 1 * x.p.y + f 2 * x.p.z) + (f 3 * x.v.x + f 4 * x.v.y + f 5 * x.v.z) + (f 6 * x.theta.x + f 7 * x.theta.y + f 8 * x.theta.z) +
    (f 9 * x.ba.x + f 10 * x.ba.y + f 11 * x.ba.z) + (f 12 * x.bg.x + f 13 * x.bg.y + f 14 * x.bg.z) := by
  have := Fin.sum_univ_eq_sum_range (fun j => f j * errToVec (fun _ => 0) x j) 15
  unfold ev
  rw [this]
  simp only [Finset.sum_range_succ, Finset.range_zero, Finset.sum_empty, errToVec_eq]
  norm_num [Vec3.get]
  ring

theorem fM_ev (d : ℝ) (R : Mat3 ℝ) (ma mg : Vec3 ℝ) (x : ErrState ℝ) : (fM d R ma mg).mulVec (ev x) = ev (fmap d R ma mg x) := by
  have hr : ∀ i : Fin 15, (fM d R ma mg).mulVec (ev x) i = ∑ j : Fin 15, (fun n => Fspec d R ma mg i n) j * ev x j := fun i => rfl
  ext i
  rw [hr, sum_ev]
  show _ = errToVec (fun _ => 0) (fmap d R ma mg x) i
  clear hr
  fin_cases i <;> dsimp only [Fspec, delta, errToVec, setSeg3, Vec3.get, fmap, Fin.val, indexP, indexV, indexR, indexBA, indexBG]
  all_goals norm_num
  all_goals simp [Mat3.get, Mat3.row, Vec3.get, Mat3.mul, Mat3.mulVec, Mat3.transpose, Mat3.smul, Utility.skew, Vec3.dot]
  all_goals ring

theorem turnM_ev (r : Quat ℝ) (x : ErrState ℝ) : (turnM r).mulVec (ev x) = ev (turn r x) := by
  have hr : ∀ i : Fin 15, (turnM r).mulVec (ev x) i = ∑ j : Fin 15, (fun n => turnE r i n) j * ev x j := fun i => rfl
  ext i
  rw [hr, sum_ev]
  show _ = errToVec (fun _ => 0) (turn r x) i
  clear hr
  unfold turn
  rw [← Quat.toMat_mulVec, ← Quat.toMat_mulVec]
  fin_cases i <;> dsimp only [turnE, delta, errToVec, setSeg3, Vec3.get, Fin.val, indexP, indexV, indexR, indexBA, indexBG]
  all_goals norm_num
  all_goals simp [Mat3.get, Mat3.row, Vec3.get, Mat3.mulVec, Vec3.dot]

theorem gM_ev (d : ℝ) (R : Mat3 ℝ) (n : Fin 12 → ℝ) : (gM d R).mulVec n = ev (gmap d R n) := by
  ext i
  show ∑ j : Fin 12, Gspec d R i j * n j = errToVec (fun _ => 0) (gmap d R n) i
  have e : ∑ j : Fin 12, Gspec d R i j * n j = ∑ j ∈ Finset.range 12, Gspec d R i j * (if h : j < 12 then n ⟨j, h⟩ else 0) := by
    rw [← Fin.sum_univ_eq_sum_range (fun j => Gspec d R i j * (if h : j < 12 then n ⟨j, h⟩ else 0)) 12]
    refine Finset.sum_congr rfl fun j _ => ?_
    simp
  rw [e]
  · simp only [Finset.sum_range_succ, Finset.range_zero, Finset.sum_empty]
    fin_cases i <;> dsimp only [Gspec, delta, errToVec, setSeg3, Vec3.get, Fin.val, indexP, indexV, indexR, indexBA, indexBG, gmap, part]
    all_goals norm_num
    all_goals simp [Mat3.get, Mat3.row, Vec3.get, Mat3.mulVec, Vec3.dot]
    all_goals ring

/-- Every vector is an error state. -/
theorem ev_surj (f : Fin 15 → ℝ) : ∃ x, ev x = f := by
  refine ⟨vecToErr (fun n => if h : n < 15 then f ⟨n, h⟩ else 0), ?_⟩
  ext i
  unfold ev
  rw [C39_pack_unpack _ _ _ i.2]
  simp

theorem matrix_ext_ev {n : Nat} (A B : Matrix (Fin n) (Fin 15) ℝ) (h : ∀ x, A.mulVec (ev x) = B.mulVec (ev x)) : A = B := by
  ext i j
  obtain ⟨x, hx⟩ := ev_surj (Pi.single j 1)
  have := congrFun (h x) i
  rw [hx, Matrix.mulVec_single_one, Matrix.mulVec_single_one] at this
  exact this

/-- Turning the world frame about any axis and propagating commute. -/
theorem fM_turn (r q : Quat ℝ) (hr : r.sqNorm = 1) (hq : q.sqNorm = 1) (d : ℝ) (ma mg : Vec3 ℝ) :
    fM d (r.mul q).toMat ma mg * turnM r = turnM r * fM d q.toMat ma mg := by
  refine matrix_ext_ev _ _ fun x => ?_
  rw [← Matrix.mulVec_mulVec, ← Matrix.mulVec_mulVec, turnM_ev, fM_ev, fM_ev, turnM_ev]
  congr 1
  unfold fmap turn
  simp only [Quat.toMat_mulVec, Quat.rotate_mul r q hr hq, Quat.rotate_add, Quat.rotate_sub, Quat.rotate_smul]

theorem gM_turn (r q : Quat ℝ) (hr : r.sqNorm = 1) (hq : q.sqNorm = 1) (d : ℝ) : gM d (r.mul q).toMat = turnM r * gM d q.toMat := by
  ext i j
  have h : (gM d (r.mul q).toMat).mulVec (Pi.single j 1) = (turnM r * gM d q.toMat).mulVec (Pi.single j 1) := by
    rw [← Matrix.mulVec_mulVec, gM_ev, gM_ev, turnM_ev]
    congr 1
    unfold gmap turn
    simp only [Quat.toMat_mulVec, Quat.rotate_mul r q hr hq, Quat.rotate_smul]
  rw [Matrix.mulVec_single_one, Matrix.mulVec_single_one] at h
  exact congrFun h i

end Vio

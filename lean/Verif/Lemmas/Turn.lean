/-
Linear algebra of turned triples of components.
-/
import Verif.Spec.Heading
import Verif.Lemmas.ErrMap
import Verif.Lemmas.Matrix

set_option linter.unusedSectionVars false

namespace Vio
open PropSpec

/-! ### Vectors -/

section Vec
variable (R : Mat3 ℝ) (sel : Nat → Bool)

theorem tt_congr {x y : Nat → ℝ} {i n : Nat} (hn : n % 3 = 0) (hi : i < n) (h : ∀ k < n, x k = y k) : turnTriples R sel x i = turnTriples R sel y i := by
  unfold turnTriples
  rw [h _ hi, h (3 * (i / 3)) (by omega), h (3 * (i / 3) + 1) (by omega), h (3 * (i / 3) + 2) (by omega)]

theorem tt_sum {ι : Type} (s : Finset ι) (c : ι → ℝ) (x : ι → Nat → ℝ) (i : Nat) :
    turnTriples R sel (fun k => ∑ l ∈ s, c l * x l k) i = ∑ l ∈ s, c l * turnTriples R sel (x l) i := by
  unfold turnTriples
  split
  · rw [Finset.mul_sum, Finset.mul_sum, Finset.mul_sum, ← Finset.sum_add_distrib, ← Finset.sum_add_distrib]
    exact Finset.sum_congr rfl (fun l _ => by ring)
  · rfl

theorem tt_add (x y : Nat → ℝ) (i : Nat) : turnTriples R sel (fun k => x k + y k) i = turnTriples R sel x i + turnTriples R sel y i := by
  unfold turnTriples; split
  · ring
  · rfl

theorem tt_smul (c : ℝ) (x : Nat → ℝ) (i : Nat) : turnTriples R sel (fun k => c * x k) i = c * turnTriples R sel x i := by
  unfold turnTriples; split
  · ring
  · rfl

/-- The order of turning rows and columns does not matter. -/
theorem tt_comm (sel' : Nat → Bool) (x : Nat → Nat → ℝ) (i j : Nat) :
    turnTriples R sel (fun k => turnTriples R sel' (x k) j) i = turnTriples R sel' (fun l => turnTriples R sel (fun k => x k l) i) j := by
  unfold turnTriples
  split <;> split
  · ring
  · rfl
  · rfl
  · rfl

/-- Turning commutes with a choice of components that keeps triples together. -/
theorem tt_reindex (sel' : Nat → Bool) (f : Nat → Nat) (x : Nat → ℝ) (i : Nat) (hs : sel' (i / 3) = sel (f i / 3)) (hm : f i % 3 = i % 3)
    (h : ∀ k, k < 3 → f (3 * (i / 3) + k) = 3 * (f i / 3) + k) : turnTriples R sel' (fun k => x (f k)) i = turnTriples R sel x (f i) := by
  unfold turnTriples
  rw [hs]
  split
  · rw [hm]
    have h0 := h 0 (by omega)
    rw [Nat.add_zero, Nat.add_zero] at h0
    have h1 := h 1 (by omega)
    have h2 := h 2 (by omega)
    simp only [h0, h1, h2]
  · rfl

end Vec

/-! ### Matrices -/

/-- The matrix of `turnTriples`. -/
noncomputable def tM (R : Mat3 ℝ) (sel : Nat → Bool) (n : Nat) : Matrix (Fin n) (Fin n) ℝ := Matrix.of fun i j => turnTriples R sel (fun k => if k = j.val then 1 else 0) i

theorem tM_sum (R : Mat3 ℝ) (sel : Nat → Bool) {n : Nat} (hn : n % 3 = 0) (x : Nat → ℝ) (i : Fin n) : ∑ j : Fin n, tM R sel n i j * x j = turnTriples R sel x i := by
  have h : ∀ k < n, x k = ∑ j : Fin n, x j * (if k = j.val then 1 else 0) := by
    intro k hk
    rw [Finset.sum_eq_single (⟨k, hk⟩ : Fin n)]
    · simp
    · intro b _ hb
      rw [if_neg (fun e => hb (Fin.ext e.symm)), mul_zero]
    · simp
  rw [tt_congr R sel hn i.2 h, tt_sum]
  exact Finset.sum_congr rfl (fun j _ => mul_comm _ _)

theorem mat3_get (R : Mat3 ℝ) (i j : Nat) : R.transpose.get i j = R.get j i ∨ 3 ≤ i ∨ 3 ≤ j := by
  by_cases hi : i < 3
  · by_cases hj : j < 3
    · left
      interval_cases i <;> interval_cases j <;> rfl
    · omega
  · omega

theorem tM_apply (R : Mat3 ℝ) (sel : Nat → Bool) (n : Nat) (i j : Fin n) :
    tM R sel n i j = if i.val / 3 = j.val / 3 then (if sel (i.val / 3) then R.get (i.val % 3) (j.val % 3) else if i = j then 1 else 0) else 0 := by
  show turnTriples R sel (fun k => if k = j.val then 1 else 0) i.val = _
  simp only [turnTriples]
  by_cases hb : i.val / 3 = j.val / 3
  · rw [if_pos hb]
    split
    · have h3 : j.val % 3 < 3 := Nat.mod_lt _ (by omega)
      have ej : j.val = 3 * (i.val / 3) + j.val % 3 := by rw [hb]; omega
      generalize hm : j.val % 3 = m at *
      interval_cases m
      · rw [if_pos (by omega), if_neg (by omega), if_neg (by omega)]; simp
      · rw [if_neg (by omega), if_pos (by omega), if_neg (by omega)]; simp
      · rw [if_neg (by omega), if_neg (by omega), if_pos (by omega)]; simp
    · simp [Fin.ext_iff]
  · rw [if_neg hb]
    split
    · rw [if_neg (by omega), if_neg (by omega), if_neg (by omega)]; simp
    · rw [if_neg (by omega)]

theorem tM_transpose (R : Mat3 ℝ) (sel : Nat → Bool) (n : Nat) : (tM R sel n).transpose = tM R.transpose sel n := by
  ext i j
  rw [Matrix.transpose_apply, tM_apply, tM_apply]
  by_cases hb : i.val / 3 = j.val / 3
  · rw [if_pos hb, if_pos hb.symm, hb]
    split
    · rcases mat3_get R (i.val % 3) (j.val % 3) with h | h | h
      · exact h.symm
      · omega
      · omega
    · simp [eq_comm]
  · rw [if_neg hb, if_neg (fun e => hb e.symm)]

/-- Turning back. -/
theorem tt_back (R : Mat3 ℝ) (hR : R.transpose.mul R = .one) (sel : Nat → Bool) (x : Nat → ℝ) (i : Nat) :
    turnTriples R.transpose sel (turnTriples R sel x) i = x i := by
  have key : ∀ a b, a < 3 → b < 3 → R.transpose.get a 0 * R.get 0 b + R.transpose.get a 1 * R.get 1 b + R.transpose.get a 2 * R.get 2 b = if a = b then 1 else 0 := by
    intro a b ha hb
    have e := hR
    simp only [Mat3.ext_iff, Vec3.ext_iff, Mat3.mul, Mat3.mulVec, Mat3.transpose, Vec3.dot, Mat3.one] at e
    obtain ⟨⟨e1, e2, e3⟩, ⟨e4, e5, e6⟩, e7, e8, e9⟩ := e
    interval_cases a <;> interval_cases b <;> simp [Mat3.get, Mat3.row, Vec3.get, Mat3.transpose] <;> linarith
  have hlt : i % 3 < 3 := Nat.mod_lt _ (by omega)
  have e : i = 3 * (i / 3) + i % 3 := by omega
  have d : ∀ k, k < 3 → (3 * (i / 3) + k) / 3 = i / 3 ∧ (3 * (i / 3) + k) % 3 = k := fun k hk => by omega
  have hcomp : ∀ k, k < 3 → sel (i / 3) = true → turnTriples R sel x (3 * (i / 3) + k) =
      R.get k 0 * x (3 * (i / 3)) + R.get k 1 * x (3 * (i / 3) + 1) + R.get k 2 * x (3 * (i / 3) + 2) := by
    intro k hk hs
    unfold turnTriples
    rw [(d k hk).1, (d k hk).2, if_pos hs]
  by_cases hs : sel (i / 3) = true
  · rw [turnTriples, if_pos hs, hcomp 1 (by omega) hs, hcomp 2 (by omega) hs]
    have h0 := hcomp 0 (by omega) hs
    rw [Nat.add_zero] at h0
    rw [h0]
    have k0 := key (i % 3) 0 hlt (by omega)
    have k1 := key (i % 3) 1 hlt (by omega)
    have k2 := key (i % 3) 2 hlt (by omega)
    calc _ = (R.transpose.get (i % 3) 0 * R.get 0 0 + R.transpose.get (i % 3) 1 * R.get 1 0 + R.transpose.get (i % 3) 2 * R.get 2 0) * x (3 * (i / 3)) +
          (R.transpose.get (i % 3) 0 * R.get 0 1 + R.transpose.get (i % 3) 1 * R.get 1 1 + R.transpose.get (i % 3) 2 * R.get 2 1) * x (3 * (i / 3) + 1) +
          (R.transpose.get (i % 3) 0 * R.get 0 2 + R.transpose.get (i % 3) 1 * R.get 1 2 + R.transpose.get (i % 3) 2 * R.get 2 2) * x (3 * (i / 3) + 2) := by ring
      _ = x i := by
        rw [k0, k1, k2]
        conv_rhs => rw [e]
        generalize i % 3 = m at *
        interval_cases m <;> simp
  · simp only [turnTriples, hs]
    rfl

theorem tM_orth (R : Mat3 ℝ) (hR : R.transpose.mul R = .one) (sel : Nat → Bool) {n : Nat} (hn : n % 3 = 0) : (tM R sel n).transpose * tM R sel n = 1 := by
  rw [tM_transpose]
  ext i j
  rw [Matrix.mul_apply]
  have : ∑ k : Fin n, tM R.transpose sel n i k * tM R sel n k j = ∑ k : Fin n, tM R.transpose sel n i k * turnTriples R sel (fun k => if k = j.val then 1 else 0) k := rfl
  rw [this, tM_sum R.transpose sel hn (turnTriples R sel (fun k => if k = j.val then 1 else 0)), tt_back R hR, Matrix.one_apply]
  simp [Fin.ext_iff]

/-- Turned rows and columns, as a matrix product. -/
theorem toM_turned (R : Mat3 ℝ) (s1 s2 : Nat → Bool) {m n : Nat} (hm : m % 3 = 0) (hn : n % 3 = 0) (a a' : DMat ℝ) :
    a'.toM m n = tM R s1 m * a.toM m n * (tM R s2 n).transpose ↔ ∀ i j, i < m → j < n → a'.e i j = turnTriples R s1 (fun k => turnTriples R s2 (a.e k) j) i := by
  have key : ∀ (i : Fin m) (j : Fin n), (tM R s1 m * a.toM m n * (tM R s2 n).transpose) i j = turnTriples R s1 (fun k => turnTriples R s2 (a.e k) j) i := by
    intro i j
    rw [Matrix.mul_assoc, Matrix.mul_apply]
    rw [← tM_sum R s1 hm (fun k => turnTriples R s2 (a.e k) j) i]
    refine Finset.sum_congr rfl (fun k _ => ?_)
    congr 1
    rw [Matrix.mul_apply, ← tM_sum R s2 hn (a.e k) j]
    exact Finset.sum_congr rfl (fun l _ => by rw [Matrix.transpose_apply, mul_comm]; rfl)
  constructor
  · intro h i j hi hj
    have := congrFun (congrFun h ⟨i, hi⟩) ⟨j, hj⟩
    rw [key] at this
    exact this
  · intro h
    ext i j
    rw [key]
    exact h i j i.2 j.2

/-- Turned columns, as a matrix product. -/
theorem toM_turnedCols (R : Mat3 ℝ) (s : Nat → Bool) {m n : Nat} (hn : n % 3 = 0) (a a' : DMat ℝ) (h : ∀ i j, i < m → j < n → a'.e i j = turnTriples R s (a.e i) j) :
    a'.toM m n = a.toM m n * (tM R s n).transpose := by
  ext i j
  rw [Matrix.mul_apply]
  refine (h i j i.2 j.2).trans ?_
  rw [← tM_sum R s hn (a.e i) j]
  exact Finset.sum_congr rfl (fun l _ => by rw [Matrix.transpose_apply, mul_comm]; rfl)

/-- Turned rows, as a matrix product. -/
theorem toM_turnedRows (R : Mat3 ℝ) (s : Nat → Bool) {m n : Nat} (hm : m % 3 = 0) (a a' : DMat ℝ) :
    a'.toM m n = tM R s m * a.toM m n ↔ ∀ i j, i < m → j < n → a'.e i j = turnTriples R s (fun k => a.e k j) i := by
  have key : ∀ (i : Fin m) (j : Fin n), (tM R s m * a.toM m n) i j = turnTriples R s (fun k => a.e k j) i := by
    intro i j
    rw [Matrix.mul_apply, ← tM_sum R s hm (fun k => a.e k j) i]
    rfl
  constructor
  · intro h i j hi hj
    have := congrFun (congrFun h ⟨i, hi⟩) ⟨j, hj⟩
    rw [key] at this
    exact this
  · intro h
    ext i j
    rw [key]
    exact h i j i.2 j.2

/-! ### The state -/

theorem inWorld_imu (nc b : Nat) (h : b < 5) : inWorld nc b = decide (b < 2) := by
  unfold inWorld
  have : decide (5 + 2 * nc ≤ b) = false := decide_eq_false (by omega)
  rw [this]; simp

theorem turnM_eq (r : Quat ℝ) (nc : Nat) : tM r.toMat (inWorld nc) 15 = turnM r := by
  ext i j
  rw [tM_apply]
  show _ = turnE r i.val j.val
  have hi : i.val / 3 < 5 := by omega
  have hj : j.val / 3 < 5 := by omega
  rw [inWorld_imu nc _ hi]
  unfold turnE
  have hij : i.val / 3 = j.val / 3 → ((i = j) ↔ i.val % 3 = j.val % 3) := by
    intro h
    rw [Fin.ext_iff]
    constructor
    · intro e; rw [e]
    · intro e; omega
  generalize hx : i.val / 3 = x at *
  generalize hy : j.val / 3 = y at *
  interval_cases x <;> interval_cases y <;> simp_all [delta]

/-- The part of the state after the IMU state: the triples that are turned. -/
def poseWorld (nc b : Nat) : Bool := decide (2 * nc ≤ b) && b % 2 == 0

theorem inWorld_pose (nc b : Nat) : inWorld nc (b + 5) = poseWorld nc b := by
  unfold inWorld poseWorld
  have h1 : decide (b + 5 < 2) = false := decide_eq_false (by omega)
  have h2 : decide (5 + 2 * nc ≤ b + 5) = decide (2 * nc ≤ b) := by
    by_cases h : 2 * nc ≤ b
    · rw [decide_eq_true h, decide_eq_true (by omega)]
    · rw [decide_eq_false h, decide_eq_false (by omega)]
  rw [h1, h2, Nat.add_sub_cancel]; rfl

theorem rotM_orth (r : Quat ℝ) (hr : r.sqNorm = 1) : r.toMat.transpose.mul r.toMat = .one := by
  simp only [Quat.sqNorm] at hr
  apply Mat3.ext <;> apply Vec3.ext <;> simp only [Mat3.mul, Mat3.mulVec, Mat3.transpose, Vec3.dot, Mat3.one, Quat.toMat, ScalarFn.lit_real] <;> push_cast
  · linear_combination (4 * (r.y * r.y + r.z * r.z)) * hr
  · linear_combination (-4 * r.x * r.y) * hr
  · linear_combination (-4 * r.x * r.z) * hr
  · linear_combination (-4 * r.x * r.y) * hr
  · linear_combination (4 * (r.x * r.x + r.z * r.z)) * hr
  · linear_combination (-4 * r.y * r.z) * hr
  · linear_combination (-4 * r.x * r.z) * hr
  · linear_combination (-4 * r.y * r.z) * hr
  · linear_combination (4 * (r.x * r.x + r.y * r.y)) * hr

end Vio

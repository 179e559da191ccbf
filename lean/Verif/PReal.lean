/-
Reals with an absorbing "not a finite number" value: division by zero, roots of negative numbers and so on yield `nan`, comparisons with it are false.  Used where a property
is about NaN: exact arithmetic, but nothing is totalised.  (IEEE infinities are not distinguished from NaN.)
-/
import Verif.Model.Math

namespace Vio

/-- Partial reals: `nan` stands for NaN and infinities. -/
inductive PReal where
  | nan
  | of (x : ℝ)

namespace PReal

/-- Lift of a binary operation. -/
def lift2 (f : ℝ → ℝ → ℝ) : PReal → PReal → PReal
  | of a, of b => of (f a b)
  | _, _ => nan

/-- Comparison, false on NaN. -/
def cmp (p : ℝ → ℝ → Bool) : PReal → PReal → Bool
  | of a, of b => p a b
  | _, _ => false

/-- Lift of a partial function with a domain. -/
noncomputable def lift1 (dom : ℝ → Prop) [DecidablePred dom] (f : ℝ → ℝ) : PReal → PReal
  | of a => if dom a then of (f a) else nan
  | nan => nan

/-- Division, undefined at zero. -/
noncomputable def div' : PReal → PReal → PReal
  | of a, of b => if b = 0 then nan else of (a / b)
  | _, _ => nan

/-- Test for NaN. -/
def isNan : PReal → Bool
  | nan => true
  | of _ => false

instance : Zero PReal := ⟨of 0⟩
instance : One PReal := ⟨of 1⟩
noncomputable instance : Add PReal := ⟨lift2 (· + ·)⟩
noncomputable instance : Sub PReal := ⟨lift2 (· - ·)⟩
noncomputable instance : Mul PReal := ⟨lift2 (· * ·)⟩
noncomputable instance : Neg PReal := ⟨lift1 (fun _ => True) (- ·)⟩
noncomputable instance : Div PReal := ⟨div'⟩

noncomputable instance : ScalarFn PReal where
  lit q := of q
  sqrt := lift1 (fun x => 0 ≤ x) Real.sqrt
  fabs := lift1 (fun _ => True) (fun x => |x|)
  lt := cmp (fun a b => decide (a < b))
  le := cmp (fun a b => decide (a ≤ b))
  isNaN := isNan
  atan2 := lift2 (fun y x => Complex.arg ⟨x, y⟩)
  acos := lift1 (fun x => -1 ≤ x ∧ x ≤ 1) Real.arccos
  asin := lift1 (fun x => -1 ≤ x ∧ x ≤ 1) Real.arcsin
  log := lift1 (fun x => 0 < x) Real.log

noncomputable instance : TimeOps PReal where
  tlit q := of q
  sub := lift2 (· - ·)
  mul := lift2 (· * ·)
  div := div'
  fabs := lift1 (fun _ => True) (fun x => |x|)
  lt := cmp (fun a b => decide (a < b))
  le := cmp (fun a b => decide (a ≤ b))
  isNaN := isNan

instance : TimeCast PReal PReal where
  toK t := t
  ofK k := k

theorem zero_def : (0 : PReal) = of 0 := rfl
theorem one_def : (1 : PReal) = of 1 := rfl
theorem of_add (a b : ℝ) : of a + of b = of (a + b) := rfl
theorem of_sub (a b : ℝ) : of a - of b = of (a - b) := rfl
theorem of_mul (a b : ℝ) : of a * of b = of (a * b) := rfl
theorem of_neg (a : ℝ) : -of a = of (-a) := if_pos (e := nan) trivial
theorem of_div (a b : ℝ) (h : b ≠ 0) : of a / of b = of (a / b) := if_neg h
theorem div_zero (a : PReal) : a / of 0 = nan := by
  cases a with
  | nan => rfl
  | of a => exact if_pos rfl
theorem of_lit (q : ℚ) : (ScalarFn.lit q : PReal) = of (ScalarFn.lit q) := rfl
theorem of_sqrt (a : ℝ) (h : 0 ≤ a) : ScalarFn.sqrt (of a) = of (ScalarFn.sqrt a) := if_pos h
theorem of_fabs (a : ℝ) : ScalarFn.fabs (of a) = of (ScalarFn.fabs a) := if_pos (e := nan) trivial
theorem of_lt (a b : ℝ) : ScalarFn.lt (of a) (of b) = ScalarFn.lt a b := rfl
theorem of_le (a b : ℝ) : ScalarFn.le (of a) (of b) = ScalarFn.le a b := rfl
theorem of_atan2 (a b : ℝ) : ScalarFn.atan2 (of a) (of b) = of (ScalarFn.atan2 a b) := rfl
theorem of_tlt (a b : ℝ) : TimeOps.lt (of a) (of b) = TimeOps.lt a b := rfl
theorem of_tle (a b : ℝ) : TimeOps.le (of a) (of b) = TimeOps.le a b := rfl
theorem of_tsub (a b : ℝ) : TimeOps.sub (of a) (of b) = of (TimeOps.sub a b) := rfl
theorem of_tlit (q : ℚ) : (TimeOps.tlit q : PReal) = of (TimeOps.tlit q) := rfl
theorem of_toK (a : ℝ) : (TimeCast.toK (of a) : PReal) = of (TimeCast.toK a) := rfl
theorem of_ofK (a : ℝ) : (TimeCast.ofK (of a) : PReal) = of (TimeCast.ofK a) := rfl

theorem nan_add (a : PReal) : nan + a = nan := rfl
theorem add_nan (a : PReal) : a + nan = nan := by cases a <;> rfl
theorem nan_sub (a : PReal) : nan - a = nan := rfl
theorem nan_mul (a : PReal) : nan * a = nan := rfl
theorem mul_nan (a : PReal) : a * nan = nan := by cases a <;> rfl
theorem nan_div (a : PReal) : nan / a = nan := rfl
theorem lt_nan (a : PReal) : ScalarFn.lt a nan = false := by cases a <;> rfl

theorem of_injective : Function.Injective of := fun _ _ h => PReal.of.inj h

end PReal

/-- A finite vector. -/
def Vec3.emb (v : Vec3 ℝ) : Vec3 PReal := ⟨.of v.x, .of v.y, .of v.z⟩
/-- A finite quaternion. -/
def Quat.emb (q : Quat ℝ) : Quat PReal := ⟨.of q.w, .of q.x, .of q.y, .of q.z⟩

open PReal

namespace Vec3
theorem emb_zero : (0 : Vec3 PReal) = emb 0 := rfl
theorem emb_add (a b : Vec3 ℝ) : a.emb + b.emb = (a + b).emb := rfl
theorem emb_sub (a b : Vec3 ℝ) : a.emb - b.emb = (a - b).emb := rfl
theorem emb_neg (a : Vec3 ℝ) : -a.emb = (-a).emb := by
  apply Vec3.ext <;> simp [emb, of_neg]
theorem emb_smul (k : ℝ) (a : Vec3 ℝ) : smul (of k) a.emb = (smul k a).emb := rfl
theorem emb_sdiv (a : Vec3 ℝ) (k : ℝ) (h : k ≠ 0) : a.emb.sdiv (of k) = (a.sdiv k).emb := by
  apply Vec3.ext <;> simp [emb, sdiv, of_div _ _ h]
theorem emb_dot (a b : Vec3 ℝ) : a.emb.dot b.emb = of (a.dot b) := rfl
theorem emb_cross (a b : Vec3 ℝ) : a.emb.cross b.emb = (a.cross b).emb := rfl
theorem emb_sqNorm (a : Vec3 ℝ) : a.emb.sqNorm = of a.sqNorm := rfl
theorem sqNorm_nonneg (a : Vec3 ℝ) : 0 ≤ a.sqNorm := by
  unfold sqNorm
  nlinarith [mul_self_nonneg a.x, mul_self_nonneg a.y, mul_self_nonneg a.z]
theorem emb_norm (a : Vec3 ℝ) : a.emb.norm = of a.norm := by
  unfold norm
  rw [emb_sqNorm, of_sqrt _ a.sqNorm_nonneg]
end Vec3

namespace Quat
theorem sqNorm_nonneg (q : Quat ℝ) : 0 ≤ q.sqNorm := by
  unfold sqNorm
  nlinarith [mul_self_nonneg q.w, mul_self_nonneg q.x, mul_self_nonneg q.y, mul_self_nonneg q.z]
theorem emb_sqNorm (q : Quat ℝ) : q.emb.sqNorm = of q.sqNorm := rfl
theorem emb_mul (a b : Quat ℝ) : a.emb.mul b.emb = (a.mul b).emb := rfl
theorem emb_rotate (q : Quat ℝ) (v : Vec3 ℝ) : q.emb.rotate v.emb = (q.rotate v).emb := rfl
theorem emb_inverse (q : Quat ℝ) : q.emb.inverse = q.inverse.emb := by
  unfold inverse
  simp only [emb_sqNorm, zero_def, of_lt]
  by_cases h : 0 < q.sqNorm
  · have h0 : q.sqNorm ≠ 0 := h.ne'
    simp only [ScalarFn.lt_real, h, decide_true, ↓reduceIte]
    apply Quat.ext <;> simp [emb, of_div _ _ h0, of_neg]
  · simp only [ScalarFn.lt_real, h, decide_false]
    rfl
theorem emb_normalized (q : Quat ℝ) : q.emb.normalized = q.normalized.emb := by
  unfold normalized
  simp only [emb_sqNorm, zero_def, of_lt]
  by_cases h : 0 < q.sqNorm
  · have h0 : ScalarFn.sqrt q.sqNorm ≠ 0 := by
      simp only [ScalarFn.sqrt_real]
      exact (Real.sqrt_pos.2 h).ne'
    simp only [ScalarFn.lt_real, h, decide_true, ↓reduceIte]
    rw [of_sqrt _ h.le]
    apply Quat.ext <;> simp only [emb] <;> rw [of_div _ _ h0]
  · simp only [ScalarFn.lt_real, h, decide_false, Bool.false_eq_true, ↓reduceIte]
end Quat

theorem Utility.emb_deltaQ (v : Vec3 ℝ) : Utility.deltaQ v.emb = (Utility.deltaQ v).emb := by
  unfold Utility.deltaQ
  rw [of_lit, Vec3.emb_sdiv _ _ (by simp)]
  rfl

end Vio

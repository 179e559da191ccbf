/-
Scalar and time types of the model.

`Scalar = float` and `fp64 = double` (include/utility/typedef.hpp:24-28).  The model is generic in both.
Only operations are assumed; there are no laws unless a theorem asks for one of the law classes below.
-/
import Mathlib.Data.Rat.Cast.Order
import Mathlib.Analysis.Real.Sqrt
import Mathlib.Analysis.SpecialFunctions.Trigonometric.Inverse
import Mathlib.Analysis.SpecialFunctions.Log.Basic
import Mathlib.Analysis.SpecialFunctions.Complex.Arg

namespace Vio

/-- Operations on `Scalar` beyond `+ - * / 0 1`.  No laws. -/
class ScalarFn (K : Type _) where
  /-- a floating point literal -/
  lit : ℚ → K
  sqrt : K → K
  fabs : K → K
  lt : K → K → Bool
  le : K → K → Bool
  isNaN : K → Bool
  atan2 : K → K → K
  acos : K → K
  asin : K → K
  log : K → K

export ScalarFn (lit)

/-- Operations on `fp64` time stamps.  No laws. -/
class TimeOps (T : Type _) where
  tlit : ℚ → T
  sub : T → T → T
  mul : T → T → T
  div : T → T → T
  fabs : T → T
  lt : T → T → Bool
  le : T → T → Bool
  isNaN : T → Bool

/-- Conversions between `fp64` and `Scalar`.  No laws. -/
class TimeCast (T K : Type _) where
  /-- `static_cast<Scalar>(t)` -/
  toK : T → K
  /-- implicit widening `Scalar` to `fp64` -/
  ofK : K → T

/-- Laws of IEEE comparison, NaN included: `le x x` fails for NaN only. -/
class TimeOrd (T : Type _) [TimeOps T] : Prop where
  le_left : ∀ a b : T, TimeOps.le a b = true → TimeOps.le a a = true
  le_right : ∀ a b : T, TimeOps.le a b = true → TimeOps.le b b = true
  le_trans : ∀ a b c : T, TimeOps.le a b = true → TimeOps.le b c = true → TimeOps.le a c = true
  le_total : ∀ a b : T, TimeOps.le a a = true → TimeOps.le b b = true →
    TimeOps.le a b = true ∨ TimeOps.le b a = true
  lt_iff : ∀ a b : T, TimeOps.lt a b = true ↔ TimeOps.le a b = true ∧ TimeOps.le b a = false
  isNaN_lit : ∀ q : ℚ, TimeOps.isNaN (TimeOps.tlit q : T) = false

/-- Laws of finite `fp64` arithmetic: a linear order, and a subtraction that is monotone and exact at zero.
Holds for exact arithmetic and for every monotone odd rounding of it. -/
class TimeLaws (T : Type _) [LinearOrder T] [TimeOps T] : Prop where
  lt_iff : ∀ a b : T, TimeOps.lt a b = true ↔ a < b
  le_iff : ∀ a b : T, TimeOps.le a b = true ↔ a ≤ b
  isNaN_lit : ∀ q : ℚ, TimeOps.isNaN (TimeOps.tlit q : T) = false
  tlit_mono : ∀ p q : ℚ, p ≤ q → (TimeOps.tlit p : T) ≤ TimeOps.tlit q
  sub_self : ∀ a : T, TimeOps.sub a a = TimeOps.tlit 0
  sub_le_sub_left : ∀ a a' b : T, a ≤ a' → TimeOps.sub a b ≤ TimeOps.sub a' b
  sub_le_sub_right : ∀ a b b' : T, b ≤ b' → TimeOps.sub a b' ≤ TimeOps.sub a b
  fabs_of_nonneg : ∀ a : T, TimeOps.tlit 0 ≤ a → TimeOps.fabs a = a
  fabs_sub_comm : ∀ a b : T, TimeOps.fabs (TimeOps.sub a b) = TimeOps.fabs (TimeOps.sub b a)

/-- Laws of the conversion from `fp64` to `Scalar` together with `Scalar` comparison: monotone, and a converted time does not exceed itself. -/
class CastLaws (T K : Type _) [LinearOrder T] [TimeCast T K] [ScalarFn K] : Prop where
  /-- a smaller time difference cannot exceed a threshold that a larger one does not exceed -/
  gt_mono : ∀ (a b : T) (k : K), a ≤ b → ScalarFn.lt k (TimeCast.toK a : K) = true →
    ScalarFn.lt k (TimeCast.toK b : K) = true
  lt_irrefl : ∀ a : T, ScalarFn.lt (TimeCast.toK a : K) (TimeCast.toK a : K) = false

/-- A linearly ordered time satisfies the NaN-aware comparison laws. -/
instance (priority := 50) TimeLaws.toTimeOrd (T : Type _) [LinearOrder T] [TimeOps T] [h : TimeLaws T] :
    TimeOrd T where
  le_left a b _ := (h.le_iff a a).2 le_rfl
  le_right a b _ := (h.le_iff b b).2 le_rfl
  le_trans a b c h1 h2 := (h.le_iff a c).2 (((h.le_iff a b).1 h1).trans ((h.le_iff b c).1 h2))
  le_total a b _ _ := by
    rcases le_total a b with h1 | h1
    · exact Or.inl ((h.le_iff a b).2 h1)
    · exact Or.inr ((h.le_iff b a).2 h1)
  lt_iff a b := by
    rw [h.lt_iff, lt_iff_le_not_ge, h.le_iff]
    refine and_congr_right fun _ => ?_
    rw [← not_iff_not, not_not, Bool.not_eq_false, h.le_iff]
  isNaN_lit := h.isNaN_lit

/-! ### Exact instances -/

noncomputable instance : ScalarFn ℝ where
  lit q := (q : ℝ)
  sqrt := Real.sqrt
  fabs x := |x|
  lt a b := decide (a < b)
  le a b := decide (a ≤ b)
  isNaN _ := false
  atan2 y x := Complex.arg ⟨x, y⟩
  acos := Real.arccos
  asin := Real.arcsin
  log := Real.log

@[simp] theorem ScalarFn.lit_real (q : ℚ) : (ScalarFn.lit q : ℝ) = (q : ℝ) := rfl
@[simp] theorem ScalarFn.sqrt_real (x : ℝ) : ScalarFn.sqrt x = Real.sqrt x := rfl
@[simp] theorem ScalarFn.fabs_real (x : ℝ) : ScalarFn.fabs x = |x| := rfl
@[simp] theorem ScalarFn.lt_real (a b : ℝ) : ScalarFn.lt a b = decide (a < b) := rfl
@[simp] theorem ScalarFn.le_real (a b : ℝ) : ScalarFn.le a b = decide (a ≤ b) := rfl
@[simp] theorem ScalarFn.isNaN_real (a : ℝ) : ScalarFn.isNaN a = false := rfl
theorem ScalarFn.atan2_real (y x : ℝ) : ScalarFn.atan2 y x = Complex.arg ⟨x, y⟩ := rfl
@[simp] theorem ScalarFn.acos_real (x : ℝ) : ScalarFn.acos x = Real.arccos x := rfl
@[simp] theorem ScalarFn.asin_real (x : ℝ) : ScalarFn.asin x = Real.arcsin x := rfl
@[simp] theorem ScalarFn.log_real (x : ℝ) : ScalarFn.log x = Real.log x := rfl

noncomputable instance : TimeOps ℝ where
  tlit q := (q : ℝ)
  sub a b := a - b
  mul a b := a * b
  div a b := a / b
  fabs x := |x|
  lt a b := decide (a < b)
  le a b := decide (a ≤ b)
  isNaN _ := false

@[simp] theorem TimeOps.tlit_real (q : ℚ) : (TimeOps.tlit q : ℝ) = (q : ℝ) := rfl
@[simp] theorem TimeOps.sub_real (a b : ℝ) : TimeOps.sub a b = a - b := rfl
@[simp] theorem TimeOps.mul_real (a b : ℝ) : TimeOps.mul a b = a * b := rfl
@[simp] theorem TimeOps.div_real (a b : ℝ) : TimeOps.div a b = a / b := rfl
@[simp] theorem TimeOps.fabs_real (x : ℝ) : TimeOps.fabs x = |x| := rfl
@[simp] theorem TimeOps.lt_real (a b : ℝ) : TimeOps.lt a b = decide (a < b) := rfl
@[simp] theorem TimeOps.le_real (a b : ℝ) : TimeOps.le a b = decide (a ≤ b) := rfl
@[simp] theorem TimeOps.isNaN_real (a : ℝ) : TimeOps.isNaN a = false := rfl

instance : TimeLaws ℝ where
  lt_iff a b := by simp
  le_iff a b := by simp
  isNaN_lit q := rfl
  tlit_mono p q h := by simpa using h
  sub_self a := by simp
  sub_le_sub_left a a' b h := by simpa using h
  sub_le_sub_right a b b' h := by simp only [TimeOps.sub_real]; linarith
  fabs_of_nonneg a h := abs_of_nonneg (by simpa using h)
  fabs_sub_comm a b := by simpa using abs_sub_comm a b

instance : TimeCast ℝ ℝ where
  toK t := t
  ofK k := k

@[simp] theorem TimeCast.toK_real (t : ℝ) : (TimeCast.toK t : ℝ) = t := rfl
@[simp] theorem TimeCast.ofK_real (t : ℝ) : (TimeCast.ofK t : ℝ) = t := rfl

instance : CastLaws ℝ ℝ where
  gt_mono a b k h h1 := by
    simp at h1 ⊢
    exact h1.trans_le h
  lt_irrefl a := by simp

/-! ### Computable rational instance, used in examples and counterexamples.
Transcendental functions and `sqrt` are arbitrary placeholders here; no example relies on their value unless it says so. -/

instance : ScalarFn ℚ where
  lit q := q
  sqrt x := x
  fabs x := |x|
  lt a b := decide (a < b)
  le a b := decide (a ≤ b)
  isNaN _ := false
  atan2 y _ := y
  acos x := x
  asin x := x
  log x := x

instance : TimeOps ℚ where
  tlit q := q
  sub a b := a - b
  mul a b := a * b
  div a b := a / b
  fabs x := |x|
  lt a b := decide (a < b)
  le a b := decide (a ≤ b)
  isNaN _ := false

instance : TimeLaws ℚ where
  lt_iff a b := by simp [TimeOps.lt]
  le_iff a b := by simp [TimeOps.le]
  isNaN_lit q := rfl
  tlit_mono p q h := by simpa [TimeOps.tlit] using h
  sub_self a := by simp [TimeOps.sub, TimeOps.tlit]
  sub_le_sub_left a a' b h := by simpa [TimeOps.sub] using h
  sub_le_sub_right a b b' h := by simp only [TimeOps.sub]; linarith
  fabs_of_nonneg a h := abs_of_nonneg h
  fabs_sub_comm a b := by simpa [TimeOps.fabs, TimeOps.sub] using abs_sub_comm a b

instance : TimeCast ℚ ℚ where
  toK t := t
  ofK k := k

instance : CastLaws ℚ ℚ where
  gt_mono a b k h h1 := by
    simp [ScalarFn.lt, TimeCast.toK] at h1 ⊢
    exact h1.trans_le h
  lt_irrefl a := by simp [ScalarFn.lt, TimeCast.toK]

/-! ### Rounded arithmetic: every monotone odd rounding of the reals satisfies the time laws. -/

/-- A rounding mode: monotone and odd (IEEE round-to-nearest-even on the finite range is one). -/
structure Rounding where
  rnd : ℝ → ℝ
  mono : Monotone rnd
  odd : ∀ x, rnd (-x) = - rnd x

/-- Reals with rounded arithmetic. -/
structure Rounded (r : Rounding) where
  val : ℝ

namespace Rounded
variable (r : Rounding)

theorem val_injective : Function.Injective (val : Rounded r → ℝ) := fun a b h => by
  cases a; cases b; simp_all

noncomputable instance : LinearOrder (Rounded r) := LinearOrder.lift' val (val_injective r)

theorem le_def (a b : Rounded r) : a ≤ b ↔ a.val ≤ b.val := Iff.rfl

noncomputable instance : TimeOps (Rounded r) where
  tlit q := ⟨r.rnd (q : ℝ)⟩
  sub a b := ⟨r.rnd (val a - val b)⟩
  mul a b := ⟨r.rnd (val a * val b)⟩
  div a b := ⟨r.rnd (val a / val b)⟩
  fabs x := ⟨|val x|⟩
  lt a b := decide (a < b)
  le a b := decide (a ≤ b)
  isNaN _ := false

theorem rnd_zero : r.rnd 0 = 0 := by
  have h := r.odd 0
  simp at h
  linarith

instance : TimeLaws (Rounded r) where
  lt_iff a b := by simp [TimeOps.lt]
  le_iff a b := by simp [TimeOps.le]
  isNaN_lit q := rfl
  tlit_mono p q h := r.mono (by exact_mod_cast h)
  sub_self a := by simp [TimeOps.sub, TimeOps.tlit]
  sub_le_sub_left a a' b h := r.mono (sub_le_sub_right ((le_def r _ _).1 h) (val b))
  sub_le_sub_right a b b' h := r.mono (sub_le_sub_left ((le_def r _ _).1 h) (val a))
  fabs_of_nonneg a h := by
    apply val_injective
    refine abs_of_nonneg ?_
    have h0 := (le_def r _ _).1 h
    simpa [TimeOps.tlit, rnd_zero] using h0
  fabs_sub_comm a b := by
    apply val_injective
    show |r.rnd (val a - val b)| = |r.rnd (val b - val a)|
    rw [← neg_sub, r.odd, abs_neg]

end Rounded

/-- NaN-carrying time: `none` is NaN.  Satisfies the comparison laws of IEEE. -/
def NanTime (T : Type) : Type := Option T

namespace NanTime
variable {T : Type} [LinearOrder T]

/-- comparison with NaN is false -/
def leB : Option T → Option T → Bool
  | some a, some b => decide (a ≤ b)
  | _, _ => false

/-- strict comparison with NaN is false -/
def ltB : Option T → Option T → Bool
  | some a, some b => decide (a < b)
  | _, _ => false

instance : TimeOps (NanTime ℚ) where
  tlit q := some q
  sub a b := (do let x ← a; let y ← b; pure (x - y) : Option ℚ)
  mul a b := (do let x ← a; let y ← b; pure (x * y) : Option ℚ)
  div a b := (do let x ← a; let y ← b; if y = 0 then none else pure (x / y) : Option ℚ)
  fabs a := (do let x ← a; pure |x| : Option ℚ)
  lt a b := ltB (T := ℚ) a b
  le a b := leB (T := ℚ) a b
  isNaN a := Option.isNone (α := ℚ) a

instance : TimeCast (NanTime ℚ) ℚ where
  toK t := Option.getD (α := ℚ) t 0
  ofK k := some k

instance : TimeOrd (NanTime ℚ) where
  le_left a b h := by
    cases a <;> cases b <;> simp_all [TimeOps.le, leB]
  le_right a b h := by
    cases a <;> cases b <;> simp_all [TimeOps.le, leB]
  le_trans a b c h1 h2 := by
    cases a <;> cases b <;> cases c <;> simp_all [TimeOps.le, leB]
    exact h1.trans h2
  le_total a b h1 h2 := by
    cases a <;> cases b <;> simp_all [TimeOps.le, leB]
    exact _root_.le_total _ _
  lt_iff a b := by
    cases a <;> cases b <;> simp_all [TimeOps.le, TimeOps.lt, leB, ltB]
    exact le_of_lt
  isNaN_lit q := rfl

end NanTime

end Vio

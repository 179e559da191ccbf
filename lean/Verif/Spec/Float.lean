/-
Floating point numbers as the hardware has them, up to the sign of zero: finite values with rounded operations, two infinities, NaN.
Used for statements about rounding that need no exact arithmetic.
-/
import Verif.Model.Math
import Mathlib.Data.Int.Log
import Mathlib.Algebra.Order.Round

namespace Vio

/-- A floating point arithmetic: a monotone odd rounding with relative error `u` and, for results near zero, absolute error `eta`; results above `max` overflow. -/
structure Arith where
  rnd : ℝ → ℝ
  u : ℝ
  eta : ℝ
  max : ℝ
  zero : rnd 0 = 0
  mono : Monotone rnd
  odd : ∀ x, rnd (-x) = -rnd x
  err : ∀ x, |rnd x - x| ≤ u * |x| + eta
  u_nonneg : 0 ≤ u
  u_le : u ≤ 1 / 1000
  eta_nonneg : 0 ≤ eta
  eta_le : eta ≤ u / 100
  max_ge : 2 ≤ max

theorem Arith.nonneg (m : Arith) (x : ℝ) (h : 0 ≤ x) : 0 ≤ m.rnd x := by
  have := m.mono h
  rwa [m.zero] at this

/-- A floating point value.  The sign of zero is left out. -/
inductive Fl (m : Arith) where
  | fin (x : ℝ)
  | inf (neg : Bool)
  | nan

/-- The library functions that need not be rounded correctly; they are arbitrary. -/
class FlLib (m : Arith) where
  atan2 : Fl m → Fl m → Fl m
  acos : Fl m → Fl m
  asin : Fl m → Fl m
  log : Fl m → Fl m

namespace Fl
variable {m : Arith}

/-- The sign of a product or quotient with an infinity; NaN for zero. -/
noncomputable def infBy (neg : Bool) (x : ℝ) : Fl m := if x = 0 then nan else inf (neg != decide (x < 0))

/-- Round a real number, with overflow. -/
noncomputable def round (x : ℝ) : Fl m := if |m.rnd x| ≤ m.max then fin (m.rnd x) else inf (decide (x < 0))

/-- Negation. -/
def neg : Fl m → Fl m
  | fin x => fin (-x)
  | inf s => inf (!s)
  | nan => nan

/-- Addition. -/
noncomputable def add : Fl m → Fl m → Fl m
  | fin a, fin b => round (a + b)
  | nan, _ => nan
  | _, nan => nan
  | inf s, inf t => if s = t then inf s else nan
  | inf s, fin _ => inf s
  | fin _, inf t => inf t

/-- Multiplication. -/
noncomputable def mul : Fl m → Fl m → Fl m
  | fin a, fin b => round (a * b)
  | nan, _ => nan
  | _, nan => nan
  | inf s, inf t => inf (s != t)
  | inf s, fin x => infBy s x
  | fin x, inf t => infBy t x

/-- Division. -/
noncomputable def div : Fl m → Fl m → Fl m
  | fin a, fin b => if b = 0 then (if a = 0 then nan else inf (decide (a < 0))) else round (a / b)
  | nan, _ => nan
  | _, nan => nan
  | inf _, inf _ => nan
  | inf s, fin x => inf (s != decide (x < 0))
  | fin _, inf _ => fin 0

/-- Square root. -/
noncomputable def sqrt : Fl m → Fl m
  | fin x => if x < 0 then nan else round (Real.sqrt x)
  | inf s => if s then nan else inf false
  | nan => nan

/-- Absolute value. -/
noncomputable def fabs : Fl m → Fl m
  | fin x => fin |x|
  | inf _ => inf false
  | nan => nan

/-- Order, false with NaN. -/
noncomputable def lt : Fl m → Fl m → Bool
  | fin a, fin b => decide (a < b)
  | fin _, inf t => !t
  | inf s, fin _ => s
  | inf s, inf t => s && !t
  | _, _ => false

/-- Order or equality, false with NaN. -/
noncomputable def le : Fl m → Fl m → Bool
  | fin a, fin b => decide (a ≤ b)
  | fin _, inf t => !t
  | inf s, fin _ => s
  | inf s, inf t => s || !t
  | _, _ => false

/-- Test for NaN. -/
def isNaN : Fl m → Bool
  | nan => true
  | _ => false

instance : Zero (Fl m) := ⟨fin 0⟩
instance : One (Fl m) := ⟨fin 1⟩
noncomputable instance : Add (Fl m) := ⟨add⟩
noncomputable instance : Mul (Fl m) := ⟨mul⟩
noncomputable instance : Div (Fl m) := ⟨div⟩
instance : Neg (Fl m) := ⟨neg⟩
noncomputable instance : Sub (Fl m) := ⟨fun a b => add a (neg b)⟩
noncomputable instance [FlLib m] : ScalarFn (Fl m) where
  lit q := round q
  sqrt := sqrt
  fabs := fabs
  lt := lt
  le := le
  isNaN := isNaN
  atan2 := FlLib.atan2
  acos := FlLib.acos
  asin := FlLib.asin
  log := FlLib.log

end Fl

/-! ### The claim -/

/-- A unit quaternion up to rounding: finite components whose squares add up to one, up to ten rounding errors. -/
def NearUnit (m : Arith) (q : Quat (Fl m)) : Prop :=
  ∃ w x y z : ℝ, q = ⟨.fin w, .fin x, .fin y, .fin z⟩ ∧ |w * w + x * x + y * y + z * z - 1| ≤ 10 * m.u

/-- A quaternion with a component that is not a number. -/
def HasNaN (m : Arith) (q : Quat (Fl m)) : Prop := q.w = .nan ∨ q.x = .nan ∨ q.y = .nan ∨ q.z = .nan

/-- What an attitude can be. -/
def UnitOrLost (m : Arith) (q : Quat (Fl m)) : Prop := NearUnit m q ∨ HasNaN m q ∨ q = ⟨.fin 0, .fin 0, .fin 0, .fin 0⟩

/-! ### Single and double precision -/

/-- Rounding to the nearest integer, ties to even. -/
noncomputable def rne (x : ℝ) : ℤ :=
  if Int.fract x < 1 / 2 then ⌊x⌋ else if 1 / 2 < Int.fract x then ⌊x⌋ + 1 else if Even ⌊x⌋ then ⌊x⌋ else ⌊x⌋ + 1

theorem rne_cases (x : ℝ) : (rne x = ⌊x⌋ ∧ Int.fract x ≤ 1 / 2) ∨ (rne x = ⌊x⌋ + 1 ∧ 1 / 2 ≤ Int.fract x) := by
  unfold rne
  split_ifs with h1 h2 h3
  · exact .inl ⟨rfl, h1.le⟩
  · exact .inr ⟨rfl, h2.le⟩
  · exact .inl ⟨rfl, not_lt.1 h2⟩
  · exact .inr ⟨rfl, not_lt.1 h1⟩

theorem abs_sub_rne (x : ℝ) : |x - rne x| ≤ 1 / 2 := by
  have h0 := Int.floor_add_fract x
  have h3 := Int.fract_nonneg x
  have h4 := Int.fract_lt_one x
  rcases rne_cases x with ⟨h1, h2⟩ | ⟨h1, h2⟩ <;> rw [h1, abs_le] <;> push_cast <;> constructor <;> linarith

theorem rne_intCast (n : ℤ) : rne (n : ℝ) = n := by
  unfold rne
  rw [Int.fract_intCast, if_pos (by norm_num), Int.floor_intCast]

theorem rne_zero : rne 0 = 0 := by simpa using rne_intCast 0

theorem rne_mono : Monotone rne := by
  intro x y h
  rcases (Int.floor_mono h).lt_or_eq with hl | he
  · have : rne x ≤ ⌊x⌋ + 1 := by rcases rne_cases x with ⟨h1, -⟩ | ⟨h1, -⟩ <;> omega
    have : ⌊y⌋ ≤ rne y := by rcases rne_cases y with ⟨h1, -⟩ | ⟨h1, -⟩ <;> omega
    omega
  · have hf : Int.fract x ≤ Int.fract y := by
      rw [Int.fract, Int.fract, he]
      linarith
    unfold rne
    rw [he]
    split_ifs <;> first | omega | (exfalso; linarith)

theorem rne_nonneg {x : ℝ} (h : 0 ≤ x) : 0 ≤ rne x := by
  have := rne_mono h
  rw [rne_zero] at this
  omega

theorem rne_neg (x : ℝ) : rne (-x) = -rne x := by
  rcases eq_or_ne (Int.fract x) 0 with h | h
  · obtain ⟨n, hn⟩ : ∃ n : ℤ, x = n := ⟨⌊x⌋, by linarith [Int.floor_add_fract x]⟩
    subst hn
    rw [← Int.cast_neg, rne_intCast, rne_intCast]
  · have hf : Int.fract (-x) = 1 - Int.fract x := Int.fract_neg h
    have hfl : ⌊-x⌋ = -⌊x⌋ - 1 := by
      have h1 := Int.floor_add_fract x
      have h2 := Int.floor_add_fract (-x)
      have : ((⌊-x⌋ : ℤ) : ℝ) = ((-⌊x⌋ - 1 : ℤ) : ℝ) := by push_cast; linarith
      exact_mod_cast this
    have hp : Even ⌊-x⌋ ↔ ¬ Even ⌊x⌋ := by
      rw [hfl]
      simp [parity_simps]
    unfold rne
    simp only [hp]
    rw [hf, hfl]
    split_ifs <;> first | omega | (exfalso; linarith)

/-- The exponent of a number, not below the one of the smallest normal number. -/
noncomputable def expo (emin : ℤ) (x : ℝ) : ℤ := max (Int.log 2 |x|) emin

/-- Rounding to the nearest multiple of the last place of a significand of `p` bits, ties to even. -/
noncomputable def rndBits (p emin : ℤ) (x : ℝ) : ℝ := (rne (x / 2 ^ (expo emin x - (p - 1))) : ℤ) * 2 ^ (expo emin x - (p - 1))

theorem rndBits_neg (p emin : ℤ) (x : ℝ) : rndBits p emin (-x) = -rndBits p emin x := by
  have : expo emin (-x) = expo emin x := by rw [expo, expo, abs_neg]
  rw [rndBits, rndBits, this, neg_div, rne_neg, Int.cast_neg, neg_mul]

theorem rndBits_nonneg (p emin : ℤ) {x : ℝ} (h : 0 ≤ x) : 0 ≤ rndBits p emin x :=
  mul_nonneg (by exact_mod_cast (rne_nonneg (div_nonneg h (by positivity)))) (by positivity)

theorem rne_two_pow {k : ℤ} (h : 0 ≤ k) : ((rne ((2 : ℝ) ^ k) : ℤ) : ℝ) = 2 ^ k := by
  obtain ⟨n, rfl⟩ := Int.eq_ofNat_of_zero_le h
  have : (2 : ℝ) ^ (n : ℤ) = ((2 ^ n : ℤ) : ℝ) := by push_cast; norm_cast
  rw [this, rne_intCast]

theorem lt_expo (emin : ℤ) {x : ℝ} (h : 0 ≤ x) : x < 2 ^ (expo emin x + 1) := by
  have h1 := Int.lt_zpow_succ_log_self (b := 2) (by norm_num) |x|
  rw [abs_of_nonneg h] at h1
  refine lt_of_lt_of_le (by exact_mod_cast h1) (zpow_le_zpow_right₀ (by norm_num) ?_)
  have := le_max_left (Int.log 2 |x|) emin
  rw [expo, abs_of_nonneg h] at *
  omega

theorem expo_le {emin : ℤ} {x : ℝ} (h : 0 < x) (he : emin < expo emin x) : 2 ^ expo emin x ≤ x := by
  have e : expo emin x = Int.log 2 |x| := by
    unfold expo at he ⊢
    rcases max_cases (Int.log 2 |x|) emin with ⟨h1, -⟩ | ⟨h1, -⟩ <;> omega
  rw [e, abs_of_pos h]
  exact_mod_cast Int.zpow_log_le_self (b := 2) (by norm_num) h

theorem rndBits_mono_pos {p emin : ℤ} (hp : 1 ≤ p) {x y : ℝ} (h0 : 0 ≤ x) (h : x ≤ y) : rndBits p emin x ≤ rndBits p emin y := by
  rcases h0.eq_or_lt with rfl | hx
  · have := rndBits_nonneg p emin h
    simpa [rndBits, rne_zero] using this
  have hy := hx.trans_le h
  have he : expo emin x ≤ expo emin y := max_le_max (by rw [abs_of_pos hx, abs_of_pos hy]; exact Int.log_mono_right hx h) le_rfl
  rcases he.lt_or_eq with hl | he
  · have hm : emin ≤ expo emin x := le_max_right _ _
    have h1 := (lt_expo emin h0).le
    have h2 := expo_le hy (lt_of_le_of_lt hm hl)
    calc rndBits p emin x ≤ 2 ^ (expo emin x + 1) := by
          have h3 : x / 2 ^ (expo emin x - (p - 1)) ≤ 2 ^ p := by
            rw [div_le_iff₀ (by positivity), ← zpow_add₀ two_ne_zero]
            convert h1 using 2
            ring
          have h4 : ((rne (x / 2 ^ (expo emin x - (p - 1))) : ℤ) : ℝ) ≤ 2 ^ p := by
            rw [← rne_two_pow (k := p) (by omega)]
            exact_mod_cast rne_mono h3
          calc rndBits p emin x ≤ 2 ^ p * 2 ^ (expo emin x - (p - 1)) := mul_le_mul_of_nonneg_right h4 (by positivity)
            _ = _ := by rw [← zpow_add₀ two_ne_zero]; congr 1; ring
      _ ≤ 2 ^ expo emin y := zpow_le_zpow_right₀ (by norm_num) hl
      _ ≤ rndBits p emin y := by
          have h3 : (2 : ℝ) ^ (p - 1) ≤ y / 2 ^ (expo emin y - (p - 1)) := by
            rw [le_div_iff₀ (by positivity), ← zpow_add₀ two_ne_zero, show p - 1 + (expo emin y - (p - 1)) = expo emin y by ring]
            exact h2
          have h4 : (2 : ℝ) ^ (p - 1) ≤ ((rne (y / 2 ^ (expo emin y - (p - 1))) : ℤ) : ℝ) := by
            rw [← rne_two_pow (k := p - 1) (by omega)]
            exact_mod_cast rne_mono h3
          calc (2 : ℝ) ^ expo emin y = 2 ^ (p - 1) * 2 ^ (expo emin y - (p - 1)) := by rw [← zpow_add₀ two_ne_zero]; congr 1; ring
            _ ≤ _ := mul_le_mul_of_nonneg_right h4 (by positivity)
  · unfold rndBits
    rw [he]
    refine mul_le_mul_of_nonneg_right ?_ (by positivity)
    exact_mod_cast rne_mono (div_le_div_of_nonneg_right h (by positivity))

theorem rndBits_mono {p emin : ℤ} (hp : 1 ≤ p) : Monotone (rndBits p emin) := by
  intro x y h
  rcases le_total 0 x with hx | hx
  · exact rndBits_mono_pos hp hx h
  · rcases le_total 0 y with hy | hy
    · have h1 := rndBits_nonneg p emin (neg_nonneg.2 hx)
      rw [rndBits_neg] at h1
      linarith [rndBits_nonneg p emin hy]
    · have h1 := rndBits_mono_pos (p := p) (emin := emin) hp (neg_nonneg.2 hy) (neg_le_neg h)
      rw [rndBits_neg, rndBits_neg] at h1
      linarith
theorem rndBits_err (p emin : ℤ) (x : ℝ) : |rndBits p emin x - x| ≤ 2 ^ (-p) * |x| + 2 ^ (emin - p) := by
  have hp : (0 : ℝ) < 2 ^ (expo emin x - (p - 1)) := by positivity
  have h1 := abs_sub_rne (x / 2 ^ (expo emin x - (p - 1)))
  have h2 : |rndBits p emin x - x| = |x / 2 ^ (expo emin x - (p - 1)) - (rne (x / 2 ^ (expo emin x - (p - 1))) : ℤ)| * 2 ^ (expo emin x - (p - 1)) := by
    rw [← abs_of_pos hp, ← abs_mul, abs_of_pos hp, sub_mul, div_mul_cancel₀ _ hp.ne', abs_sub_comm]
    rfl
  have h3 : |rndBits p emin x - x| ≤ 2 ^ (expo emin x - p) := by
    rw [h2, show expo emin x - p = (expo emin x - (p - 1)) + (-1) by ring, zpow_add₀ two_ne_zero]
    have : (2 : ℝ) ^ (-1 : ℤ) = 1 / 2 := by norm_num
    rw [this, mul_comm]
    exact mul_le_mul_of_nonneg_left h1 hp.le
  rcases le_total (Int.log 2 |x|) emin with h | h
  · have e : expo emin x = emin := max_eq_right h
    rw [e] at h3
    have : 0 ≤ (2 : ℝ) ^ (-p) * |x| := by positivity
    linarith
  · have e : expo emin x = Int.log 2 |x| := max_eq_left h
    by_cases hx : x = 0
    · subst hx
      simp [rndBits, rne_zero]
      positivity
    have h4 : (2 : ℝ) ^ Int.log 2 |x| ≤ |x| := by
      have := Int.zpow_log_le_self (b := 2) (by norm_num) (abs_pos.2 hx)
      exact_mod_cast this
    rw [e, show Int.log 2 |x| - p = -p + Int.log 2 |x| by ring, zpow_add₀ two_ne_zero] at h3
    have : (2 : ℝ) ^ (-p) * 2 ^ Int.log 2 |x| ≤ 2 ^ (-p) * |x| := mul_le_mul_of_nonneg_left h4 (by positivity)
    have : (0 : ℝ) ≤ 2 ^ (emin - p) := by positivity
    linarith

/-- Single precision (`float`, include/utility/typedef.hpp:24, 28). -/
noncomputable def fp32 : Arith where
  rnd := rndBits 24 (-126)
  u := 2 ^ (-24 : ℤ)
  eta := 2 ^ (-126 - 24 : ℤ)
  max := (2 - 2 ^ (-23 : ℤ)) * 2 ^ (127 : ℤ)
  zero := by simp [rndBits, rne_zero]
  mono := rndBits_mono (by norm_num)
  odd := rndBits_neg 24 (-126)
  err := rndBits_err 24 (-126)
  u_nonneg := by positivity
  u_le := by norm_num
  eta_nonneg := by positivity
  eta_le := by norm_num
  max_ge := by norm_num

/-- Double precision (`fp64`, include/utility/typedef.hpp:25). -/
noncomputable def fp64 : Arith where
  rnd := rndBits 53 (-1022)
  u := 2 ^ (-53 : ℤ)
  eta := 2 ^ (-1022 - 53 : ℤ)
  max := (2 - 2 ^ (-52 : ℤ)) * 2 ^ (1023 : ℤ)
  zero := by simp [rndBits, rne_zero]
  mono := rndBits_mono (by norm_num)
  odd := rndBits_neg 53 (-1022)
  err := rndBits_err 53 (-1022)
  u_nonneg := by positivity
  u_le := by norm_num
  eta_nonneg := by positivity
  eta_le := by
    rw [show (2 : ℝ) ^ (-1022 - 53 : ℤ) = 2 ^ (-1022 : ℤ) * 2 ^ (-53 : ℤ) by rw [← zpow_add₀ two_ne_zero]; rfl, div_eq_inv_mul]
    refine mul_le_mul_of_nonneg_right ?_ (by positivity)
    calc (2 : ℝ) ^ (-1022 : ℤ) ≤ 2 ^ (-7 : ℤ) := zpow_le_zpow_right₀ (by norm_num) (by norm_num)
      _ ≤ 100⁻¹ := by norm_num
  max_ge := by
    have h1 : (1 : ℝ) ≤ 2 - 2 ^ (-52 : ℤ) := by norm_num
    have h2 : (2 : ℝ) ≤ 2 ^ (1023 : ℤ) := by
      calc (2 : ℝ) = 2 ^ (1 : ℤ) := by norm_num
        _ ≤ 2 ^ (1023 : ℤ) := zpow_le_zpow_right₀ (by norm_num) (by norm_num)
    calc (2 : ℝ) = 1 * 2 := (one_mul 2).symm
      _ ≤ _ := mul_le_mul h1 h2 (by norm_num) (by linarith)

/-! ### Times -/

namespace Fl
variable {m m' : Arith}

noncomputable instance : TimeOps (Fl m) where
  tlit q := round q
  sub a b := a - b
  mul a b := a * b
  div a b := a / b
  fabs := fabs
  lt := lt
  le := le
  isNaN := isNaN

/-- Conversion between two precisions. -/
noncomputable def conv : Fl m → Fl m'
  | fin x => round x
  | inf s => inf s
  | nan => nan

noncomputable instance : TimeCast (Fl m) (Fl m') where
  toK := conv
  ofK := conv

end Fl
end Vio

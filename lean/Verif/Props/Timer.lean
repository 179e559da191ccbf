/-
C140: what the timer reports.
-/
import Verif.Model.Timer
import Verif.Props.Mixing

set_option linter.unusedSectionVars false

namespace Vio
open Fl Clock

namespace Timer

/-! ### Exact arithmetic -/

/-- C140: the times that a timer reports add up to the time since it was made, whatever the clock does. -/
theorem C140_sum (l : List ℤ) : ∀ (t t' : Timer) (ks : List ℝ), run ℝ t l = some (t', ks) →
    ks.sum = ((t'.stamp : ℝ) - t.stamp) / 1000000 ∧ t'.stamp = (t.stamp :: l).getLast (by simp) ∧ ks.length = l.length := by
  induction l with
  | nil =>
    intro t t' ks h
    simp only [run, Option.some.injEq, Prod.mk.injEq] at h
    obtain ⟨rfl, rfl⟩ := h
    simp
  | cons n l ih =>
    intro t t' ks h
    simp only [run, Option.bind_eq_bind, Option.bind_eq_some_iff, Option.some.injEq, Prod.mk.injEq, Prod.exists] at h
    obtain ⟨t1, k, h1, t2, ks', h2, rfl, rfl⟩ := h
    obtain ⟨e1, e2, e3⟩ := ih _ _ _ h2
    unfold tickTock at h1
    dsimp only at h1
    split at h1
    · cases h1
    · simp only [Option.some.injEq, Prod.mk.injEq] at h1
      obtain ⟨rfl, rfl⟩ := h1
      refine ⟨?_, ?_, by simp [e3]⟩
      · rw [List.sum_cons, e1]
        show ((((n - t.stamp : ℤ) : ℚ) : ℝ) / ((1000000000 : ℚ) : ℝ)) * ((1000 : ℚ) : ℝ) + _ = _
        push_cast
        ring
      · rw [e2]
        simp

/-- C140 is false of the code: the clock is the system clock, which can be set back, and the reported time is then negative. -/
theorem C140_set_back : (new 2000000000).tickTock ℚ 1000000000 = some (⟨1000000000⟩, (-1000 : ℚ)) := by decide +kernel

/-! ### Under rounding -/

theorem rel64 {x : ℝ} (h : (2 : ℝ) ^ (-100 : ℤ) ≤ x) : |fp64.rnd x - x| ≤ 2 ^ (-52 : ℤ) * x := by
  have h0 : (0 : ℝ) < 2 ^ (-100 : ℤ) := by positivity
  have e := fp64.err x
  have u1 : fp64.u = 2 ^ (-53 : ℤ) := rfl
  have u3 : fp64.eta = 2 ^ (-1022 - 53 : ℤ) := rfl
  have k : (2 : ℝ) ^ (-1022 - 53 : ℤ) ≤ 2 ^ (-53 : ℤ) * 2 ^ (-100 : ℤ) := by
    rw [← zpow_add₀ two_ne_zero]
    exact zpow_le_zpow_right₀ (by norm_num) (by norm_num)
  have k2 : (2 : ℝ) ^ (-53 : ℤ) * 2 ^ (-100 : ℤ) ≤ 2 ^ (-53 : ℤ) * x := mul_le_mul_of_nonneg_left h (by positivity)
  have k3 : (2 : ℝ) ^ (-52 : ℤ) = 2 * 2 ^ (-53 : ℤ) := by norm_num
  rw [u1, u3, abs_of_pos (h0.trans_le h)] at e
  rw [k3]
  linarith

theorem rel32 {x : ℝ} (h : (2 : ℝ) ^ (-100 : ℤ) ≤ x) : |fp32.rnd x - x| ≤ (2 ^ (-24 : ℤ) + 2 ^ (-48 : ℤ)) * x := by
  have h0 : (0 : ℝ) < 2 ^ (-100 : ℤ) := by positivity
  have e := fp32.err x
  have k : fp32.eta ≤ 2 ^ (-48 : ℤ) * 2 ^ (-100 : ℤ) := by
    refine Mixing.small.trans ?_
    rw [← zpow_add₀ two_ne_zero]
    exact zpow_le_zpow_right₀ (by norm_num) (by norm_num)
  have k2 : (2 : ℝ) ^ (-48 : ℤ) * 2 ^ (-100 : ℤ) ≤ 2 ^ (-48 : ℤ) * x := mul_le_mul_of_nonneg_left h (by positivity)
  rw [Mixing.u32, abs_of_pos (h0.trans_le h)] at e
  rw [add_mul]
  linarith

variable [FlLib fp32] [FlWiden fp32 fp64.rounding]

/-- C140, what holds: when the clock is not set back the reported time is finite, not negative, and the elapsed time in milliseconds up to a relative error of 2^-23.
Missing: clocks that are set back (`C140_set_back`). -/
theorem C140_partial (t : Timer) (now : ℤ) (h0 : t.stamp ≤ now) (h1 : now - t.stamp < 2 ^ 63) :
    ∃ r : ℝ, t.tickTock (K := Fl fp32) Stamp now = some (⟨now⟩, fin r) ∧ 0 ≤ r ∧ |r - (now - t.stamp) / 1000000| ≤ 2 ^ (-23 : ℤ) * ((now - t.stamp) / 1000000) := by
  obtain ⟨n, hn⟩ : ∃ n, now - t.stamp = n := ⟨_, rfl⟩
  have hn' : (now : ℝ) - t.stamp = n := by rw [← hn]; push_cast; rfl
  rw [hn']
  have e9 : fp64.rnd ((1000000000 : ℚ) : ℝ) = 1000000000 := by
    have := Mixing.fp64_int (n := 1000000000) (by norm_num)
    push_cast at this ⊢
    exact this
  have e3 : fp64.rnd ((1000 : ℚ) : ℝ) = 1000 := by
    have := Mixing.fp64_int (n := 1000) (by norm_num)
    push_cast at this ⊢
    exact this
  have key : t.tickTock (K := Fl fp32) Stamp now = some (⟨now⟩, Fl.round (fp64.rnd (fp64.rnd (fp64.rnd n / 1000000000) * 1000))) := by
    unfold tickTock
    dsimp only
    rw [hn, if_neg (by omega)]
    have e : (TimeCast.toK (TimeOps.mul (TimeOps.div (TimeOps.tlit (n : ℚ)) (TimeOps.tlit 1000000000)) (TimeOps.tlit 1000 : Stamp)) : Fl fp32) =
        Fl.round (fp64.rnd (fp64.rnd (fp64.rnd ((n : ℚ) : ℝ) / fp64.rnd ((1000000000 : ℚ) : ℝ)) * fp64.rnd ((1000 : ℚ) : ℝ))) := rfl
    rw [e, e9, e3, Rat.cast_intCast]
  rw [key]
  rcases (by omega : n = 0 ∨ 1 ≤ n) with rfl | hp
  · refine ⟨0, ?_, le_rfl, by simp⟩
    rw [Int.cast_zero, fp64.zero, zero_div, fp64.zero, zero_mul, fp64.zero, Fl.round]
    rw [if_pos (by rw [fp32.zero, abs_zero]; linarith [fp32.max_ge]), fp32.zero]
  · have x1 : (1 : ℝ) ≤ n := by exact_mod_cast hp
    have x2 : (n : ℝ) ≤ 2 ^ 63 := by exact_mod_cast (by omega : n ≤ 2 ^ 63)
    have tiny : (2 : ℝ) ^ (-100 : ℤ) ≤ 2 ^ (-40 : ℤ) := zpow_le_zpow_right₀ (by norm_num) (by norm_num)
    have c40 : (2 : ℝ) ^ (-40 : ℤ) = 1 / 1099511627776 := by norm_num
    have c52 : (2 : ℝ) ^ (-52 : ℤ) = 1 / 4503599627370496 := by norm_num
    have c24 : (2 : ℝ) ^ (-24 : ℤ) + 2 ^ (-48 : ℤ) = 1 / 16777216 + 1 / 281474976710656 := by norm_num
    have c23 : (2 : ℝ) ^ (-23 : ℤ) = 1 / 8388608 := by norm_num
    rw [c40] at tiny
    have a1 := abs_le.1 (rel64 (x := n) (tiny.trans (by linarith)))
    rw [c52] at a1
    obtain ⟨a1, a1'⟩ := a1
    set a := fp64.rnd (n : ℝ)
    have a2 := abs_le.1 (rel64 (x := a / 1000000000) (tiny.trans (by linarith)))
    rw [c52] at a2
    obtain ⟨a2, a2'⟩ := a2
    set b := fp64.rnd (a / 1000000000)
    have a3 := abs_le.1 (rel64 (x := b * 1000) (tiny.trans (by linarith)))
    rw [c52] at a3
    obtain ⟨a3, a3'⟩ := a3
    set c := fp64.rnd (b * 1000)
    have a4 := abs_le.1 (rel32 (x := c) (tiny.trans (by linarith)))
    rw [c24] at a4
    obtain ⟨a4, a4'⟩ := a4
    clear tiny c40 c52 c24
    have big : (2 : ℝ) ^ 63 * 2 ≤ 2 ^ 120 := by norm_num
    refine ⟨fp32.rnd c, ?_, by linarith, ?_⟩
    · rw [Mixing.round_fin]
      rw [abs_of_nonneg (by linarith)]
      linarith
    · rw [c23, abs_le]
      constructor <;> linarith

/-- A second is reported as a thousand milliseconds. -/
example : (new 0).run ℚ [1000000000, 1500000000] = some (⟨1500000000⟩, [(1000 : ℚ), 500]) ∧ (0 : ℤ) ≤ 1000000000 := by decide +kernel

end Timer
end Vio

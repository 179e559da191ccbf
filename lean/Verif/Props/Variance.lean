/-
C137: the sign of the variances under rounding.
-/
import Verif.Props.Symmetric
import Verif.Model.Print

set_option linter.unusedSectionVars false

namespace Vio
open Fl Update

namespace Variance

section floats
variable {m : Arith}

/-- Not a negative number.  NaN is not. -/
def NonNeg (x : Fl m) : Prop := Fl.lt x 0 = false

theorem nonNeg_fin {v : ℝ} : NonNeg (fin v : Fl m) ↔ 0 ≤ v := by
  show decide (v < 0) = false ↔ _
  simp

theorem nonNeg_nan : NonNeg (nan : Fl m) := rfl

theorem nonNeg_inf {s : Bool} : NonNeg (inf s : Fl m) ↔ s = false := Iff.rfl

theorem nonNeg_zero : NonNeg (0 : Fl m) := nonNeg_fin.2 le_rfl

theorem nonNeg_round {x : ℝ} (h : 0 ≤ x) : NonNeg (Fl.round x : Fl m) := by
  unfold Fl.round
  split
  · exact nonNeg_fin.2 (m.nonneg x h)
  · exact nonNeg_inf.2 (by simp [h])

theorem nonNeg_add {x y : Fl m} (hx : NonNeg x) (hy : NonNeg y) : NonNeg (x + y) := by
  change NonNeg (Fl.add x y)
  cases x <;> cases y <;> simp only [Fl.add]
  · exact nonNeg_round (add_nonneg (nonNeg_fin.1 hx) (nonNeg_fin.1 hy))
  · exact hy
  · exact nonNeg_nan
  · exact hx
  · split
    · exact hx
    · exact nonNeg_nan
  all_goals exact nonNeg_nan

theorem nonNeg_sum (f : Nat → Fl m) (n : Nat) (h : ∀ k, NonNeg (f k)) : NonNeg (sumTo n f) := by
  induction n with
  | zero => exact nonNeg_zero
  | succ n ih => exact nonNeg_add ih (h n)

/-- A rounded product has the sign of the product. -/
theorem nonNeg_mul {x y : Fl m} (h : ∀ a b, x = fin a → y = fin b → 0 ≤ a * b) (h1 : ∀ a t, x = fin a → y = inf t → a = 0 ∨ (t != decide (a < 0)) = false)
    (h2 : ∀ s b, x = inf s → y = fin b → b = 0 ∨ (s != decide (b < 0)) = false) (h3 : ∀ s t, x = inf s → y = inf t → s = t) : NonNeg (x * y) := by
  change NonNeg (Fl.mul x y)
  cases x with
  | fin a =>
    cases y with
    | fin b => exact nonNeg_round (h a b rfl rfl)
    | inf t =>
      simp only [Fl.mul, Fl.infBy]
      split
      · exact nonNeg_nan
      · rename_i hn
        exact nonNeg_inf.2 ((h1 a t rfl rfl).resolve_left hn)
    | nan => exact nonNeg_nan
  | inf s =>
    cases y with
    | fin b =>
      simp only [Fl.mul, Fl.infBy]
      split
      · exact nonNeg_nan
      · rename_i hn
        exact nonNeg_inf.2 ((h2 s b rfl rfl).resolve_left hn)
    | inf t => simp [Fl.mul, nonNeg_inf, h3 s t rfl rfl]
    | nan => exact nonNeg_nan
  | nan => cases y <;> exact nonNeg_nan

/-- `(g * q) * g` is not negative when `q` is not. -/
theorem nonNeg_sandwich (g q : Fl m) (hq : NonNeg q) : NonNeg (g * q * g) := by
  cases g with
  | fin a =>
    cases q with
    | fin b =>
      have hb := nonNeg_fin.1 hq
      have e : (fin a * fin b : Fl m) = Fl.round (a * b) := rfl
      rw [e]
      have hs : ∀ v, m.rnd (a * b) = v → 0 ≤ v * a := by
        rintro v rfl
        rcases le_total 0 a with h | h
        · exact mul_nonneg (m.nonneg _ (mul_nonneg h hb)) h
        · have := m.mono (mul_nonpos_of_nonpos_of_nonneg h hb)
          rw [m.zero] at this
          exact mul_nonneg_of_nonpos_of_nonpos this h
      unfold Fl.round
      split
      · refine nonNeg_mul (fun x y hx hy => ?_) (fun x t _ hy => nomatch hy) (fun s x hx _ => nomatch hx) (fun s t hx _ => nomatch hx)
        cases hx; cases hy
        exact hs _ rfl
      · refine nonNeg_mul (fun x y hx _ => nomatch hx) (fun x t hx _ => nomatch hx) (fun s x hx hy => ?_) (fun s t _ hy => nomatch hy)
        cases hx; cases hy
        rcases lt_trichotomy a 0 with h | h | h
        · rcases hb.eq_or_lt with h0 | h0
          · rename_i hmax
            exfalso
            rw [← h0, mul_zero, m.zero, abs_zero] at hmax
            linarith [m.max_ge]
          · right; simp [h, mul_neg_of_neg_of_pos h h0]
        · exact .inl h
        · right
          have : ¬ a * b < 0 := not_lt.2 (mul_nonneg h.le hb)
          simp [this, h.le]
    | inf t =>
      obtain rfl := nonNeg_inf.1 hq
      have e : (fin a * inf false : Fl m) = Fl.infBy false a := rfl
      rw [e]
      unfold Fl.infBy
      split
      · exact nonNeg_nan
      · refine nonNeg_mul (fun x y hx _ => nomatch hx) (fun x t hx _ => nomatch hx) (fun s x hx hy => ?_) (fun s t _ hy => nomatch hy)
        cases hx; cases hy
        right; simp
    | nan => exact nonNeg_nan
  | inf s =>
    cases q with
    | fin b =>
      have hb := nonNeg_fin.1 hq
      have e : (inf s * fin b : Fl m) = Fl.infBy s b := rfl
      rw [e]
      unfold Fl.infBy
      split
      · exact nonNeg_nan
      · refine nonNeg_mul (fun x y hx _ => nomatch hx) (fun x t hx _ => nomatch hx) (fun s x _ hy => nomatch hy) (fun s' t hx hy => ?_)
        rw [decide_eq_false (not_lt.2 hb)] at hx
        cases hx; cases hy
        cases s <;> rfl
    | inf t =>
      obtain rfl := nonNeg_inf.1 hq
      have e : (inf s * inf false : Fl m) = inf (s != false) := rfl
      rw [e]
      refine nonNeg_mul (fun x y hx _ => nomatch hx) (fun x t hx _ => nomatch hx) (fun s x _ hy => nomatch hy) (fun s t hx hy => ?_)
      cases hx; cases hy
      cases s <;> rfl
    | nan => exact nonNeg_nan
  | nan => cases q <;> exact nonNeg_nan

/-- Zero or NaN. -/
def ZeroOrNan (x : Fl m) : Prop := x = 0 ∨ x = nan

theorem mul_zero_or (x : Fl m) : ZeroOrNan (x * 0) := by
  by_cases h : Bad x
  · exact .inr (bad_mul_zero h)
  · cases x with
    | fin v =>
      left
      show Fl.round (v * 0) = fin 0
      rw [mul_zero, round_zero]
    | inf s => exact absurd (fun v hv => nomatch hv) h
    | nan => exact .inr rfl

theorem zero_or_mul {x : Fl m} (hx : ZeroOrNan x) (y : Fl m) : ZeroOrNan (x * y) := by
  rcases hx with rfl | rfl
  · by_cases h : Bad y
    · exact .inr (zero_mul_bad h)
    · cases y with
      | fin v =>
        left
        show Fl.round (0 * v) = fin 0
        rw [zero_mul, round_zero]
      | inf s => exact absurd (fun v hv => nomatch hv) h
      | nan => exact .inr rfl
  · right; cases y <;> rfl

theorem sum_zero_or (f : Nat → Fl m) (n : Nat) (h : ∀ k, ZeroOrNan (f k)) : ZeroOrNan (sumTo n f) := by
  induction n with
  | zero => exact .inl rfl
  | succ n ih =>
    show ZeroOrNan (sumTo n f + f n)
    rcases ih with e | e <;> rcases h n with e' | e' <;> rw [e, e']
    · left
      show Fl.round (0 + 0) = fin 0
      rw [add_zero, round_zero]
    · exact .inr rfl
    · exact .inr rfl
    · exact .inr rfl

theorem ZeroOrNan.nonNeg {x : Fl m} (h : ZeroOrNan x) : NonNeg x := by
  rcases h with rfl | rfl
  · exact nonNeg_zero
  · exact nonNeg_nan

/-- An entry of `G * Q` for a diagonal `Q`: the product with the entry on the diagonal, or NaN. -/
theorem diag_mul [FlLib m] (hi : ∀ x, m.rnd (m.rnd x) = m.rnd x) (g : Nat → Fl m) (q : Nat → Nat → Fl m) (hq : ∀ k j, k ≠ j → q k j = 0) (n j : Nat) (hj : j < n) :
    sumTo n (fun k => g k * q k j) = g j * q j j ∨ sumTo n (fun k => g k * q k j) = nan := by
  by_cases h : ∃ k, k < n ∧ k ≠ j ∧ g k * q k j ≠ 0
  · obtain ⟨k, h1, h2, h3⟩ := h
    right
    refine sumTo_nan _ n k h1 ?_
    rw [hq k j h2] at h3 ⊢
    exact (mul_zero_or (g k)).resolve_left h3
  · left
    have e : sumTo n (fun k => g k * q k j) = sumTo n (fun k => if k = j then g j * q j j else 0) := by
      refine sumTo_congr fun k hk => ?_
      split
      · rename_i e; rw [e]
      · rename_i hn
        by_contra hc
        exact h ⟨k, hk, hn, hc⟩
    rw [e, sumTo_single _ j (fun k hk => by simp [hk]) (by simpa using rep_mul hi (g j) (q j j)), if_pos hj]
    simp

variable {T : Type} [TimeOps T] [FlLib m] [TimeCast T (Fl m)]

/-- C137, what holds: the first step from a covariance that is zero never gives a negative variance, whatever the samples, the times and the state, with overflow, infinities and NaN.
Missing: the later steps and the update, where it is false (`C137_propagation`, `C137_negative`). -/
theorem C137_first_partial (hi : ∀ x, m.rnd (m.rnd x) = m.rnd x) (s : PropQueue (Fl m) T) (na ng nwa nwg : Fl m) (hQ : s.Q = PropQueue.noiseMatrix na ng nwa nwg)
    (h1 : NonNeg (1 * na)) (h2 : NonNeg (1 * ng)) (h3 : NonNeg (1 * nwa)) (h4 : NonNeg (1 * nwg)) (g : Vec3 (Fl m)) (i0 : PropItem (Fl m) T) (h0 : i0.imuCov = .zero 15 15)
    (hG : s.G.cols = 12) (a w : Vec3 (Fl m)) (t : T) (i : Nat) : ScalarFn.lt ((s.stepItem g i0 a w t).imuCov.e i i) 0 = false := by
  have hc : (s.stepG i0 t).cols = 12 := hG
  show NonNeg (_ + _)
  refine nonNeg_add (ZeroOrNan.nonNeg (sum_zero_or _ _ fun k => zero_or_mul (sum_zero_or _ _ fun l => ?_) _)) ?_
  · rw [h0]; exact mul_zero_or _
  · rw [hQ]
    show NonNeg (sumTo 12 fun k => sumTo (s.stepG i0 t).cols (fun l => (s.stepG i0 t).e i l * (PropQueue.noiseMatrix na ng nwa nwg).e l k) * (s.stepG i0 t).e i k)
    rw [hc]
    have : ∀ k, k < 12 → NonNeg (sumTo 12 (fun l => (s.stepG i0 t).e i l * (PropQueue.noiseMatrix na ng nwa nwg).e l k) * (s.stepG i0 t).e i k) := by
      intro k hk
      rcases diag_mul hi ((s.stepG i0 t).e i) (PropQueue.noiseMatrix na ng nwa nwg).e (fun k j h => if_neg h) 12 k hk with e | e
      · rw [e]
        refine nonNeg_sandwich _ _ ?_
        show NonNeg (if k = k then _ else _)
        rw [if_pos rfl]
        split
        · exact h1
        · split
          · exact h2
          · split
            · exact h3
            · exact h4
      · rw [e]
        cases (s.stepG i0 t).e i k <;> exact nonNeg_nan
    have e : sumTo 12 (fun k => sumTo 12 (fun l => (s.stepG i0 t).e i l * (PropQueue.noiseMatrix na ng nwa nwg).e l k) * (s.stepG i0 t).e i k) =
        sumTo 12 (fun k => if k < 12 then sumTo 12 (fun l => (s.stepG i0 t).e i l * (PropQueue.noiseMatrix na ng nwa nwg).e l k) * (s.stepG i0 t).e i k else 0) :=
      sumTo_congr fun k hk => by rw [if_pos hk]
    rw [e]
    refine nonNeg_sum _ _ fun k => ?_
    split
    · exact this k ‹_›
    · exact nonNeg_zero

end floats

/-! ### The update -/

/-- The decomposition of a matrix with one row. -/
def ext1 : Ext F32 := ⟨fun _ _ => 0, fun _ v => v, fun _ b => b, fun _ i j => if i = j then 1 else 0, fun a _ => a.e 0 0, fun _ i j => if i = j then 1 else 0⟩

/-- C137 is false of the update: in single precision, with the measurement noise of the recorded runs (test_log/20221030_test_msckf_backend_in_static_scene.txt:19), the first of two uncorrelated states, measured with the coefficient 9.4375,
leaves the update with a negative variance, and the test of the covariance (multi_view_vision_update.cpp:317-325) prints its error.  The other state is not touched. -/
theorem C137_negative : ∃ k n, Update.kalman ext1 (lit (21739/10000000)) ⟨2, 2, fun i j => if i = j then (if i = 0 then lit (4625/1000) else 1) else 0⟩
      ⟨1, 3, fun _ j => if j = 0 then lit (94375/10000) else if j = 1 then 0 else 1⟩ = .ok k ∧ (k.cov.e 0 0).v < 0 ∧ (k.cov.e 1 1).v = 1 ∧
      Update.newCov k.gain ⟨1, 3, fun _ j => if j = 0 then lit (94375/10000) else if j = 1 then 0 else 1⟩
        ⟨2, 2, fun i j => if i = j then (if i = 0 then lit (4625/1000) else 1) else (0 : F32)⟩ = .ok n ∧ covAlarm n = true := by
  refine ⟨_, _, rfl, ?_, ?_, rfl, ?_⟩ <;> decide +kernel

/-! ### Later steps -/

/-- A covariance of the first position and the first velocity, `(a, -1)` times its transpose with `a` = 2097/524288, just below the period of a 250 Hz IMU: the position is certain one sample from now. -/
def tied : DMat F32 := ⟨15, 15, fun i j =>
  if i = 0 then (if j = 0 then ⟨(2097/524288) * (2097/524288)⟩ else if j = 3 then ⟨-(2097/524288)⟩ else 0)
  else if i = 3 then (if j = 0 then ⟨-(2097/524288)⟩ else if j = 3 then 1 else 0) else 0⟩

/-- A filter at rest with this covariance, noise 0.001. -/
def tiedQ : PropQueue F32 ℚ :=
  { (PropQueue.init ⟨0, 0, .one⟩ : PropQueue F32 ℚ) with
    Q := PropQueue.noiseMatrix (lit (1/1000)) (lit (1/1000)) (lit (1/1000)) (lit (1/1000))
    items := [⟨⟨0, 0, .one⟩, tied, .zero 15 0, ⟨0, 0, lit (981/100)⟩, 0, 0⟩] }

/-- C137 is false of the propagation as well: from a positive semidefinite covariance whose entries are single precision numbers, one step of 4 ms at rest, noise added, gives a negative variance of the position. -/
theorem C137_propagation : (∀ i, i < 15 → ∀ j, j < 15 → F32.rnd (tied.e i j).v = (tied.e i j).v ∧ tied.e i j = tied.e j i) ∧
    (∀ x : ℕ → ℚ, 0 ≤ (Finset.range 15).sum fun i => (Finset.range 15).sum fun j => x i * (tied.e i j).v * x j) ∧
    ∃ i, (tiedQ.propagate 1 ⟨0, 0, lit (981/100)⟩ ⟨0, 0, lit (981/100)⟩ 0 (4/1000)).items.getLast? = some i ∧ i.ts = 4/1000 ∧ (i.imuCov.e 0 0).v < 0 ∧ covAlarm i.imuCov = true := by
  refine ⟨?_, fun x => ?_, _, rfl, ?_, ?_, ?_⟩
  · decide +kernel
  · have e : ((Finset.range 15).sum fun i => (Finset.range 15).sum fun j => x i * (tied.e i j).v * x j) = (2097/524288 * x 0 - x 3) ^ 2 := by
      simp [Finset.sum_range_succ, tied, show (0 : F32).v = 0 from rfl, show (1 : F32).v = 1 from rfl]
      ring
    rw [e]
    positivity
  all_goals decide +kernel

/-- The case of the first claim: no noise is negative and the queue is fresh. -/
example [FlLib fp32] : NonNeg (1 * (1 : Fl fp32)) ∧ ((PropQueue.init ⟨0, 0, .one⟩ : PropQueue (Fl fp32) ℚ).G.cols = 12) :=
  ⟨nonNeg_mul (fun a b ha hb => by cases ha; cases hb; norm_num) (fun _ _ _ h => nomatch h) (fun _ _ h _ => nomatch h) (fun _ _ h _ => nomatch h), rfl⟩

end Variance
end Vio

/-
Property C124: how much uncertainty of the IMU biases the propagation adds.
-/
import Verif.Props.PropagatorNum
import Verif.Props.DemoCases
import Mathlib.Tactic.LinearCombination
import Mathlib.Tactic.Positivity

set_option linter.unusedSectionVars false

namespace Vio

open PropSpec PropQueue

variable {T : Type} [TimeOps T] [TimeCast T ℝ]

namespace Noise

/-- One IMU sample: acceleration, angular rate and time. -/
structure Sample (T : Type) where
  a : Vec3 ℝ
  w : Vec3 ℝ
  t : T

/-- The queue after a list of samples. -/
noncomputable def feed (nExt : Nat) (g : Vec3 ℝ) (s : PropQueue ℝ T) (l : List (Sample T)) : PropQueue ℝ T :=
  l.foldl (fun s x => s.propagate nExt g x.a x.w x.t) s

/-- The steps of time between successive samples, the first one after a sample at `t0`. -/
def steps : T → List (Sample T) → List ℝ
  | _, [] => []
  | t0, x :: l => TimeCast.toK (TimeOps.sub x.t t0) :: steps x.t l

/-- The sum of squares. -/
def sumSq (l : List ℝ) : ℝ := (l.map (fun d => d * d)).sum

/-- Variance of the component `x` of the error state: position 0-2, velocity 3-5, attitude 6-8, accelerometer bias 9-11, gyroscope bias 12-14. -/
def variance (it : PropItem ℝ T) (x : Nat) : ℝ := it.imuCov.e x x

/-- The covariance of two bias components after one step: the old one plus the noise of the random walk times the square of the step. -/
theorem step_bias (s : PropQueue ℝ T) (hc : Clean s) (na ng nwa nwg : ℝ) (hQ : s.Q = noiseMatrix na ng nwa nwg) (g : Vec3 ℝ) (i0 : PropItem ℝ T)
    (hcols : i0.imuCov.cols = 15) (a w : Vec3 ℝ) (t : T) (x y : Nat) (hx : 9 ≤ x) (hx' : x < 15) (hy : 9 ≤ y) (hy' : y < 15) :
    (s.stepItem g i0 a w t).imuCov.e x y = i0.imuCov.e x y + (if x = y then (if x < 12 then nwa else nwg) * (dt i0.ts t * dt i0.ts t) else 0) := by
  have hF : s.stepF i0 a w t = fillF (.ident 15) (dt i0.ts t) i0.st.q (midAccel s.biasA i0.accel a) (midGyro s.biasG i0.gyro w) := hc.1 _ _ _ _
  have hG : s.stepG i0 t = fillG (.zero 15 12) (dt i0.ts t) i0.st.q := hc.2 _ _
  have f : ∀ z k, 9 ≤ z → z < 15 → k < 15 → (s.stepF i0 a w t).e z k = if k = z then 1 else 0 := by
    intro z k h1 h2 h3
    rw [hF, fillF_ident _ _ _ _ _ _ h2 h3]
    interval_cases z <;> interval_cases k <;> simp [Fspec, delta]
  have gg : ∀ z k, 9 ≤ z → z < 15 → k < 12 → (s.stepG i0 t).e z k = if k = z - 3 then dt i0.ts t else 0 := by
    intro z k h1 h2 h3
    rw [hG, fillG_zero _ _ _ _ h2 h3]
    interval_cases z <;> interval_cases k <;> simp [Gspec, delta]
  have fc : (s.stepF i0 a w t).cols = 15 := by rw [hF]; rfl
  have gc : (s.stepG i0 t).cols = 12 := by rw [hG]; rfl
  have pick : ∀ (n : Nat) (h : Nat → ℝ) (c : ℝ) (z : Nat), z < n → sumTo n (fun k => (if k = z then c else 0) * h k) = c * h z := by
    intro n h c z hz
    rw [sumTo_eq, Finset.sum_eq_single (⟨z, hz⟩ : Fin n)]
    · simp
    · intro k _ hk
      rw [if_neg (fun e => hk (Fin.ext e)), zero_mul]
    · intro h; exact absurd (Finset.mem_univ _) h
  have cong : ∀ (n : Nat) (u v : Nat → ℝ), (∀ k, k < n → u k = v k) → sumTo n u = sumTo n v := by
    intro n u v h
    rw [sumTo_eq, sumTo_eq]
    exact Finset.sum_congr rfl (fun k _ => h k k.2)
  have e1 : (((s.stepF i0 a w t).mulF i0.imuCov).mulF (s.stepF i0 a w t).transpose).e x y = i0.imuCov.e x y := by
    simp only [DMat.mulF, DMat.transpose, hcols, fc]
    rw [cong 15 _ (fun k => (if k = y then 1 else 0) * i0.imuCov.e x k) (fun k hk => by
      rw [f y k hy hy' hk, cong 15 _ (fun j => (if j = x then 1 else 0) * i0.imuCov.e j k) (fun j hj => by rw [f x j hx hx' hj]), pick 15 (fun j => i0.imuCov.e j k) 1 x hx']
      ring), pick 15 (fun k => i0.imuCov.e x k) 1 y hy', one_mul]
  have e2 : (((s.stepG i0 t).mulF s.Q).mulF (s.stepG i0 t).transpose).e x y =
      if x = y then (if x < 12 then nwa else nwg) * (dt i0.ts t * dt i0.ts t) else 0 := by
    have qc : s.Q.cols = 12 := by rw [hQ]; rfl
    simp only [DMat.mulF, DMat.transpose, qc, gc]
    rw [cong 12 _ (fun k => (if k = y - 3 then dt i0.ts t else 0) * (dt i0.ts t * s.Q.e (x - 3) k)) (fun k hk => by
      rw [gg y k hy hy' hk, cong 12 _ (fun j => (if j = x - 3 then dt i0.ts t else 0) * s.Q.e j k) (fun j hj => by rw [gg x j hx hx' hj]),
        pick 12 (fun j => s.Q.e j k) _ (x - 3) (by omega)]
      ring), pick 12 (fun k => dt i0.ts t * s.Q.e (x - 3) k) _ (y - 3) (by omega), hQ]
    simp only [noiseMatrix, indexNG, indexNWA, indexNWG]
    by_cases h : x = y
    · subst h
      rw [if_pos rfl, if_pos rfl, if_neg (by omega), if_neg (by omega)]
      by_cases h12 : x < 12
      · rw [if_pos (by omega), if_pos h12]; ring
      · rw [if_neg (by omega), if_neg h12]; ring
    · rw [if_neg (by omega), if_neg h]; ring
  show (DMat.addF _ _).e x y = _
  simp only [DMat.addF]
  rw [e1, e2]

/-- The configured figure for the random walk of the bias component `x`. -/
def walk (nwa nwg : ℝ) (x : Nat) : ℝ := if x < 12 then nwa else nwg

end Noise

open Noise

/-- C124, what the code does: over any samples of any values the covariance of two different bias components stays, and the variance of one grows by its configured figure times the
sum of the squares of the time steps. -/
theorem C124_growth (nExt : Nat) (g : Vec3 ℝ) (s : PropQueue ℝ T) (hc : Clean s) (na ng nwa nwg : ℝ) (hQ : s.Q = noiseMatrix na ng nwa nwg) (i0 : PropItem ℝ T)
    (hl : s.items.getLast? = some i0) (hcols : i0.imuCov.cols = 15) (l : List (Sample T)) :
    ∃ it, (feed nExt g s l).items.getLast? = some it ∧
      ∀ x y, 9 ≤ x → x < 15 → 9 ≤ y → y < 15 →
        it.imuCov.e x y = i0.imuCov.e x y + if x = y then walk nwa nwg x * sumSq (steps i0.ts l) else 0 := by
  induction l generalizing s i0 with
  | nil =>
    refine ⟨i0, hl, fun x y _ _ _ _ => ?_⟩
    simp [steps, sumSq]
  | cons z l ih =>
    have e : s.propagate nExt g z.a z.w z.t = { s with items := s.items ++ [s.stepItem g i0 z.a z.w z.t], F := s.stepF i0 z.a z.w z.t, G := s.stepG i0 z.t } := by
      unfold propagate
      rw [hl]
    have hF : (s.stepF i0 z.a z.w z.t).rows = 15 := by
      rw [show s.stepF i0 z.a z.w z.t = fillF (.ident 15) (dt i0.ts z.t) i0.st.q (midAccel s.biasA i0.accel z.a) (midGyro s.biasG i0.gyro z.w) from hc.1 _ _ _ _]; rfl
    obtain ⟨it, h1, h2⟩ := ih (s.propagate nExt g z.a z.w z.t) (by rw [e]; exact clean_fill s _ hc _ _ _ _ _ _ rfl rfl) (by rw [e]; exact hQ) (s.stepItem g i0 z.a z.w z.t)
      (by rw [e]; exact List.getLast?_concat) (by exact hF)
    refine ⟨it, h1, fun x y a1 a2 b1 b2 => ?_⟩
    rw [h2 x y a1 a2 b1 b2, step_bias s hc na ng nwa nwg hQ g i0 hcols z.a z.w z.t x y a1 a2 b1 b2]
    have es : sumSq (steps i0.ts (z :: l)) = dt i0.ts z.t * dt i0.ts z.t + sumSq (steps z.t l) := by
      simp [steps, sumSq, dt]
    rw [es]
    show _ + _ + (if x = y then walk nwa nwg x * sumSq (steps z.t l) else 0) = _
    unfold walk
    split_ifs <;> ring

/-- The sum of squares of `n` equal steps that fill the span `τ`. -/
theorem sumSq_even (τ : ℝ) (n : Nat) (hn : n ≠ 0) : sumSq (List.replicate n (τ / n)) = τ * τ / n := by
  have : (n : ℝ) ≠ 0 := Nat.cast_ne_zero.2 hn
  simp only [sumSq, List.map_replicate, List.sum_replicate, nsmul_eq_mul]
  field_simp

/-- C124 is false: the same span `τ` of time, cut into a different number of equal steps, adds a different variance to every bias component whose figure is not zero.  It is the figure times
`τ² / n`. -/
theorem C124_rate_dependent (nExt : Nat) (g : Vec3 ℝ) (s : PropQueue ℝ T) (hc : Clean s) (na ng nwa nwg : ℝ) (hQ : s.Q = noiseMatrix na ng nwa nwg) (i0 : PropItem ℝ T)
    (hl : s.items.getLast? = some i0) (hcols : i0.imuCov.cols = 15) (τ : ℝ) (hτ : τ ≠ 0) (n m : Nat) (hn : n ≠ 0) (hm : m ≠ 0) (hnm : n ≠ m) (l k : List (Sample T))
    (h1 : steps i0.ts l = List.replicate n (τ / n)) (h2 : steps i0.ts k = List.replicate m (τ / m)) (x : Nat) (hx : 9 ≤ x) (hx' : x < 15) (hw : walk nwa nwg x ≠ 0) :
    ∃ it jt, (feed nExt g s l).items.getLast? = some it ∧ (feed nExt g s k).items.getLast? = some jt ∧
      variance it x - variance i0 x = walk nwa nwg x * (τ * τ / n) ∧ variance jt x - variance i0 x = walk nwa nwg x * (τ * τ / m) ∧ variance it x ≠ variance jt x := by
  obtain ⟨it, a1, a2⟩ := C124_growth nExt g s hc na ng nwa nwg hQ i0 hl hcols l
  obtain ⟨jt, b1, b2⟩ := C124_growth nExt g s hc na ng nwa nwg hQ i0 hl hcols k
  have a3 := a2 x x hx hx' hx hx'
  have b3 := b2 x x hx hx' hx hx'
  rw [if_pos rfl, h1, sumSq_even τ n hn] at a3
  rw [if_pos rfl, h2, sumSq_even τ m hm] at b3
  refine ⟨it, jt, a1, b1, by unfold variance; rw [a3]; ring, by unfold variance; rw [b3]; ring, fun hv => hnm ?_⟩
  unfold variance at hv
  rw [a3, b3] at hv
  have hv' : τ * τ / n = τ * τ / m := mul_left_cancel₀ hw (add_left_cancel hv)
  have n0 : (n : ℝ) ≠ 0 := Nat.cast_ne_zero.2 hn
  have m0 : (m : ℝ) ≠ 0 := Nat.cast_ne_zero.2 hm
  rw [div_eq_div_iff n0 m0] at hv'
  exact (Nat.cast_injective (R := ℝ) (mul_left_cancel₀ (mul_ne_zero hτ hτ) hv')).symm

/-- C124: with a fast enough IMU the added variance falls below any bound, however long the span and however large the figure. -/
theorem C124_vanishes (nExt : Nat) (g : Vec3 ℝ) (s : PropQueue ℝ T) (hc : Clean s) (na ng nwa nwg : ℝ) (hQ : s.Q = noiseMatrix na ng nwa nwg) (i0 : PropItem ℝ T)
    (hl : s.items.getLast? = some i0) (hcols : i0.imuCov.cols = 15) (τ ε : ℝ) (hε : 0 < ε) (x : Nat) (hx : 9 ≤ x) (hx' : x < 15) :
    ∃ N : Nat, ∀ n, N < n → ∀ l : List (Sample T), steps i0.ts l = List.replicate n (τ / n) →
      ∃ it, (feed nExt g s l).items.getLast? = some it ∧ |variance it x - variance i0 x| < ε := by
  obtain ⟨N, hN⟩ := exists_nat_gt (|walk nwa nwg x * (τ * τ)| / ε)
  refine ⟨N, fun n hn l h1 => ?_⟩
  obtain ⟨it, a1, a2⟩ := C124_growth nExt g s hc na ng nwa nwg hQ i0 hl hcols l
  have a3 := a2 x x hx hx' hx hx'
  have hn0 : n ≠ 0 := by omega
  rw [if_pos rfl, h1, sumSq_even τ n hn0] at a3
  refine ⟨it, a1, ?_⟩
  have np : (0 : ℝ) < n := Nat.cast_pos.2 (by omega)
  have : variance it x - variance i0 x = walk nwa nwg x * (τ * τ) / n := by
    unfold variance; rw [a3]; ring
  rw [this, abs_div, abs_of_pos np, div_lt_iff₀ np]
  have h3 : |walk nwa nwg x * (τ * τ)| < N * ε := (div_lt_iff₀ hε).1 hN
  have h4 : (N : ℝ) * ε < n * ε := mul_lt_mul_of_pos_right (Nat.cast_lt.2 hn) hε
  linarith

/-- C124, what holds: with a constant period `d` the variance grows in proportion to the elapsed time, by the configured figure times `d` per unit of time.  Missing: any other spacing, and
the factor is the figure itself times the period, not the square of the figure. -/
theorem C124_constant_period_partial (nExt : Nat) (g : Vec3 ℝ) (s : PropQueue ℝ T) (hc : Clean s) (na ng nwa nwg : ℝ) (hQ : s.Q = noiseMatrix na ng nwa nwg) (i0 : PropItem ℝ T)
    (hl : s.items.getLast? = some i0) (hcols : i0.imuCov.cols = 15) (d : ℝ) (l : List (Sample T)) (h : ∀ e ∈ steps i0.ts l, e = d) (x : Nat) (hx : 9 ≤ x) (hx' : x < 15) :
    ∃ it, (feed nExt g s l).items.getLast? = some it ∧ variance it x = variance i0 x + walk nwa nwg x * d * (steps i0.ts l).sum := by
  obtain ⟨it, a1, a2⟩ := C124_growth nExt g s hc na ng nwa nwg hQ i0 hl hcols l
  have a3 := a2 x x hx hx' hx hx'
  rw [if_pos rfl] at a3
  refine ⟨it, a1, ?_⟩
  have : ∀ (u : List ℝ), (∀ e ∈ u, e = d) → sumSq u = d * u.sum := by
    intro u hu
    rw [List.eq_replicate_iff.2 ⟨rfl, hu⟩]
    simp [sumSq]
    ring
  unfold variance
  rw [a3, this _ h]
  ring

/-- The steps of samples in real time add up to the span. -/
theorem steps_sum (t0 : ℝ) (l : List (Sample ℝ)) : (steps t0 l).sum = ((l.map (·.t)).getLast?.getD t0) - t0 := by
  induction l generalizing t0 with
  | nil => simp [steps]
  | cons z l ih =>
    simp only [steps, List.sum_cons, ih, List.map_cons]
    cases l with
    | nil => simp
    | cons y l => simp [List.getLast?_cons]

/-- C124 for a configured backend: the random walk figures read from the files are used as they are.  Their names and the use of the vision figure, whose square is the variance of a
measured coordinate, say that they are standard deviations.  A walk of standard deviation `σ` per square root of a second has variance `σ² τ` after the time `τ`; from the first sample on the
filter holds `σ` times the sum of the squares of the steps. -/
theorem Backend.C124_configured (lib : ConfLib ℝ) (fs : String → Option (List Char)) (path : String) (fuel : Nat) (c c' : Conf.St ℝ) (g g' : Vec3 ℝ) (st : Motion ℝ) (b' : Backend ℝ T) (r : Bool)
    (h : Backend.configParams lib fs path fuel c g (Backend.init st) = .ok (some (r, b', g', c'))) (nExt : Nat) (z : Sample T) (l : List (Sample T)) :
    ∃ it, (feed nExt g' b'.u.q (z :: l)).items.getLast? = some it ∧
      (∀ x, 9 ≤ x → x < 12 → variance it x = c'.cfg.sigmaWA * sumSq (steps z.t l)) ∧ (∀ x, 12 ≤ x → x < 15 → variance it x = c'.cfg.sigmaWG * sumSq (steps z.t l)) := by
  obtain ⟨-, -, -, -, -, -, -, -, -, -, -, -, hQ, -⟩ := Backend.C67_config lib fs path fuel c c' g g' (Backend.init st) b' r h
  have hf := (Backend.C68_configured lib fs path fuel c c' g g' st b' r h).1.states
  let i0 : PropItem ℝ T := ⟨b'.u.q.initState, .zero 15 15, .zero 15 (nExt * 6 + 6), z.a, z.w, z.t⟩
  have e : b'.u.q.propagate nExt g' z.a z.w z.t = { b'.u.q with items := [i0], exCamCov := .zero (nExt * 6 + 6) (nExt * 6 + 6), F := .ident 15, G := .zero 15 12 } := by
    unfold propagate
    rw [hf]
    rfl
  obtain ⟨it, a1, a2⟩ := C124_growth nExt g' (b'.u.q.propagate nExt g' z.a z.w z.t) (by rw [e]; exact ⟨fun _ _ _ _ => rfl, fun _ _ => rfl⟩) _ _ _ _ (by rw [e]; exact hQ) i0
    (by rw [e]; rfl) rfl l
  refine ⟨it, a1, fun x h1 h2 => ?_, fun x h1 h2 => ?_⟩
  · have := a2 x x h1 (by omega) h1 (by omega)
    rw [if_pos rfl, walk, if_pos h2] at this
    rw [variance, this]
    simp [i0, DMat.zero]
  · have := a2 x x (by omega) h2 (by omega) h2
    rw [if_pos rfl, walk, if_neg (by omega)] at this
    rw [variance, this]
    simp [i0, DMat.zero]

/-- C124 with the shipped configuration, 200 samples per second and a gyroscope walk of `10⁻⁵`: after one second the filter holds 500 times the variance `σ² τ` of that walk. -/
theorem Backend.C124_shipped (lib : ConfLib ℝ) (fs : String → Option (List Char)) (path : String) (fuel : Nat) (hf : 2 < fuel) (st : Motion ℝ) (g : Vec3 ℝ) (hs : DemoSpec.Shipped lib fs path)
    (nExt : Nat) (z : Sample ℝ) (l : List (Sample ℝ)) (hl : steps z.t l = List.replicate 200 (1 / 200)) :
    ∃ (b : Backend ℝ ℝ) (g' : Vec3 ℝ) (c : Conf.St ℝ) (it : PropItem ℝ ℝ), Backend.configParams lib fs path fuel .init g (Backend.init st) = .ok (some (true, b, g', c)) ∧
      (feed nExt g' b.u.q (z :: l)).items.getLast? = some it ∧ (steps z.t l).sum = 1 ∧ c.cfg.sigmaWG = 1 / 100000 ∧
      ∀ x, 12 ≤ x → x < 15 → variance it x = 500 * (c.cfg.sigmaWG ^ 2 * (steps z.t l).sum) := by
  obtain ⟨c, m, h, e1, -, -, -, e5, -⟩ := Conf.C66_read lib fs path .init 2 fuel _ _ _ _ _ _ _
    (fun i => if i = 0 then DemoSpec.table [[0, 0, -1, 5/100], [-1, 0, 0, 4/100], [0, 1, 0, 3/100], [0, 0, 0, 1]] else DemoSpec.table [[0, 0, -1, 5/100], [-1, 0, 0, -14/100], [0, 1, 0, 3/100], [0, 0, 0, 1]])
    hs.freq hs.noise hs.bias hs.grav hs.win hs.vis hs.key (by
      intro i hi
      rcases Nat.lt_succ_iff_lt_or_eq.1 hi with hi | rfl
      · obtain rfl : i = 0 := by omega
        exact hs.cam0
      · exact hs.cam1) hs.cam2 (by decide) hf
    (by rintro v ⟨⟩; show (lib.toU32 6).isSome; rw [hs.six]; rfl) (by rintro v ⟨⟩; show (lib.toU32 30).isSome; rw [hs.thirty]; rfl)
  obtain ⟨b, g', hb⟩ := Backend.C67_no_ub lib fs path fuel .init ⟨c, m⟩ g (Backend.init st : Backend ℝ ℝ) h
  obtain ⟨it, a1, -, a3⟩ := Backend.C124_configured lib fs path fuel .init ⟨c, m⟩ g g' st b true hb nExt z l
  have hw : c.sigmaWG = 1 / 100000 := by rw [e5]; simp [DemoSpec.table]
  refine ⟨b, g', ⟨c, m⟩, it, hb, a1, by rw [hl, List.sum_replicate]; norm_num, hw, fun x h1 h2 => ?_⟩
  rw [a3 x h1 h2, hl]
  have := sumSq_even 1 200 (by decide)
  rw [show ((200 : ℕ) : ℝ) = 200 by norm_num] at this
  rw [this]
  simp only [List.sum_replicate]
  show c.sigmaWG * _ = 500 * (c.sigmaWG ^ 2 * _)
  rw [hw]
  norm_num

/-! ### Concrete cases -/

/-- `n` samples of a device at rest, evenly spaced over `τ`. -/
noncomputable def Noise.evenly (t0 τ : ℝ) (n : Nat) : List (Sample ℝ) := (List.range n).map (fun k : ℕ => ⟨⟨0, 0, 981/100⟩, 0, t0 + (k + 1) * (τ / n)⟩)

theorem steps_evenly (t0 τ : ℝ) (n : Nat) : steps t0 (evenly t0 τ n) = List.replicate n (τ / n) := by
  have key : ∀ (m j : Nat) (t1 d : ℝ), steps (t1 + j * d) ((List.range' j m).map (fun k : ℕ => (⟨⟨0, 0, 981/100⟩, 0, t1 + (k + 1) * d⟩ : Sample ℝ))) = List.replicate m d := by
    intro m
    induction m with
    | zero => intro j t1 d; rfl
    | succ m ih =>
      intro j t1 d
      rw [List.range'_succ, List.map_cons, steps, List.replicate_succ]
      have := ih (j + 1) t1 d
      push_cast at this
      rw [this]
      congr 1
      simp
      ring
  have := key n 0 t0 (τ / n)
  simp only [Nat.cast_zero, zero_mul, add_zero] at this
  rw [evenly, List.range_eq_range']
  exact this

/-- The hypotheses of `C124_rate_dependent` are met: a queue with one item, one second in 100 or in 200 steps. -/
example : ∃ (s : PropQueue ℝ ℝ) (i0 it jt : PropItem ℝ ℝ), s.items.getLast? = some i0 ∧
    (feed 1 ⟨0, 0, 981/100⟩ s (evenly 0 1 100)).items.getLast? = some it ∧ (feed 1 ⟨0, 0, 981/100⟩ s (evenly 0 1 200)).items.getLast? = some jt ∧
    variance it 12 = 1 / 100 ∧ variance jt 12 = 1 / 200 := by
  let i0 : PropItem ℝ ℝ := ⟨⟨0, 0, .one⟩, .zero 15 15, .zero 15 12, ⟨0, 0, 981/100⟩, 0, 0⟩
  let s : PropQueue ℝ ℝ := { (PropQueue.init ⟨0, 0, .one⟩ : PropQueue ℝ ℝ) with items := [i0], Q := noiseMatrix 1 1 1 1 }
  obtain ⟨it, jt, h1, h2, h3, h4, -⟩ := C124_rate_dependent 1 ⟨0, 0, 981/100⟩ s ⟨fun _ _ _ _ => rfl, fun _ _ => rfl⟩ 1 1 1 1 rfl i0 rfl rfl 1 one_ne_zero 100 200 (by decide) (by decide)
    (by decide) (evenly 0 1 100) (evenly 0 1 200) (steps_evenly 0 1 100) (steps_evenly 0 1 200) 12 (by decide) (by decide) (by simp [walk])
  refine ⟨s, i0, it, jt, rfl, h1, h2, ?_, ?_⟩
  · have : variance i0 12 = 0 := rfl
    rw [this] at h3
    simp [walk] at h3
    rw [h3]; norm_num
  · have : variance i0 12 = 0 := rfl
    rw [this] at h4
    simp [walk] at h4
    rw [h4]; norm_num

/-- The shipped files are such files: `Backend.C124_shipped` applies to them. -/
example : ∃ (b : Backend ℝ ℝ) (g' : Vec3 ℝ) (c : Conf.St ℝ) (it : PropItem ℝ ℝ),
    Backend.configParams Demo.realLib Demo.shippedFs "c" 3 .init 0 (Backend.init ⟨0, 0, .one⟩) = .ok (some (true, b, g', c)) ∧
    (feed 2 g' b.u.q (⟨⟨0, 0, 981/100⟩, 0, 0⟩ :: evenly 0 1 200)).items.getLast? = some it ∧ variance it 12 = 500 * (1 / 100000) ^ 2 := by
  have hs : steps (0 : ℝ) (evenly 0 1 200) = List.replicate 200 (1 / 200) := by
    have := steps_evenly 0 1 200
    rw [show ((200 : ℕ) : ℝ) = 200 by norm_num] at this
    exact this
  obtain ⟨b, g', c, it, h1, h2, h3, h4, h5⟩ := Backend.C124_shipped Demo.realLib Demo.shippedFs "c" 3 (by decide) ⟨0, 0, .one⟩ 0 Demo.C100_texts 2 ⟨⟨0, 0, 981/100⟩, 0, 0⟩ (evenly 0 1 200) hs
  refine ⟨b, g', c, it, h1, h2, ?_⟩
  rw [h5 12 (by decide) (by decide), h3, h4, mul_one]

end Vio

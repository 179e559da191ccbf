/-
C139: how the position follows the velocity under rounding.
-/
import Verif.Props.Mixing
import Verif.Props.Reckon
import Verif.Props.Symmetric

set_option linter.unusedSectionVars false

namespace Vio
open Fl Clock Spec WinSpec AttSpec Update

namespace Stall

/-! ### Far from the origin a slow motion is lost -/

section creep
variable {K : Type} [Add K] [Sub K] [Mul K] [Neg K] [Div K] [Zero K] [One K] [ScalarFn K] [TimeCast ℚ K]

/-- A kilometre from the origin. -/
def far : Vec3 K := ⟨lit 1000, 0, 0⟩

/-- Five millimetres a second. -/
def slow : Vec3 K := ⟨lit (5/1000), 0, 0⟩

/-- Gravity, and what an accelerometer shows that is level and not accelerated. -/
def grav : Vec3 K := ⟨0, 0, lit (981/100)⟩

/-- A filter in this motion after its first sample. -/
def start : PropQueue K ℚ := (PropQueue.init ⟨far, slow, .one⟩ : PropQueue K ℚ).propagate 1 grav grav 0 0

/-- The filter after `n` more samples at 200 Hz. -/
def creep : Nat → PropQueue K ℚ
  | 0 => start
  | n + 1 => (creep n).propagate 1 grav grav 0 ((n + 1 : ℕ) / 200)

/-- The fields that a step of the nominal state uses. -/
def At (q : PropQueue K ℚ) (n : Nat) (p v : Vec3 K) : Prop :=
  q.biasA = 0 ∧ q.biasG = 0 ∧ ∃ i, q.items.getLast? = some i ∧ i.st = ⟨p, v, .one⟩ ∧ i.accel = grav ∧ i.gyro = 0 ∧ i.ts = (n : ℚ) / 200

theorem at_succ {q : PropQueue K ℚ} {n : Nat} {p p' v v' : Vec3 K} (h : At q n p v)
    (hs : Reckon.step grav 0 0 ⟨p, v, .one⟩ (grav, 0, (0 : ℚ)) (grav, 0, 1/200) = ⟨p', v', .one⟩) : At (q.propagate 1 grav grav 0 ((n + 1 : ℕ) / 200)) (n + 1) p' v' := by
  obtain ⟨h1, h2, ⟨st, ic, ie, ac, gy, ts⟩, h3, h4, h5, h6, h7⟩ := h
  dsimp only at h4 h5 h6 h7
  subst h4 h5 h6 h7
  unfold PropQueue.propagate
  rw [h3]
  refine ⟨h1, h2, _, List.getLast?_concat .., ?_, rfl, rfl, rfl⟩
  rw [← hs]
  show PropQueue.nominal q grav _ grav 0 _ = _
  have e : (PropQueue.dt ((n : ℚ) / 200) ((n + 1 : ℕ) / 200) : K) = PropQueue.dt (0 : ℚ) (1/200) := by
    show (TimeCast.toK (((n + 1 : ℕ) : ℚ) / 200 - (n : ℚ) / 200) : K) = TimeCast.toK ((1 : ℚ) / 200 - 0)
    congr 1
    push_cast
    ring
  unfold PropQueue.nominal
  rw [h1, h2]
  dsimp only
  rw [e]
  rfl

end creep

instance : DecidableEq (Vec3 F32) := fun a b => decidable_of_iff (a.x = b.x ∧ a.y = b.y ∧ a.z = b.z) (by cases a; cases b; simp)
instance : DecidableEq (Quat F32) := fun a b => decidable_of_iff (a.w = b.w ∧ a.x = b.x ∧ a.y = b.y ∧ a.z = b.z) (by cases a; cases b; simp)
instance : DecidableEq (Motion F32) := fun a b => decidable_of_iff (a.p = b.p ∧ a.v = b.v ∧ a.q = b.q) (by cases a; cases b; simp)

theorem creep_single (n : Nat) : At (creep n : PropQueue F32 ℚ) n far slow := by
  induction n with
  | zero => exact ⟨rfl, rfl, _, rfl, rfl, rfl, rfl, by norm_num⟩
  | succ n ih => exact at_succ ih (by decide +kernel)

theorem creep_exact (n : Nat) : At (creep n : PropQueue ℚ ℚ) n ⟨1000 + n * (5/1000) / 200, 0, 0⟩ slow := by
  induction n with
  | zero => exact ⟨rfl, rfl, _, rfl, by simp [far, slow, PropQueue.init, lit], rfl, rfl, by norm_num⟩
  | succ n ih =>
    refine at_succ ih ?_
    have hq : (Quat.one.mul (Utility.deltaQ (Reckon.during (Reckon.half ((0 : Vec3 ℚ) + 0) - 0) (1/200)))).normalized = .one := by decide +kernel
    have hv : Reckon.during (Reckon.half ((Quat.one : Quat ℚ).rotate (grav - 0) + (Quat.one : Quat ℚ).rotate (grav - 0)) - grav) (1/200) = ⟨0, 0, 0⟩ := by decide +kernel
    have e : (Reckon.gap ((grav, 0, (0 : ℚ)) : Reckon.Sample ℚ ℚ) (grav, 0, 1/200) : ℚ) = 1/200 := by decide +kernel
    unfold Reckon.step
    dsimp only
    rw [e, hq, hv]
    have hs : (slow + (⟨0, 0, 0⟩ : Vec3 ℚ)) = slow := by decide +kernel
    have hp : Reckon.during (Reckon.half ((slow : Vec3 ℚ) + slow)) (1/200) = ⟨5/1000/200, 0, 0⟩ := by decide +kernel
    rw [hs, hp]
    have ha : (⟨1000 + n * (5/1000) / 200, 0, 0⟩ + ⟨5/1000/200, 0, 0⟩ : Vec3 ℚ) = ⟨1000 + ((n + 1 : ℕ) : ℚ) * (5/1000) / 200, 0, 0⟩ := by
      show (⟨_ + _, _ + _, _ + _⟩ : Vec3 ℚ) = _
      rw [Vec3.mk.injEq]
      push_cast
      refine ⟨by ring, by norm_num, by norm_num⟩
    rw [ha]

/-- C139 is false of the code: in single precision a filter a kilometre from the origin that moves at five millimetres a second and gets samples at 200 Hz stays where it is, however many samples it gets, and keeps its velocity;
the same program in exact arithmetic moves. -/
theorem C139_stalls (n : Nat) :
    (∃ i, (creep n : PropQueue F32 ℚ).items.getLast? = some i ∧ i.ts = (n : ℚ) / 200 ∧ i.st.p.x.v = 1000 ∧ i.st.v.x.v = F32.rnd (5/1000)) ∧
    ∃ i, (creep n : PropQueue ℚ ℚ).items.getLast? = some i ∧ i.ts = (n : ℚ) / 200 ∧ i.st.p.x = 1000 + n * (5/1000) / 200 ∧ i.st.v.x = 5/1000 := by
  obtain ⟨_, _, i, h1, h2, _, _, h3⟩ := creep_single n
  obtain ⟨_, _, j, k1, k2, _, _, k3⟩ := creep_exact n
  refine ⟨⟨i, h1, h3, ?_, ?_⟩, j, k1, k3, ?_, ?_⟩
  · rw [h2]; decide +kernel
  · rw [h2]; decide +kernel
  · rw [k2]
  · rw [k2]; rfl

/-! ### What holds: the error of each step is a rounding of the position -/

theorem half_lit [FlLib fp32] : (lit (1/2) : Fl fp32) = fin (1/2) := by
  have h : fp32.rnd (1/2) = 1/2 := by
    have := rndBits_of_mul (p := 24) (emin := -126) (k := -1) (n := 1) (P := 1) (by norm_num) (by norm_num) (by norm_num) (by norm_num)
    norm_num at this
    norm_num
    exact this
  show Fl.round (((1/2 : ℚ)) : ℝ) = _
  have e : (((1/2 : ℚ)) : ℝ) = 1/2 := by norm_num
  rw [e, Mixing.round_fin (by norm_num), h]

theorem step_error [FlLib fp32] {p v0 v1 d R : ℝ} (hp : |p| ≤ R) (h0 : |v0| ≤ R) (h1 : |v1| ≤ R) (hd0 : 0 ≤ d) (hd1 : d ≤ 1) (hR : R ≤ 2 ^ 100) :
    ∃ p1, (fin p + lit (1/2) * (fin v0 + fin v1) * fin d : Fl fp32) = fin p1 ∧ |p1 - (p + (v0 + v1) / 2 * d)| ≤ 2 ^ (-21 : ℤ) * R + 2 ^ (-146 : ℤ) := by
  have hR0 : 0 ≤ R := (abs_nonneg p).trans hp
  have u := Mixing.u32
  have hs := Mixing.small
  have k1 : (2 : ℝ) ^ (-149 : ℤ) = 1 / 8 * 2 ^ (-146 : ℤ) := by rw [show (-149 : ℤ) = -146 + (-3) by norm_num, zpow_add₀ (by norm_num)]; norm_num
  have k0 : (0 : ℝ) < 2 ^ (-146 : ℤ) := by positivity
  have k2 : (2 : ℝ) ^ (-146 : ℤ) ≤ 1 := by
    have := zpow_le_zpow_right₀ (by norm_num : (1 : ℝ) ≤ 2) (by norm_num : (-146 : ℤ) ≤ 0)
    simpa using this
  have c1 : (2 : ℝ) ^ (-24 : ℤ) = 1 / 16777216 := by norm_num
  have c2 : (2 : ℝ) ^ (-21 : ℤ) = 1 / 2097152 := by norm_num
  rw [c1] at u
  rw [k1] at hs
  rw [c2]
  generalize (2 : ℝ) ^ (-146 : ℤ) = z at *
  have big : (2 : ℝ) ^ 100 * 8 + 8 ≤ 2 ^ 120 := by norm_num
  have err : ∀ x B : ℝ, |x| ≤ B → |fp32.rnd x - x| ≤ 1 / 16777216 * B + 1 / 8 * z := by
    intro x B hx
    have := fp32.err x
    rw [u] at this
    linarith
  have ab : ∀ {x y B C : ℝ}, |x - y| ≤ B → |y| ≤ C → |x| ≤ B + C := by
    intro x y B C hx hy
    calc |x| = |(x - y) + y| := by ring_nf
      _ ≤ |x - y| + |y| := abs_add_le _ _
      _ ≤ _ := add_le_add hx hy
  have a1 : |v0 + v1| ≤ 2 * R := (abs_add_le _ _).trans (by linarith)
  have e1 := err _ _ a1
  have f1 : (fin v0 + fin v1 : Fl fp32) = fin (fp32.rnd (v0 + v1)) := Mixing.round_fin (by linarith)
  have b1 := ab e1 a1
  set s := fp32.rnd (v0 + v1)
  have a2 : |1/2 * s| ≤ 1/2 * (1 / 16777216 * (2 * R) + 1 / 8 * z + 2 * R) := by
    rw [abs_mul, abs_of_pos (by norm_num : (0 : ℝ) < 1/2)]
    linarith
  have e2 := err _ _ a2
  have f2 : (fin (1/2) * fin s : Fl fp32) = fin (fp32.rnd (1/2 * s)) := Mixing.round_fin (by linarith)
  have b2 := ab e2 a2
  set h := fp32.rnd (1/2 * s)
  have a3 : |h * d| ≤ |h| := by
    rw [abs_mul, abs_of_nonneg hd0]
    exact mul_le_of_le_one_right (abs_nonneg _) hd1
  have a3' := a3.trans b2
  have e3 := err _ _ a3'
  have f3 : (fin h * fin d : Fl fp32) = fin (fp32.rnd (h * d)) := Mixing.round_fin (by linarith)
  have b3 := ab e3 a3'
  set m := fp32.rnd (h * d)
  have a4 : |p + m| ≤ _ := (abs_add_le p m).trans (add_le_add hp b3)
  have e4 := err _ _ a4
  have f4 : (fin p + fin m : Fl fp32) = fin (fp32.rnd (p + m)) := Mixing.round_fin (by linarith)
  refine ⟨fp32.rnd (p + m), by rw [half_lit, f1, f2, f3, f4], ?_⟩
  have t1 : |(h - 1/2 * s) * d| ≤ |h - 1/2 * s| := by
    rw [abs_mul, abs_of_nonneg hd0]
    exact mul_le_of_le_one_right (abs_nonneg _) hd1
  have t2 : |1/2 * (s - (v0 + v1)) * d| ≤ 1/2 * |s - (v0 + v1)| := by
    rw [abs_mul, abs_of_nonneg hd0, abs_mul, abs_of_pos (by norm_num : (0 : ℝ) < 1/2)]
    exact mul_le_of_le_one_right (by positivity) hd1
  have tri : |fp32.rnd (p + m) - (p + (v0 + v1) / 2 * d)| ≤ |fp32.rnd (p + m) - (p + m)| + |m - h * d| + |(h - 1/2 * s) * d| + |1/2 * (s - (v0 + v1)) * d| := by
    calc _ = |(fp32.rnd (p + m) - (p + m)) + (m - h * d) + (h - 1/2 * s) * d + 1/2 * (s - (v0 + v1)) * d| := by ring_nf
      _ ≤ |(fp32.rnd (p + m) - (p + m)) + (m - h * d) + (h - 1/2 * s) * d| + |1/2 * (s - (v0 + v1)) * d| := abs_add_le _ _
      _ ≤ |(fp32.rnd (p + m) - (p + m)) + (m - h * d)| + |(h - 1/2 * s) * d| + |1/2 * (s - (v0 + v1)) * d| := add_le_add (abs_add_le _ _) le_rfl
      _ ≤ _ := add_le_add (add_le_add (abs_add_le _ _) le_rfl) le_rfl
  linarith

/-- The number that a finite value is. -/
noncomputable def num : Fl fp32 → ℝ
  | fin x => x
  | _ => 0

section queue
variable {T : Type} [TimeOps T] [FlLib fp32] [TimeCast T (Fl fp32)]

/-- The way along one axis according to the velocities of the items. -/
noncomputable def travel (c : Vec3 (Fl fp32) → Fl fp32) : List (PropItem (Fl fp32) T) → ℝ
  | a :: b :: rest => (num (c a.st.v) + num (c b.st.v)) / 2 * num (Reckon.gap (sample a) (sample b)) + travel c (b :: rest)
  | _ => 0

/-- Along one axis the positions and velocities of the items are finite and at most `R`, and the samples are at most a second apart. -/
def Within (c : Vec3 (Fl fp32) → Fl fp32) (R : ℝ) : List (PropItem (Fl fp32) T) → Prop
  | [] => True
  | a :: rest => (∃ p v, c a.st.p = fin p ∧ c a.st.v = fin v ∧ |p| ≤ R ∧ |v| ≤ R) ∧
    (∀ b, rest.head? = some b → ∃ d, (Reckon.gap (sample a) (sample b) : Fl fp32) = fin d ∧ 0 ≤ d ∧ d ≤ 1) ∧ Within c R rest

/-- C139, what holds: along every axis the newest position of the queue is the first one plus the way according to the velocities, up to `2^-21 R` for every sample, where `R` bounds positions and velocities.
Missing: that a motion is not lost, which is false (`C139_stalls`). -/
theorem C139_partial (c : Vec3 (Fl fp32) → Fl fp32) (hc : c = Vec3.x ∨ c = Vec3.y ∨ c = Vec3.z) (g ba bg : Vec3 (Fl fp32)) (R : ℝ) (hR : R ≤ 2 ^ 100) (rest : List (PropItem (Fl fp32) T)) :
    ∀ i z, Reckon.Chained g ba bg (i :: rest) → Within c R (i :: rest) → (i :: rest).getLast? = some z →
      |num (c z.st.p) - (num (c i.st.p) + travel c (i :: rest))| ≤ rest.length * (2 ^ (-21 : ℤ) * R + 2 ^ (-146 : ℤ)) := by
  induction rest with
  | nil =>
    intro i z _ _ hz
    simp only [List.getLast?_singleton, Option.some.injEq] at hz
    subst hz
    simp [travel]
  | cons b rest ih =>
    intro i z hch hw hz
    rw [List.getLast?_cons_cons] at hz
    obtain ⟨h1, h2⟩ := hch
    obtain ⟨⟨p, v, ep, ev, hp, hv⟩, hd, hw'⟩ := hw
    obtain ⟨d, ed, hd0, hd1⟩ := hd b rfl
    have hb := hw'
    obtain ⟨⟨p1, v1, ep1, ev1, hp1, hv1⟩, -, -⟩ := hb
    have key := ih b z h2 hw' hz
    have hstep : c b.st.p = c i.st.p + lit (1/2) * (c i.st.v + c b.st.v) * Reckon.gap (sample i) (sample b) := by
      rw [h1]
      rcases hc with rfl | rfl | rfl <;> rfl
    rw [ep, ev, ev1, ed, ep1] at hstep
    obtain ⟨p2, e2, herr⟩ := step_error hp hv hv1 hd0 hd1 hR
    rw [e2, Fl.fin.injEq] at hstep
    subst hstep
    have et : travel c (i :: b :: rest) = (v + v1) / 2 * d + travel c (b :: rest) := by
      show (num (c i.st.v) + num (c b.st.v)) / 2 * num (Reckon.gap (sample i) (sample b)) + _ = _
      rw [ev, ev1, ed]
      rfl
    rw [et, ep]
    rw [ep1] at key
    change |num (c z.st.p) - (p1 + travel c (b :: rest))| ≤ _ at key
    show |num (c z.st.p) - (p + ((v + v1) / 2 * d + travel c (b :: rest)))| ≤ _
    have tri : |num (c z.st.p) - (p + ((v + v1) / 2 * d + travel c (b :: rest)))| ≤ |num (c z.st.p) - (p1 + travel c (b :: rest))| + |p1 - (p + (v + v1) / 2 * d)| := by
      calc _ = |(num (c z.st.p) - (p1 + travel c (b :: rest))) + (p1 - (p + (v + v1) / 2 * d))| := by ring_nf
        _ ≤ _ := abs_add_le _ _
    have el : ((b :: rest).length : ℝ) = rest.length + 1 := by simp
    rw [el, add_mul, one_mul]
    exact tri.trans (add_le_add key herr)

/-- C139, in every history: the same of the newest and the oldest state of the queue after every defined history of calls of a backend that starts with an empty queue. -/
theorem C139_histories_partial (c : Vec3 (Fl fp32) → Fl fp32) (hc : c = Vec3.x ∨ c = Vec3.y ∨ c = Vec3.z) (R : ℝ) (hR : R ≤ 2 ^ 100) (p p' : BProc (Fl fp32) T) (ops : List (BOp (Fl fp32) T))
    (outs : List (BOut (Fl fp32) T)) (hq : p.b.u.q.items = []) (h : p.run ops = .ok (p', outs)) (hw : Within c R p'.b.u.q.items) (i z : PropItem (Fl fp32) T)
    (hi : p'.b.u.q.items.head? = some i) (hz : p'.b.u.q.items.getLast? = some z) :
    |num (c z.st.p) - (num (c i.st.p) + travel c p'.b.u.q.items)| ≤ (p'.b.u.q.items.length - 1) * (2 ^ (-21 : ℤ) * R + 2 ^ (-146 : ℤ)) := by
  obtain ⟨hg, hch⟩ := Reckon.run_ok ops p p' outs (by unfold Reckon.Ok; rw [hq]; trivial) h
  unfold Reckon.Ok at hch
  cases hl : p'.b.u.q.items with
  | nil => rw [hl] at hi; cases hi
  | cons j rest =>
    rw [hl] at hi hz hw hch
    simp only [List.head?_cons, Option.some.injEq] at hi
    subst hi
    have := C139_partial c hc _ _ _ R hR rest j z hch hw hz
    have el : ((j :: rest).length : ℝ) - 1 = rest.length := by simp
    rw [el]
    exact this

end queue

/-- An item at rest, a kilometre from the origin, at time zero. -/
noncomputable def resting : PropItem (Fl fp32) Stamp := ⟨⟨⟨fin 1000, 0, 0⟩, 0, .one⟩, .zero 15 15, .zero 15 12, 0, 0, ⟨0⟩⟩

/-- The hypotheses of `C139_partial` are met by this item and its copy, in free fall. -/
theorem resting_meets [FlLib fp32] [FlWiden fp32 fp64.rounding] : Reckon.Chained 0 0 0 [resting, resting] ∧ Within Vec3.x 1000 [resting, resting] := by
  have r0 : (Fl.round 0 : Fl fp32) = 0 := round_zero'
  have r1 : (Fl.round 1 : Fl fp32) = 1 := by rw [(Mixing.round_unit zero_le_one le_rfl).1, Mixing.fp32_one]; rfl
  have a1 : (0 + 0 : Fl fp32) = 0 := by show Fl.round (0 + 0) = _; rw [add_zero, r0]
  have a2 : (1 + 0 : Fl fp32) = 1 := by show Fl.round (1 + 0) = _; rw [add_zero, r1]
  have s1 : (0 - 0 : Fl fp32) = 0 := by show Fl.round (0 + -0) = _; rw [neg_zero, add_zero, r0]
  have s2 : (1 - 0 : Fl fp32) = 1 := by show Fl.round (1 + -0) = _; rw [neg_zero, add_zero, r1]
  have m1 : (0 * 0 : Fl fp32) = 0 := by show Fl.round (0 * 0) = _; rw [mul_zero, r0]
  have m2 : (1 * 0 : Fl fp32) = 0 := by show Fl.round (1 * 0) = _; rw [mul_zero, r0]
  have m3 : (0 * 1 : Fl fp32) = 0 := by show Fl.round (0 * 1) = _; rw [zero_mul, r0]
  have m4 : (1 * 1 : Fl fp32) = 1 := by show Fl.round (1 * 1) = _; rw [one_mul, r1]
  have m5 : (lit (1/2) * 0 : Fl fp32) = 0 := by rw [half_lit]; show Fl.round (1/2 * 0) = _; rw [mul_zero, r0]
  have d1 : (0 / 1 : Fl fp32) = 0 := by show Fl.div (fin 0) (fin 1) = _; simp [Fl.div, r0]
  have d2 : (1 / 1 : Fl fp32) = 1 := by show Fl.div (fin 1) (fin 1) = _; simp [Fl.div, r1]
  have d3 : (0 / lit 2 : Fl fp32) = 0 := by
    have two : fp32.rnd 2 = 2 := by
      have := rndBits_of_mul (p := 24) (emin := -126) (k := 1) (n := 1) (P := 1) (by norm_num) (by norm_num) (by norm_num) (by norm_num)
      norm_num at this
      exact this
    have e : (lit 2 : Fl fp32) = fin 2 := by
      show Fl.round (((2 : ℚ)) : ℝ) = _
      rw [Rat.cast_ofNat, Mixing.round_fin (by norm_num), two]
    rw [e]
    show Fl.div (fin 0) (fin 2) = _
    simp [Fl.div, r0]
  have q1 : (ScalarFn.sqrt 1 : Fl fp32) = 1 := by show Fl.sqrt (fin 1) = _; simp [Fl.sqrt, r1]
  have l1 : ScalarFn.lt (0 : Fl fp32) 1 = true := by show decide ((0 : ℝ) < 1) = true; simp
  have big : (fin 1000 + 0 : Fl fp32) = fin 1000 := by
    have h : fp32.rnd 1000 = 1000 := by
      have := rndBits_of_mul (p := 24) (emin := -126) (k := 0) (n := 1000) (P := 10) (by decide) (by norm_num) (by norm_num) (by norm_num)
      norm_num at this
      exact this
    show Fl.round (1000 + 0) = _
    rw [add_zero, Mixing.round_fin (by norm_num), h]
  have hg : (Reckon.gap (sample resting) (sample resting) : Fl fp32) = 0 := by
    show Fl.round (fp64.rnd (0 - 0)) = _
    rw [sub_zero, fp64.zero, r0]
  refine ⟨⟨?_, trivial⟩, ⟨1000, 0, rfl, rfl, by norm_num, by norm_num⟩, ?_, ⟨1000, 0, rfl, rfl, by norm_num, by norm_num⟩, ?_, trivial⟩
  · unfold Reckon.step
    dsimp only
    rw [hg]
    have z3 : (0 : Vec3 (Fl fp32)) = ⟨0, 0, 0⟩ := rfl
    have ad : ∀ a b c d e f : Fl fp32, (⟨a, b, c⟩ + ⟨d, e, f⟩ : Vec3 (Fl fp32)) = ⟨a + d, b + e, c + f⟩ := fun _ _ _ _ _ _ => rfl
    have sb : ∀ a b c d e f : Fl fp32, (⟨a, b, c⟩ - ⟨d, e, f⟩ : Vec3 (Fl fp32)) = ⟨a - d, b - e, c - f⟩ := fun _ _ _ _ _ _ => rfl
    have dq : Utility.deltaQ (⟨0, 0, 0⟩ : Vec3 (Fl fp32)) = .one := by
      show (⟨1, 0 / lit 2, 0 / lit 2, 0 / lit 2⟩ : Quat (Fl fp32)) = _
      rw [d3]; rfl
    have mm : (Quat.one : Quat (Fl fp32)).mul .one = .one := by
      simp only [Quat.mul, Quat.one, m1, m2, m3, m4, s1, s2, a1]
    have nn : (Quat.one : Quat (Fl fp32)).normalized = .one := by
      simp only [Quat.normalized, Quat.sqNorm, Quat.one, m1, m4, a2, l1, q1, d1, d2, if_true]
    have rr : (Quat.one : Quat (Fl fp32)).rotate ⟨0, 0, 0⟩ = ⟨0, 0, 0⟩ := by
      simp only [Quat.rotate, Quat.vec, Quat.one, Vec3.cross, Vec3.smul, ad, m1, m2, s1, a1]
    simp only [sample, resting, z3, Reckon.half, Reckon.during, ad, sb, a1, s1, m1, m5, dq, mm, nn, rr, big]
  · rintro b hb
    simp only [List.head?_cons, Option.some.injEq] at hb
    subst hb
    exact ⟨0, hg, le_rfl, zero_le_one⟩
  · rintro b hb
    cases hb

/-! ### Which motions are lost -/

theorem abs_rne_sub_le (x : ℝ) : |((rne x : ℤ) : ℝ) - x| ≤ 1 / 2 := by
  have hf := Int.floor_add_fract x
  have h0 := Int.fract_nonneg x
  have h1 := Int.fract_lt_one x
  rw [abs_le]
  rcases rne_cases x with ⟨e, h⟩ | ⟨e, h⟩ <;> rw [e] <;> push_cast <;> constructor <;> linarith

theorem expo_le_of_lt {emin E : ℤ} {x : ℝ} (h0 : 0 < x) (h : x < 2 ^ (E + 1)) (he : emin ≤ E) : expo emin x ≤ E := by
  refine max_le ?_ he
  rw [abs_of_pos h0]
  have := (Int.lt_zpow_iff_log_lt (b := 2) (by norm_num) h0 (x := E + 1)).1 (by exact_mod_cast h)
  omega

theorem le_expo_of_le {emin E : ℤ} {x : ℝ} (h0 : 0 < x) (h : 2 ^ E ≤ x) : E ≤ expo emin x := by
  refine le_trans ?_ (le_max_left _ _)
  rw [abs_of_pos h0]
  exact (Int.zpow_le_iff_le_log (b := 2) (by norm_num) h0).1 (by exact_mod_cast h)

/-- An increment of less than 2^-26 of a single precision number is lost. -/
theorem lost_pos {p m : ℝ} (hp : fp32.rnd p = p) (h0 : (2 : ℝ) ^ (-100 : ℤ) ≤ p) (hm : |m| ≤ 2 ^ (-26 : ℤ) * p) : fp32.rnd (p + m) = p := by
  have hp0 : 0 < p := lt_of_lt_of_le (by positivity) h0
  obtain ⟨n, hn⟩ := shape (p := 24) (emin := -126) hp
  have hE : -100 ≤ expo (-126) p := le_expo_of_le hp0 h0
  have hlt := lt_expo (-126) hp0.le
  have hge := expo_le hp0 (by omega : -126 < expo (-126) p)
  generalize expo (-126) p = E at *
  have e1 : (2 : ℝ) ^ (E + 1) = 2 ^ 24 * 2 ^ (E - (24 - 1)) := by
    rw [← zpow_natCast, ← zpow_add₀ two_ne_zero]; congr 1; push_cast; ring
  have e2 : (2 : ℝ) ^ E = 2 ^ 23 * 2 ^ (E - (24 - 1)) := by
    rw [← zpow_natCast, ← zpow_add₀ two_ne_zero]; congr 1; push_cast; ring
  have e3 : (2 : ℝ) ^ (E - 1) = 2 ^ 22 * 2 ^ (E - (24 - 1)) := by
    rw [← zpow_natCast, ← zpow_add₀ two_ne_zero]; congr 1; push_cast; ring
  have e4 : (2 : ℝ) ^ (E - 1 - (24 - 1)) = 1/2 * 2 ^ (E - (24 - 1)) := by
    rw [show E - 1 - (24 - 1) = -1 + (E - (24 - 1)) by ring, zpow_add₀ two_ne_zero]; norm_num
  have c26 : (2 : ℝ) ^ (-26 : ℤ) = 1 / 67108864 := by norm_num
  rw [c26] at hm
  have hw : (0 : ℝ) < 2 ^ (E - (24 - 1)) := by positivity
  obtain ⟨w, hw'⟩ : ∃ w, (2 : ℝ) ^ (E - (24 - 1)) = w := ⟨_, rfl⟩
  rw [hw'] at e1 e2 e3 e4 hw hn
  have hn24 : n ≤ 2 ^ 24 - 1 := by
    have : (n : ℝ) * w < 2 ^ 24 * w := by rw [← e1, ← hn]; exact hlt
    have := lt_of_mul_lt_mul_right this hw.le
    have : n < 2 ^ 24 := by exact_mod_cast this
    omega
  have hnr : p ≤ (2 ^ 24 - 1) * w := by
    rw [hn]
    exact mul_le_mul_of_nonneg_right (by exact_mod_cast hn24) hw.le
  obtain ⟨m1, m2⟩ := abs_le.1 hm
  have x0 : 0 < p + m := by linarith
  have xl : p + m < 2 ^ (E + 1) := by rw [e1]; norm_num at hnr ⊢; linarith
  have xg : 2 ^ (E - 1) ≤ p + m := by
    rw [e3]
    rw [e2] at hge
    norm_num at hge ⊢
    linarith
  have k1 : expo (-126) (p + m) ≤ E := expo_le_of_lt x0 xl (by omega)
  have k2 : E - 1 ≤ expo (-126) (p + m) := le_expo_of_le x0 xg
  have key : ∀ (N : ℤ) (v : ℝ), 0 < v → p = N * v → w ≤ 2 * v → ((rne ((p + m) / v) : ℤ) : ℝ) * v = p := by
    intro N v hv hN hwv
    have hmv : |m / v| < 1/2 := by
      rw [abs_div, abs_of_pos hv, div_lt_iff₀ hv]
      norm_num at hnr
      linarith
    have ed : (p + m) / v = N + m / v := by rw [hN]; field_simp
    have hr := abs_rne_sub_le ((p + m) / v)
    have : rne ((p + m) / v) = N := by
      have h1 : |((rne ((p + m) / v) : ℤ) : ℝ) - N| < 1 := by
        calc _ = |(((rne ((p + m) / v) : ℤ) : ℝ) - (p + m) / v) + m / v| := by rw [ed]; ring_nf
          _ ≤ |((rne ((p + m) / v) : ℤ) : ℝ) - (p + m) / v| + |m / v| := abs_add_le _ _
          _ < _ := by linarith
      have h2 : |rne ((p + m) / v) - N| < 1 := by exact_mod_cast h1
      have := Int.abs_lt_one_iff.1 h2
      omega
    rw [this, hN]
  show rndBits 24 (-126) (p + m) = p
  unfold rndBits
  rcases (by omega : expo (-126) (p + m) = E ∨ expo (-126) (p + m) = E - 1) with h | h
  · rw [h, hw']
    exact key n w hw hn (by linarith)
  · rw [h, e4]
    exact key (2 * n) (1/2 * w) (by linarith) (by rw [hn]; push_cast; ring) (by linarith)
theorem rnd_neg32 (x : ℝ) : fp32.rnd (-x) = -fp32.rnd x := rndBits_neg 24 (-126) x

theorem lost {p m : ℝ} (hp : fp32.rnd p = p) (h0 : (2 : ℝ) ^ (-100 : ℤ) ≤ |p|) (hm : |m| ≤ 2 ^ (-26 : ℤ) * |p|) : fp32.rnd (p + m) = p := by
  rcases le_total 0 p with h | h
  · rw [abs_of_nonneg h] at h0 hm
    exact lost_pos hp h0 hm
  · rw [abs_of_nonpos h] at h0 hm
    have := lost_pos (p := -p) (m := -m) (by rw [rnd_neg32, hp]) h0 (by rwa [abs_neg])
    rw [← neg_add, rnd_neg32] at this
    linarith

theorem step_lost [FlLib fp32] {p v0 v1 d V : ℝ} (hp : fp32.rnd p = p) (hl : (2 : ℝ) ^ (-100 : ℤ) ≤ |p|) (hu : |p| ≤ 2 ^ 100) (h0 : |v0| ≤ V) (h1 : |v1| ≤ V) (hV : V ≤ 2 ^ 100)
    (hd0 : 0 ≤ d) (hd1 : d ≤ 1) (hs : V * d ≤ 2 ^ (-27 : ℤ) * |p|) : (fin p + lit (1/2) * (fin v0 + fin v1) * fin d : Fl fp32) = fin p := by
  have hV0 : 0 ≤ V := (abs_nonneg v0).trans h0
  have u := Mixing.u32
  have hsm := Mixing.small
  have k1 : (2 : ℝ) ^ (-149 : ℤ) = 1 / 562949953421312 * 2 ^ (-100 : ℤ) := by rw [show (-149 : ℤ) = -100 + (-49) by norm_num, zpow_add₀ (by norm_num)]; norm_num
  have k0 : (0 : ℝ) < 2 ^ (-100 : ℤ) := by positivity
  have k2 : (2 : ℝ) ^ (-100 : ℤ) ≤ 1 := by
    have := zpow_le_zpow_right₀ (by norm_num : (1 : ℝ) ≤ 2) (by norm_num : (-100 : ℤ) ≤ 0)
    simpa using this
  have c1 : (2 : ℝ) ^ (-24 : ℤ) = 1 / 16777216 := by norm_num
  have c2 : (2 : ℝ) ^ (-27 : ℤ) = 1 / 134217728 := by norm_num
  have c3 : (2 : ℝ) ^ (-26 : ℤ) = 1 / 67108864 := by norm_num
  have main := fun m => lost (m := m) hp hl
  rw [c1] at u
  rw [k1] at hsm
  rw [c2] at hs
  rw [c3] at main
  generalize (2 : ℝ) ^ (-100 : ℤ) = z at *
  have big : (2 : ℝ) ^ 100 * 8 + 8 ≤ 2 ^ 120 := by norm_num
  have bd : ∀ x B : ℝ, |x| ≤ B → |fp32.rnd x| ≤ (1 + 1 / 16777216) * B + 1 / 562949953421312 * z := by
    intro x B hx
    have := fp32.err x
    rw [u] at this
    have t : |fp32.rnd x| ≤ |fp32.rnd x - x| + |x| := by
      calc _ = |(fp32.rnd x - x) + x| := by ring_nf
        _ ≤ _ := abs_add_le _ _
    linarith
  have a1 : |v0 + v1| ≤ 2 * V := (abs_add_le _ _).trans (by linarith)
  have f1 : (fin v0 + fin v1 : Fl fp32) = fin (fp32.rnd (v0 + v1)) := Mixing.round_fin (by linarith)
  have b1 := bd _ _ a1
  set s := fp32.rnd (v0 + v1)
  have a2 : |1/2 * s| ≤ 1/2 * ((1 + 1 / 16777216) * (2 * V) + 1 / 562949953421312 * z) := by
    rw [abs_mul, abs_of_pos (by norm_num : (0 : ℝ) < 1/2)]
    linarith
  have f2 : (fin (1/2) * fin s : Fl fp32) = fin (fp32.rnd (1/2 * s)) := Mixing.round_fin (by linarith)
  have b2 := bd _ _ a2
  set h := fp32.rnd (1/2 * s)
  have b2' : |h| ≤ (1 + 1/4194304) * V + 1 / 281474976710656 * z := by linarith
  have a3 : |h * d| ≤ (1 + 1/4194304) * (V * d) + 1 / 281474976710656 * z := by
    rw [abs_mul, abs_of_nonneg hd0]
    have := mul_le_mul_of_nonneg_right b2' hd0
    have : z * d ≤ z := mul_le_of_le_one_right k0.le hd1
    linarith
  have f3 : (fin h * fin d : Fl fp32) = fin (fp32.rnd (h * d)) := Mixing.round_fin (by linarith)
  have b3 := bd _ _ a3
  set m := fp32.rnd (h * d)
  have a4 : |p + m| ≤ |p| + |m| := abs_add_le p m
  have f4 : (fin p + fin m : Fl fp32) = fin (fp32.rnd (p + m)) := Mixing.round_fin (by linarith)
  rw [half_lit, f1, f2, f3, f4, main m (by linarith)]

section queue
variable {T : Type} [TimeOps T] [FlLib fp32] [TimeCast T (Fl fp32)]

/-- Along one axis the items are at most as fast as `V`, and they are at most `D ≤ 1` seconds apart. -/
def Slow (c : Vec3 (Fl fp32) → Fl fp32) (V D : ℝ) : List (PropItem (Fl fp32) T) → Prop
  | [] => True
  | a :: rest => (∃ v, c a.st.v = fin v ∧ |v| ≤ V) ∧
    (∀ b, rest.head? = some b → ∃ d, (Reckon.gap (sample a) (sample b) : Fl fp32) = fin d ∧ 0 ≤ d ∧ d ≤ D) ∧ Slow c V D rest

/-- C139, which motions are lost: if along an axis the way of each sample is at most `2^-27` of the distance from the origin, every item of the queue has the position of the first, whatever the number of samples. -/
theorem C139_lost (c : Vec3 (Fl fp32) → Fl fp32) (hc : c = Vec3.x ∨ c = Vec3.y ∨ c = Vec3.z) (g ba bg : Vec3 (Fl fp32)) (p V D : ℝ) (hp : fp32.rnd p = p) (hl : (2 : ℝ) ^ (-100 : ℤ) ≤ |p|)
    (hu : |p| ≤ 2 ^ 100) (hV : V ≤ 2 ^ 100) (hD : D ≤ 1) (hs : V * D ≤ 2 ^ (-27 : ℤ) * |p|) (rest : List (PropItem (Fl fp32) T)) :
    ∀ i, Reckon.Chained g ba bg (i :: rest) → Slow c V D (i :: rest) → c i.st.p = fin p → ∀ z ∈ i :: rest, c z.st.p = fin p := by
  induction rest with
  | nil =>
    intro i _ _ hi z hz
    rw [List.mem_singleton.1 hz, hi]
  | cons b rest ih =>
    intro i hch hw hi z hz
    obtain ⟨h1, h2⟩ := hch
    obtain ⟨⟨v, ev, hv⟩, hd, hw'⟩ := hw
    obtain ⟨d, ed, hd0, hd1⟩ := hd b rfl
    have hb := hw'
    obtain ⟨⟨v1, ev1, hv1⟩, -, -⟩ := hb
    have hstep : c b.st.p = c i.st.p + lit (1/2) * (c i.st.v + c b.st.v) * Reckon.gap (sample i) (sample b) := by
      rw [h1]
      rcases hc with rfl | rfl | rfl <;> rfl
    rw [hi, ev, ev1, ed, step_lost hp hl hu hv hv1 hV hd0 (hd1.trans hD) ((mul_le_mul_of_nonneg_left hd1 ((abs_nonneg v).trans hv)).trans hs)] at hstep
    rcases List.mem_cons.1 hz with rfl | hz
    · exact hi
    · exact ih b h2 hw' hstep z hz

/-- C139, which motions are lost, in every history: the same of the queue after every defined history of calls of a backend that starts with an empty queue. -/
theorem C139_lost_histories (c : Vec3 (Fl fp32) → Fl fp32) (hc : c = Vec3.x ∨ c = Vec3.y ∨ c = Vec3.z) (x V D : ℝ) (hx : fp32.rnd x = x) (hl : (2 : ℝ) ^ (-100 : ℤ) ≤ |x|)
    (hu : |x| ≤ 2 ^ 100) (hV : V ≤ 2 ^ 100) (hD : D ≤ 1) (hs : V * D ≤ 2 ^ (-27 : ℤ) * |x|) (p p' : BProc (Fl fp32) T) (ops : List (BOp (Fl fp32) T))
    (outs : List (BOut (Fl fp32) T)) (hq : p.b.u.q.items = []) (h : p.run ops = .ok (p', outs)) (hw : Slow c V D p'.b.u.q.items) (i : PropItem (Fl fp32) T)
    (hi : p'.b.u.q.items.head? = some i) (hix : c i.st.p = fin x) : ∀ z ∈ p'.b.u.q.items, c z.st.p = fin x := by
  obtain ⟨hg, hch⟩ := Reckon.run_ok ops p p' outs (by unfold Reckon.Ok; rw [hq]; trivial) h
  unfold Reckon.Ok at hch
  cases hq' : p'.b.u.q.items with
  | nil => rw [hq'] at hi; cases hi
  | cons j rest =>
    rw [hq'] at hi hw hch
    simp only [List.head?_cons, Option.some.injEq] at hi
    subst hi
    exact C139_lost c hc _ _ _ x V D hx hl hu hV hD hs rest j hch hw hix

end queue

/-- The numeric hypotheses of `C139_lost` are met a kilometre from the origin at one millimetre a second and samples 1/200 s apart. -/
example : fp32.rnd 1000 = 1000 ∧ (2 : ℝ) ^ (-100 : ℤ) ≤ |1000| ∧ |(1000 : ℝ)| ≤ 2 ^ 100 ∧ (1/1000 : ℝ) * (1/200) ≤ 2 ^ (-27 : ℤ) * |1000| := by
  refine ⟨?_, ?_, ?_, ?_⟩
  · have := rndBits_of_mul (p := 24) (emin := -126) (k := 0) (n := 1000) (P := 10) (by decide) (by norm_num) (by norm_num) (by norm_num)
    norm_num at this
    exact this
  · have := zpow_le_zpow_right₀ (by norm_num : (1 : ℝ) ≤ 2) (by norm_num : (-100 : ℤ) ≤ 0)
    rw [zpow_zero] at this
    exact this.trans (by norm_num)
  · norm_num
  · norm_num

/-- The other hypotheses are met by the item of `resting_meets` and its copy. -/
example [FlLib fp32] [FlWiden fp32 fp64.rounding] : Reckon.Chained 0 0 0 [resting, resting] ∧ Slow Vec3.x (1/1000) (1/200) [resting, resting] ∧ resting.st.p.x = fin 1000 := by
  have hg : (Reckon.gap (sample resting) (sample resting) : Fl fp32) = fin 0 := by
    show Fl.round (fp64.rnd (0 - 0)) = _
    rw [sub_zero, fp64.zero]
    exact round_zero'
  refine ⟨resting_meets.1, ⟨⟨0, rfl, by norm_num⟩, ?_, ⟨0, rfl, by norm_num⟩, ?_, trivial⟩, rfl⟩
  · rintro b hb
    simp only [List.head?_cons, Option.some.injEq] at hb
    subst hb
    exact ⟨0, hg, le_rfl, by norm_num⟩
  · rintro b hb
    cases hb

end Stall
end Vio

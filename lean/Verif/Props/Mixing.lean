/-
C138: the interpolated IMU sample under rounding.
-/
import Verif.Props.Clock
import Verif.Lemmas.Loader

set_option linter.unusedSectionVars false

namespace Vio
open Fl Clock Loader

namespace Mixing

theorem fp64_one : fp64.rnd 1 = 1 := by
  have := rndBits_of_mul (p := 53) (emin := -1022) (k := 0) (n := 1) (P := 1) (by norm_num) (by norm_num) (by norm_num) (by norm_num)
  simp only [Int.cast_one, zpow_zero, mul_one] at this
  exact this

theorem fp32_one : fp32.rnd 1 = 1 := by
  have := rndBits_of_mul (p := 24) (emin := -126) (k := 0) (n := 1) (P := 1) (by norm_num) (by norm_num) (by norm_num) (by norm_num)
  simp only [Int.cast_one, zpow_zero, mul_one] at this
  exact this

/-- The difference of two different doubles does not round to zero. -/
theorem sub_pos_double {x y : ℝ} (hx : fp64.rnd x = x) (hy : fp64.rnd y = y) (h : y < x) : 0 < fp64.rnd (x - y) := by
  obtain ⟨n, hn⟩ := shape (p := 53) (emin := -1022) hx
  obtain ⟨k, hk⟩ := shape (p := 53) (emin := -1022) hy
  have e : ∀ z : ℝ, ∃ j : ℕ, (2 : ℝ) ^ (expo (-1022) z - (53 - 1)) = ((2 ^ j : ℤ) : ℝ) * 2 ^ (-1074 : ℤ) := by
    intro z
    have hm : -1022 ≤ expo (-1022) z := le_max_right _ _
    refine ⟨(expo (-1022) z + 1022).toNat, ?_⟩
    push_cast
    rw [← zpow_natCast, Int.toNat_of_nonneg (by omega), ← zpow_add₀ two_ne_zero]
    congr 1
    ring
  obtain ⟨i, hi⟩ := e x
  obtain ⟨j, hj⟩ := e y
  rw [hi] at hn
  rw [hj] at hk
  have hd : x - y = ((n * 2 ^ i - k * 2 ^ j : ℤ) : ℝ) * 2 ^ (-1074 : ℤ) := by
    rw [hn, hk]
    push_cast
    ring
  have hpos : (0 : ℝ) < 2 ^ (-1074 : ℤ) := by positivity
  have h1 : 1 ≤ n * 2 ^ i - k * 2 ^ j := by
    by_contra hc
    have : ((n * 2 ^ i - k * 2 ^ j : ℤ) : ℝ) ≤ 0 := by exact_mod_cast (by omega : n * 2 ^ i - k * 2 ^ j ≤ 0)
    have := mul_nonpos_of_nonpos_of_nonneg this hpos.le
    rw [← hd] at this
    linarith
  have h2 : (2 : ℝ) ^ (-1074 : ℤ) ≤ x - y := by
    rw [hd]
    exact le_mul_of_one_le_left hpos.le (by exact_mod_cast h1)
  have h3 := fp64.mono h2
  have h4 : fp64.rnd (2 ^ (-1074 : ℤ)) = 2 ^ (-1074 : ℤ) := by
    have := rndBits_of_mul (p := 53) (emin := -1022) (k := -1074) (n := 1) (P := 53) (by decide) (by norm_num) (by norm_num) (by norm_num)
    simp only [Int.cast_one, one_mul] at this
    exact this
  rw [h4] at h3
  linarith

/-- A number between zero and one is rounded to one between zero and one. -/
theorem round_unit {x : ℝ} (h0 : 0 ≤ x) (h1 : x ≤ 1) : (Fl.round x : Fl fp32) = fin (fp32.rnd x) ∧ 0 ≤ fp32.rnd x ∧ fp32.rnd x ≤ 1 := by
  have a := fp32.nonneg x h0
  have b := fp32.mono h1
  rw [fp32_one] at b
  refine ⟨?_, a, b⟩
  unfold Fl.round
  rw [if_pos]
  rw [abs_of_nonneg a]
  linarith [fp32.max_ge]

theorem u32 : fp32.u = 2 ^ (-24 : ℤ) := rfl

theorem small : fp32.eta ≤ 2 ^ (-149 : ℤ) := zpow_le_zpow_right₀ (by norm_num) (by norm_num)

/-- A value `c` mixed from `a` and `b` with weights `ρ'` and `ρ`: within rounding of the exact mixture. -/
def Mixed (ρ' ρ : ℝ) (a b c : Fl fp32) : Prop :=
  ∀ B x y, a = fin x → b = fin y → |x| ≤ B → |y| ≤ B → B ≤ 2 ^ 100 → ∃ v, c = fin v ∧ |v - (ρ' * x + ρ * y)| ≤ 2 ^ (-21 : ℤ) * B + 2 ^ (-146 : ℤ)

theorem round_fin {x : ℝ} (h : |x| ≤ 2 ^ 120) : (Fl.round x : Fl fp32) = fin (fp32.rnd x) := by
  unfold Fl.round
  rw [if_pos]
  have h1 := fp32.err x
  have h2 : |fp32.rnd x| ≤ |fp32.rnd x - x| + |x| := by
    calc |fp32.rnd x| = |(fp32.rnd x - x) + x| := by ring_nf
      _ ≤ _ := abs_add_le _ _
  have hu : fp32.u * |x| ≤ 1 * 2 ^ 120 := mul_le_mul (by linarith [fp32.u_le]) h (abs_nonneg _) (by norm_num)
  have he : fp32.eta ≤ 1 := by linarith [fp32.eta_le, fp32.u_le]
  have hM : fp32.max = (2 - 2 ^ (-23 : ℤ)) * 2 ^ (127 : ℤ) := rfl
  rw [hM]
  have : (2 : ℝ) ^ 120 * 2 + 1 ≤ (2 - 2 ^ (-23 : ℤ)) * 2 ^ (127 : ℤ) := by norm_num
  linarith

theorem mixed {ρ' ρ : ℝ} (h1 : 0 ≤ ρ') (h2 : ρ' ≤ 1) (h3 : 0 ≤ ρ) (h4 : ρ ≤ 1) (a b : Fl fp32) : Mixed ρ' ρ a b (fin ρ' * a + fin ρ * b) := by
  rintro B x y rfl rfl hx hy hB
  have hB0 : 0 ≤ B := (abs_nonneg x).trans hx
  have m1 : |ρ' * x| ≤ B := by rw [abs_mul, abs_of_nonneg h1]; exact (mul_le_of_le_one_left (abs_nonneg _) h2).trans hx
  have m2 : |ρ * y| ≤ B := by rw [abs_mul, abs_of_nonneg h3]; exact (mul_le_of_le_one_left (abs_nonneg _) h4).trans hy
  have big : (2 : ℝ) ^ 100 ≤ 2 ^ 120 := by norm_num
  have e1 : (fin ρ' * fin x : Fl fp32) = fin (fp32.rnd (ρ' * x)) := round_fin (by linarith)
  have e2 : (fin ρ * fin y : Fl fp32) = fin (fp32.rnd (ρ * y)) := round_fin (by linarith)
  have r1 := fp32.err (ρ' * x)
  have r2 := fp32.err (ρ * y)
  have hs := small
  have u0 := fp32.u_nonneg
  have u1 : fp32.u * |ρ' * x| ≤ 2 ^ (-24 : ℤ) * B := by rw [u32]; exact mul_le_mul_of_nonneg_left m1 (by positivity)
  have u2 : fp32.u * |ρ * y| ≤ 2 ^ (-24 : ℤ) * B := by rw [u32]; exact mul_le_mul_of_nonneg_left m2 (by positivity)
  set p := fp32.rnd (ρ' * x)
  set q := fp32.rnd (ρ * y)
  have hpq : |p + q| ≤ 2 * B + (2 * (2 ^ (-24 : ℤ) * B) + 2 * 2 ^ (-149 : ℤ)) := by
    calc |p + q| = |(ρ' * x + ρ * y) + ((p - ρ' * x) + (q - ρ * y))| := by ring_nf
      _ ≤ |ρ' * x + ρ * y| + |(p - ρ' * x) + (q - ρ * y)| := abs_add_le _ _
      _ ≤ (|ρ' * x| + |ρ * y|) + (|p - ρ' * x| + |q - ρ * y|) := add_le_add (abs_add_le _ _) (abs_add_le _ _)
      _ ≤ _ := by linarith
  have k1 : (2 : ℝ) ^ (-149 : ℤ) = 1 / 8 * 2 ^ (-146 : ℤ) := by rw [show (-149 : ℤ) = -146 + (-3) by norm_num, zpow_add₀ (by norm_num)]; norm_num
  have k0 : (0 : ℝ) < 2 ^ (-146 : ℤ) := by positivity
  have k2 : (2 : ℝ) ^ (-146 : ℤ) ≤ 1 := by
    have := zpow_le_zpow_right₀ (by norm_num : (1 : ℝ) ≤ 2) (by norm_num : (-146 : ℤ) ≤ 0)
    simpa using this
  rw [k1] at hs hpq
  generalize (2 : ℝ) ^ (-146 : ℤ) = z at *
  have e3 : (fin p + fin q : Fl fp32) = fin (fp32.rnd (p + q)) := by
    refine round_fin (hpq.trans ?_)
    have : (2 : ℝ) ^ (-24 : ℤ) * B ≤ B := mul_le_of_le_one_left hB0 (by norm_num)
    have : (2 : ℝ) ^ 100 * 4 + 1 ≤ 2 ^ 120 := by norm_num
    linarith
  refine ⟨fp32.rnd (p + q), by rw [e1, e2, e3], ?_⟩
  have r3 := fp32.err (p + q)
  have u3 : fp32.u * |p + q| ≤ 2 ^ (-24 : ℤ) * (2 * B + (2 * (2 ^ (-24 : ℤ) * B) + 2 * (1 / 8 * z))) := by rw [u32]; exact mul_le_mul_of_nonneg_left hpq (by positivity)
  have tri : |fp32.rnd (p + q) - (ρ' * x + ρ * y)| ≤ |fp32.rnd (p + q) - (p + q)| + (|p - ρ' * x| + |q - ρ * y|) := by
    calc |fp32.rnd (p + q) - (ρ' * x + ρ * y)| = |(fp32.rnd (p + q) - (p + q)) + ((p - ρ' * x) + (q - ρ * y))| := by ring_nf
      _ ≤ |fp32.rnd (p + q) - (p + q)| + |(p - ρ' * x) + (q - ρ * y)| := abs_add_le _ _
      _ ≤ _ := add_le_add le_rfl (abs_add_le _ _)
  have c1 : (2 : ℝ) ^ (-24 : ℤ) = 1 / 16777216 := by norm_num
  have c2 : (2 : ℝ) ^ (-21 : ℤ) = 1 / 2097152 := by norm_num
  rw [c1] at u1 u2 u3
  rw [c2]
  linarith

variable [FlLib fp32] [FlWiden fp32 fp64.rounding]

/-- C138: interpolation between two samples at different times under rounding.  The division is by a positive number, both weights lie between zero and one and add up to one within a rounding, and every
component is within a rounding of the exact mixture with these weights: nothing overflows or becomes NaN. -/
theorem C138_interpolate (t : Stamp) (left right : ImuMsg (Fl fp32) Stamp) (hl : left.ts.IsDouble) (hr : right.ts.IsDouble) (h1 : left.ts.val ≤ t.val) (h2 : t.val ≤ right.ts.val)
    (h3 : left.ts.val < right.ts.val) :
    0 < (TimeOps.sub right.ts left.ts).val ∧ ∃ ρ' ρ : ℝ, 0 ≤ ρ' ∧ ρ' ≤ 1 ∧ 0 ≤ ρ ∧ ρ ≤ 1 ∧ |ρ' + ρ - 1| ≤ 2 ^ (-22 : ℤ) ∧
      |ρ - fp64.rnd (fp64.rnd (t.val - left.ts.val) / fp64.rnd (right.ts.val - left.ts.val))| ≤ 2 ^ (-23 : ℤ) ∧
      let mid := interpolate t left right
      mid.ts = t ∧ Mixed ρ' ρ left.gyro.x right.gyro.x mid.gyro.x ∧ Mixed ρ' ρ left.gyro.y right.gyro.y mid.gyro.y ∧ Mixed ρ' ρ left.gyro.z right.gyro.z mid.gyro.z ∧
      Mixed ρ' ρ left.accel.x right.accel.x mid.accel.x ∧ Mixed ρ' ρ left.accel.y right.accel.y mid.accel.y ∧ Mixed ρ' ρ left.accel.z right.accel.z mid.accel.z := by
  have hd : 0 < fp64.rnd (right.ts.val - left.ts.val) := sub_pos_double hr hl h3
  have hn0 : 0 ≤ fp64.rnd (t.val - left.ts.val) := fp64.nonneg _ (by linarith)
  have hn1 : fp64.rnd (t.val - left.ts.val) ≤ fp64.rnd (right.ts.val - left.ts.val) := fp64.mono (by linarith)
  refine ⟨hd, ?_⟩
  obtain ⟨R, hR⟩ : ∃ R, fp64.rnd (fp64.rnd (t.val - left.ts.val) / fp64.rnd (right.ts.val - left.ts.val)) = R := ⟨_, rfl⟩
  have R0 : 0 ≤ R := by rw [← hR]; exact fp64.nonneg _ (div_nonneg hn0 hd.le)
  have R1 : R ≤ 1 := by
    rw [← hR]
    have := fp64.mono ((div_le_one hd).2 hn1)
    rwa [fp64_one] at this
  have S0 : 0 ≤ fp64.rnd (1 - R) := fp64.nonneg _ (by linarith)
  have S1 : fp64.rnd (1 - R) ≤ 1 := by
    have := fp64.mono (by linarith : 1 - R ≤ 1)
    rwa [fp64_one] at this
  obtain ⟨a1, a2, a3⟩ := round_unit R0 R1
  obtain ⟨b1, b2, b3⟩ := round_unit S0 S1
  have er : (TimeCast.toK (TimeOps.div (TimeOps.sub t left.ts) (TimeOps.sub right.ts left.ts)) : Fl fp32) = fin (fp32.rnd R) := by
    rw [← a1, ← hR]; rfl
  have es : (TimeCast.toK (TimeOps.sub (TimeOps.tlit 1) (TimeOps.div (TimeOps.sub t left.ts) (TimeOps.sub right.ts left.ts))) : Fl fp32) = fin (fp32.rnd (fp64.rnd (1 - R))) := by
    rw [← b1, ← hR]
    show Fl.round (fp64.rnd (fp64.rnd ((1 : ℚ) : ℝ) - _)) = _
    rw [Rat.cast_one, fp64_one]
    rfl
  have s1 := step_error (1 - R)
  have r1 := fp32.err R
  rw [abs_of_nonneg R0, u32] at r1
  rw [abs_of_nonneg (by linarith : 0 ≤ 1 - R)] at s1
  have hs := small
  have k1 : (2 : ℝ) ^ (-149 : ℤ) ≤ 2 ^ (-40 : ℤ) := zpow_le_zpow_right₀ (by norm_num) (by norm_num)
  have hw : |fp32.rnd (fp64.rnd (1 - R)) + fp32.rnd R - 1| ≤ |fp32.rnd (fp64.rnd (1 - R)) - (1 - R)| + |fp32.rnd R - R| := by
    calc _ = |(fp32.rnd (fp64.rnd (1 - R)) - (1 - R)) + (fp32.rnd R - R)| := by ring_nf
      _ ≤ _ := abs_add_le _ _
  generalize (2 : ℝ) ^ (-149 : ℤ) = z at *
  have q1 : |fp32.rnd (fp64.rnd (1 - R)) + fp32.rnd R - 1| ≤ 2 ^ (-22 : ℤ) := by
    norm_num at s1 r1 k1 ⊢
    linarith
  have q2 : |fp32.rnd R - R| ≤ 2 ^ (-23 : ℤ) := by
    norm_num at r1 k1 ⊢
    linarith
  refine ⟨fp32.rnd (fp64.rnd (1 - R)), fp32.rnd R, b2, b3, a2, a3, q1, ?_, rfl, ?_, ?_, ?_, ?_, ?_, ?_⟩
  · rw [hR]; exact q2
  all_goals
    unfold interpolate
    dsimp only
    rw [er, es]
    exact mixed b2 b3 a2 a3 _ _

/-- The time stamps in a loader are double precision numbers. -/
def Doubles (l : Loader (Fl fp32) Stamp) : Prop := (∀ m ∈ l.imuMeas, m.ts.IsDouble) ∧ ∀ f ∈ l.featMeas, f.ts.IsDouble

theorem doubles_popPacked {n : Bool} {l l' : Loader (Fl fp32) Stamp} {out : Combined (Fl fp32) Stamp} {r : Bool} (hd : Doubles l) (h : l.popPacked n = .ok (l', out, r)) : Doubles l' := by
  obtain ⟨_, h3⟩ := popPacked_cases h
  rcases h3 with ⟨rfl, _, _⟩ | ⟨rfl, _, _⟩ | ⟨f, fs, m0, ms, taken, left, rest, _, hf, hq, hlt, ht, hb, h4⟩
  · exact hd
  · exact ⟨hd.1, fun f hf => hd.2 f (List.mem_of_mem_tail hf)⟩
  · obtain ⟨hsplit, hle, _⟩ := takeUpTo_spec ht
    obtain ⟨tk, rfl⟩ := back_ok hb
    have hi := hd.1
    have hg := hd.2
    rw [hsplit] at hi
    rw [hf] at hg
    rcases h4 with ⟨_, rfl, _⟩ | ⟨_, right, _, rfl, _⟩
    · refine ⟨fun m hm => ?_, fun g hg' => hg g (List.mem_cons_of_mem _ hg')⟩
      rcases List.mem_cons.1 hm with rfl | hm
      · exact hi _ (by simp)
      · exact hi _ (by simp [hm])
    · refine ⟨fun m hm => ?_, fun g hg' => hg g (List.mem_cons_of_mem _ hg')⟩
      rcases List.mem_cons.1 hm with rfl | hm
      · exact hg f (by simp)
      · exact hi _ (by simp [hm])

theorem doubles_popOne {l : Loader (Fl fp32) Stamp} (hd : Doubles l) : Doubles l.popOne.loader := by
  have sub : (∀ m ∈ l.popOne.loader.imuMeas, m ∈ l.imuMeas) ∧ ∀ f ∈ l.popOne.loader.featMeas, f ∈ l.featMeas := by
    obtain ⟨fs, ms, off, per⟩ := l
    cases ms <;> cases fs <;> simp only [popOne]
    · exact ⟨fun _ h => h, fun _ h => h⟩
    · exact ⟨fun _ h => h, fun _ h => List.mem_cons_of_mem _ h⟩
    · exact ⟨fun _ h => List.mem_cons_of_mem _ h, fun _ h => h⟩
    · split
      · split
        · exact ⟨fun _ h => List.mem_cons_of_mem _ h, fun _ h => List.mem_cons_of_mem _ h⟩
        · exact ⟨fun _ h => h, fun _ h => List.mem_cons_of_mem _ h⟩
      · exact ⟨fun _ h => List.mem_cons_of_mem _ h, fun _ h => h⟩
  exact ⟨fun m hm => hd.1 m (sub.1 m hm), fun f hf => hd.2 f (sub.2 f hf)⟩

theorem doubles_step (p : LProc (Fl fp32) Stamp) (op : LOp (Fl fp32) Stamp) (p' : LProc (Fl fp32) Stamp) (o : LOut (Fl fp32) Stamp) (hp : ∀ j, Doubles (p.loaders j))
    (hs : p.step op = .ok (p', o)) : ∀ j, Doubles (p'.loaders j) := by
  have key : ∀ i (l : Loader (Fl fp32) Stamp), Doubles l → ∀ j, Doubles (p.set i l j) := by
    intro i l hl j
    unfold LProc.set
    split
    · exact hl
    · exact hp j
  cases op with
  | clear i =>
    simp only [LProc.step, Res.ok.injEq, Prod.mk.injEq] at hs
    rw [← hs.1]
    exact key i _ ⟨by simp [Loader.clear], by simp [Loader.clear]⟩
  | setPeriod i d =>
    simp only [LProc.step, Res.ok.injEq, Prod.mk.injEq] at hs
    rw [← hs.1]
    exact key i _ (hp i)
  | pushFeatures i m =>
    simp only [LProc.step, Res.ok.injEq, Prod.mk.injEq] at hs
    rw [← hs.1]
    refine key i _ ?_
    unfold pushFeatures
    split
    · exact hp i
    · refine ⟨(hp i).1, fun f hf => ?_⟩
      dsimp only at hf
      generalize (if TimeOps.isNaN (p.loaders i).offset = true then m.ts else (p.loaders i).offset) = off at hf
      split at hf
      · rcases List.mem_append.1 hf with h | h
        · exact (hp i).2 f h
        · rw [List.mem_singleton.1 h]
          exact isDouble_sub _ _
      · exact (hp i).2 f hf
  | pushImu i m =>
    simp only [LProc.step, Res.ok.injEq, Prod.mk.injEq] at hs
    rw [← hs.1]
    refine key i _ ?_
    unfold pushImu
    refine ⟨fun f hf => ?_, (hp i).2⟩
    dsimp only at hf
    generalize (if TimeOps.isNaN (p.loaders i).offset = true then m.ts else (p.loaders i).offset) = off at hf
    split at hf
    · rcases List.mem_append.1 hf with h | h
      · exact (hp i).1 f h
      · rw [List.mem_singleton.1 h]
        exact isDouble_sub _ _
    · exact (hp i).1 f hf
  | popOne i =>
    simp only [LProc.step, Res.ok.injEq, Prod.mk.injEq] at hs
    rw [← hs.1]
    exact key i _ (doubles_popOne (hp i))
  | popPacked i n =>
    simp only [LProc.step] at hs
    rw [Res.bind_eq_ok] at hs
    obtain ⟨⟨l, out, ret⟩, h1, h2⟩ := hs
    simp only [Res.ok.injEq, Prod.mk.injEq] at h2
    rw [← h2.1]
    exact key i _ (doubles_popPacked (hp i) h1)

/-- C138: in every history of calls on any number of loaders, a packet consists of queued samples, or of queued samples and one at the time of the features that is mixed from its queued neighbours with
weights between zero and one that add up to one within a rounding. -/
theorem C138_histories (ops : List (LOp (Fl fp32) Stamp)) (p q : LProc (Fl fp32) Stamp) (outs : List (LOut (Fl fp32) Stamp)) (i : Nat) (n : Bool) (c : Combined (Fl fp32) Stamp)
    (hr : LProc.init.run ops = .ok (p, outs)) (h : p.step (.popPacked i n) = .ok (q, .popped true c)) :
    (∃ rest, (p.loaders i).imuMeas = c.imuMeas ++ rest) ∨
    ∃ taken left right rest mid f, (p.loaders i).imuMeas = (taken ++ [left]) ++ right :: rest ∧ c.featMeas = some f ∧ c.imuMeas = (taken ++ [left]) ++ [mid] ∧
      left.ts.val ≤ f.ts.val ∧ f.ts.val < right.ts.val ∧ 0 < fp64.rnd (right.ts.val - left.ts.val) ∧
      ∃ ρ' ρ : ℝ, 0 ≤ ρ' ∧ ρ' ≤ 1 ∧ 0 ≤ ρ ∧ ρ ≤ 1 ∧ |ρ' + ρ - 1| ≤ 2 ^ (-22 : ℤ) ∧
      |ρ - fp64.rnd (fp64.rnd (f.ts.val - left.ts.val) / fp64.rnd (right.ts.val - left.ts.val))| ≤ 2 ^ (-23 : ℤ) ∧
      mid.ts = f.ts ∧ Mixed ρ' ρ left.gyro.x right.gyro.x mid.gyro.x ∧ Mixed ρ' ρ left.gyro.y right.gyro.y mid.gyro.y ∧ Mixed ρ' ρ left.gyro.z right.gyro.z mid.gyro.z ∧
      Mixed ρ' ρ left.accel.x right.accel.x mid.accel.x ∧ Mixed ρ' ρ left.accel.y right.accel.y mid.accel.y ∧ Mixed ρ' ρ left.accel.z right.accel.z mid.accel.z := by
  have hd : ∀ j, Doubles (p.loaders j) :=
    LProc.run_invariant (I := fun p => ∀ j, Doubles (p.loaders j)) doubles_step ops LProc.init p outs (fun j => ⟨by simp [LProc.init, Loader.init], by simp [LProc.init, Loader.init]⟩) hr
  simp only [LProc.step] at h
  rw [Res.bind_eq_ok] at h
  obtain ⟨⟨l, out, ret⟩, h1, h2⟩ := h
  simp only [Res.ok.injEq, Prod.mk.injEq, LOut.popped.injEq] at h2
  obtain ⟨rfl, rfl, rfl⟩ := h2
  obtain ⟨_, h3⟩ := popPacked_cases h1
  rcases h3 with ⟨_, _, h⟩ | ⟨_, _, h⟩ | ⟨f, fs, m0, ms, taken, left, rest, _, hf, hq, hlt, ht, hb, h4⟩
  · simp at h
  · simp at h
  · obtain ⟨hsplit, hle, m, ms', hrest, hm⟩ := takeUpTo_spec ht
    obtain ⟨tk, htk⟩ := back_ok hb
    rcases h4 with ⟨h5, rfl, rfl⟩ | ⟨h5, right, hr, rfl, rfl⟩
    · exact Or.inl ⟨rest, hsplit⟩
    · right
      have hrm : right = m := by
        rw [hrest] at hr
        simpa using hr.symm
      subst hrm
      have e : (p.loaders i).imuMeas = (tk ++ [left]) ++ right :: ms' := by rw [hsplit, htk, hrest]
      have hi := (hd i).1
      rw [e] at hi
      have hl : left.ts.val ≤ f.ts.val := (TimeLaws.le_iff _ _).1 (hle left (by rw [htk]; simp))
      have hr' : f.ts.val < right.ts.val := by
        by_contra hc
        rw [(TimeLaws.le_iff right.ts f.ts).2 (not_lt.1 hc)] at hm
        exact Bool.noConfusion hm
      obtain ⟨g0, ρ', ρ, g1, g2, g3, g4, g5, g6, g7⟩ := C138_interpolate f.ts left right (hi _ (by simp)) (hi _ (by simp)) hl hr'.le (by linarith)
      exact ⟨tk, left, right, ms', _, f, e, rfl, by rw [htk], hl, hr', g0, ρ', ρ, g1, g2, g3, g4, g5, g6, g7⟩

/-- A sample that is mixed from two sizes is no larger than the larger, up to a few roundings. -/
theorem C138_bounded {ρ' ρ B x y : ℝ} {c : Fl fp32} (h1 : 0 ≤ ρ') (h3 : 0 ≤ ρ) (hs : |ρ' + ρ - 1| ≤ 2 ^ (-22 : ℤ)) (h : Mixed ρ' ρ (fin x) (fin y) c) (hx : |x| ≤ B) (hy : |y| ≤ B)
    (hB : B ≤ 2 ^ 100) : ∃ v, c = fin v ∧ |v| ≤ (1 + 2 ^ (-20 : ℤ)) * B + 2 ^ (-146 : ℤ) := by
  obtain ⟨v, rfl, hv⟩ := h B x y rfl rfl hx hy hB
  refine ⟨v, rfl, ?_⟩
  have hB0 : 0 ≤ B := (abs_nonneg x).trans hx
  have a1 : |ρ' * x + ρ * y| ≤ ρ' * B + ρ * B := by
    refine (abs_add_le _ _).trans ?_
    rw [abs_mul, abs_mul, abs_of_nonneg h1, abs_of_nonneg h3]
    exact add_le_add (mul_le_mul_of_nonneg_left hx h1) (mul_le_mul_of_nonneg_left hy h3)
  have a2 : (ρ' + ρ) * B ≤ (1 + 2 ^ (-22 : ℤ)) * B := mul_le_mul_of_nonneg_right (by linarith [(abs_le.1 hs).2]) hB0
  have a3 : |v| ≤ |v - (ρ' * x + ρ * y)| + |ρ' * x + ρ * y| := by
    calc |v| = |(v - (ρ' * x + ρ * y)) + (ρ' * x + ρ * y)| := by ring_nf
      _ ≤ _ := abs_add_le _ _
  generalize (2 : ℝ) ^ (-146 : ℤ) = z at *
  have c0 : (2 : ℝ) ^ (-20 : ℤ) = 1 / 1048576 := by norm_num
  have c1 : (2 : ℝ) ^ (-21 : ℤ) = 1 / 2097152 := by norm_num
  have c2 : (2 : ℝ) ^ (-22 : ℤ) = 1 / 4194304 := by norm_num
  rw [c1] at hv
  rw [c2] at a2
  rw [c0]
  linarith

/-- Two samples ten milliseconds (rounded) apart at 1.6e9 seconds. -/
example : Stamp.IsDouble ⟨1600000000⟩ ∧ Stamp.IsDouble ⟨1600000000 + 5 / 512⟩ ∧ (1600000000 : ℝ) < 1600000000 + 5 / 512 := by
  refine ⟨?_, ?_, by norm_num⟩
  · have := rndBits_of_mul (p := 53) (emin := -1022) (k := 0) (n := 1600000000) (P := 40) (by decide) (by norm_num) (by norm_num) (by norm_num)
    show rndBits 53 (-1022) 1600000000 = 1600000000
    norm_num at this
    exact this
  · have := rndBits_of_mul (p := 53) (emin := -1022) (k := -9) (n := 1600000000 * 512 + 5) (P := 53) (by decide) (by norm_num) (by norm_num) (by norm_num)
    have e : (((1600000000 * 512 + 5 : ℤ)) : ℝ) * 2 ^ (-9 : ℤ) = 1600000000 + 5 / 512 := by norm_num
    rw [e] at this
    exact this

/-- A time stamp of so many seconds. -/
noncomputable def sec (n : ℤ) : Stamp := ⟨n⟩

theorem fp64_int {n : ℤ} (h : |n| < 2 ^ 53) : fp64.rnd n = n := by
  have := rndBits_of_mul (p := 53) (emin := -1022) (k := 0) (n := n) (P := 53) h (by norm_num) (by norm_num) (by norm_num)
  simp only [zpow_zero, mul_one] at this
  exact this

theorem sub_sec {a b : ℤ} (h : |a - b| < 2 ^ 53) : TimeOps.sub (sec a) (sec b) = sec (a - b) := by
  show (⟨fp64.rnd (a - b)⟩ : Stamp) = ⟨_⟩
  rw [← Int.cast_sub, fp64_int h]

theorem le_sec (a b : ℤ) : TimeOps.le (sec a) (sec b) = decide (a ≤ b) := by
  show decide ((a : ℝ) ≤ b) = _
  simp

theorem lt_sec (a b : ℤ) : TimeOps.lt (sec a) (sec b) = decide (a < b) := by
  show decide ((a : ℝ) < b) = _
  simp

theorem lit_sec {a : ℤ} (h : |a| < 2 ^ 53) : (TimeOps.tlit (a : ℚ) : Stamp) = sec a := by
  show (⟨fp64.rnd ((a : ℚ) : ℝ)⟩ : Stamp) = ⟨_⟩
  rw [Rat.cast_intCast, fp64_int h]

theorem off_sec : (TimeOps.tlit (-1) : Stamp) = sec (-1) := by simpa using lit_sec (a := -1) (by norm_num)
theorem one_sec : (TimeOps.tlit 1 : Stamp) = sec 1 := by simpa using lit_sec (a := 1) (by norm_num)

theorem far : TimeOps.lt (TimeOps.tlit (1/1000000)) (TimeOps.fabs (sec (-1))) = true := by
  have h := (fp64.mono (by norm_num : (((1/1000000 : ℚ)) : ℝ) ≤ ((1/2 : ℝ))))
  have h2 : fp64.rnd (1/2) = 1/2 := by
    have := rndBits_of_mul (p := 53) (emin := -1022) (k := -1) (n := 1) (P := 1) (by norm_num) (by norm_num) (by norm_num) (by norm_num)
    norm_num at this
    norm_num
    exact this
  rw [h2] at h
  show decide ((fp64.rnd ((1/1000000 : ℚ) : ℝ) : ℝ) < |((-1 : ℤ) : ℝ)|) = true
  norm_num at h ⊢
  linarith

/-- The hypotheses of `C138_histories` are met: samples at one and three seconds and features at two seconds give a packet with a mixed sample. -/
example (a b : ImuMsg (Fl fp32) Stamp) : ∃ p q c outs, (LProc.init : LProc (Fl fp32) Stamp).run [.pushImu 0 { a with ts := sec 1 }, .pushImu 0 { b with ts := sec 3 }, .pushFeatures 0 ⟨[], [], sec 2⟩] = .ok (p, outs) ∧
    p.step (.popPacked 0 false) = .ok (q, .popped true c) ∧ c.imuMeas.length = 2 := by
  have hn : ∀ x : Stamp, TimeOps.isNaN x = false := fun _ => rfl
  have n1 : TimeOps.sub (sec 1) (sec (-1)) = sec 2 := sub_sec (by norm_num)
  have n2 : TimeOps.sub (sec 3) (sec (-1)) = sec 4 := sub_sec (by norm_num)
  have n3 : TimeOps.sub (sec 2) (sec (-1)) = sec 3 := sub_sec (by norm_num)
  have n4 : TimeOps.sub (sec 2) (sec 1) = sec 1 := sub_sec (by norm_num)
  have n5 : TimeOps.sub (sec 3) (sec 1) = sec 2 := sub_sec (by norm_num)
  have n6 : TimeOps.sub (sec 2) (sec 3) = sec (-1) := sub_sec (by norm_num)
  have run : (LProc.init : LProc (Fl fp32) Stamp).run [.pushImu 0 { a with ts := sec 1 }, .pushImu 0 { b with ts := sec 3 }, .pushFeatures 0 ⟨[], [], sec 2⟩] = .ok
      (⟨⟨some (sec 3), some (sec 4)⟩, fun j => if j = 0 then { (Loader.init : Loader (Fl fp32) Stamp) with imuMeas := [{ a with ts := sec 2 }, { b with ts := sec 4 }], featMeas := [⟨[], [], sec 3⟩] } else Loader.init⟩,
        [.pushedImu true { a with ts := sec 2 }, .pushedImu true { b with ts := sec 4 }, .pushedFeatures true ⟨[], [], sec 3⟩]) := by
    simp [LProc.run, LProc.step, LProc.init, pushImu, pushFeatures, Loader.init, LProc.set, hn, off_sec, one_sec, n1, n2, n3, n4, n5, lt_sec]
    funext j
    by_cases h : j = 0 <;> simp [h, LProc.set]
  have h : ∃ q c, LProc.step (K := Fl fp32) (T := Stamp) ⟨⟨some (sec 3), some (sec 4)⟩, fun j => if j = 0 then { (Loader.init : Loader (Fl fp32) Stamp) with
      imuMeas := [{ a with ts := sec 2 }, { b with ts := sec 4 }], featMeas := [⟨[], [], sec 3⟩] } else Loader.init⟩ (.popPacked 0 false) = .ok (q, .popped true c) ∧ c.imuMeas.length = 2 := by
    have hfar := far
    rw [one_div] at hfar
    simp [LProc.step, popPacked, Loader.init, le_sec, back, front, takeUpTo, n6, hfar, Bind.bind, Res.bind, pure]
  obtain ⟨q, c, h1, h2⟩ := h
  exact ⟨_, q, c, _, run, h1, h2⟩

end Mixing
end Vio

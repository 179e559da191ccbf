/-
The laws that theorems ask of time stamps and conversions hold for IEEE single and double precision, and with them C68 and C79 for `float` scalars with infinities and NaN.
-/
import Verif.Props.Reset
import Verif.Props.Float
import Verif.Props.Safety
import Verif.Props.Running

set_option linter.unusedSectionVars false

namespace Vio
open Fl

variable {m : Arith}

/-! ### Comparison of floating point numbers, NaN and infinities included -/

instance : TimeOrd (Fl m) where
  le_left a b h := by
    cases a <;> cases b <;> simp_all [TimeOps.le, Fl.le]
  le_right a b h := by
    cases a <;> cases b <;> simp_all [TimeOps.le, Fl.le]
  le_trans a b c h1 h2 := by
    cases a <;> cases b <;> cases c <;> simp_all [TimeOps.le, Fl.le]
    · exact h1.trans h2
    · rcases h1 with h1 | h1 <;> rcases h2 with h2 | h2 <;> simp_all
  le_total a b h1 h2 := by
    cases a <;> cases b <;> simp_all [TimeOps.le, Fl.le]
    · exact _root_.le_total _ _
    · rename_i s t; cases s <;> cases t <;> simp
  lt_iff a b := by
    cases a <;> cases b <;> simp_all [TimeOps.le, TimeOps.lt, Fl.le, Fl.lt]
    · exact le_of_lt
    · rename_i s t; cases s <;> cases t <;> simp
  isNaN_lit q := by
    show Fl.isNaN (Fl.round (q : ℝ) : Fl m) = false
    unfold Fl.round
    split <;> rfl

/-! ### Finite double precision times -/

/-- The rounding of a floating point arithmetic. -/
noncomputable def Arith.rounding (m : Arith) : Rounding := ⟨m.rnd, m.mono, m.odd⟩

/-- Widening of values that are not finite, which has no counterpart among finite times; arbitrary. -/
class FlWiden (m : Arith) (r : Rounding) where
  other : Fl m → Rounded r

/-- Conversion of a finite time to a scalar rounds and may overflow; widening a finite scalar is exact. -/
noncomputable instance {r : Rounding} [FlWiden m r] : TimeCast (Rounded r) (Fl m) where
  toK t := Fl.round t.val
  ofK
    | fin x => ⟨x⟩
    | x => FlWiden.other x

theorem lt_round_mono {a b : ℝ} (h : a ≤ b) (k : Fl m) (hk : Fl.lt k (Fl.round a) = true) : Fl.lt k (Fl.round b) = true := by
  have hm := m.mono h
  have h0 := m.zero
  unfold Fl.round at hk ⊢
  by_cases ha : |m.rnd a| ≤ m.max
  · rw [if_pos ha] at hk
    by_cases hb : |m.rnd b| ≤ m.max
    · rw [if_pos hb]
      cases k with
      | fin v =>
        simp only [Fl.lt, decide_eq_true_eq] at hk ⊢
        exact hk.trans_le hm
      | inf s => exact hk
      | nan => exact hk
    · rw [if_neg hb]
      have hb0 : ¬ b < 0 := by
        intro hneg
        have h1 := m.mono hneg.le
        rw [h0] at h1
        refine hb (abs_le.2 ⟨(abs_le.1 ha).1.trans hm, h1.trans ?_⟩)
        linarith [m.max_ge]
      rw [decide_eq_false hb0]
      cases k with
      | fin v => rfl
      | inf s => simpa [Fl.lt] using hk
      | nan => exact hk
  · rw [if_neg ha] at hk
    by_cases ha0 : a < 0
    · rw [decide_eq_true ha0] at hk
      cases k with
      | fin v => simp [Fl.lt] at hk
      | inf s => simp [Fl.lt] at hk
      | nan => simp [Fl.lt] at hk
    · rw [decide_eq_false ha0] at hk
      have hb : ¬ |m.rnd b| ≤ m.max := by
        intro hb
        have h1 := m.nonneg a (not_lt.1 ha0)
        refine ha ?_
        rw [abs_of_nonneg h1]
        exact hm.trans (abs_le.1 hb).2
      rw [if_neg hb, decide_eq_false (not_lt.2 ((not_lt.1 ha0).trans h))]
      exact hk

instance {r : Rounding} [FlLib m] [FlWiden m r] : CastLaws (Rounded r) (Fl m) where
  gt_mono a b k h h1 := lt_round_mono h k h1
  lt_irrefl a := by
    show Fl.lt (Fl.round a.val : Fl m) (Fl.round a.val) = false
    cases h : (Fl.round a.val : Fl m) <;> simp [Fl.lt]

/-! ### Every single precision number is a double precision number -/

/-- A multiple of a power of two with few enough digits is not rounded. -/
theorem rndBits_of_mul {p emin k n P : ℤ} (hn : |n| < 2 ^ P.toNat) (hP : 0 ≤ P) (hk : emin ≤ P - 1 + k) (hp : P ≤ p) : rndBits p emin ((n : ℝ) * 2 ^ k) = (n : ℝ) * 2 ^ k := by
  rcases eq_or_ne n 0 with rfl | h0
  · simp [rndBits, rne_zero]
  have he : expo emin ((n : ℝ) * 2 ^ k) ≤ P - 1 + k := by
    refine max_le ?_ hk
    have hpos : 0 < |(n : ℝ) * 2 ^ k| := abs_pos.2 (mul_ne_zero (by exact_mod_cast h0) (by positivity))
    have h1 : |(n : ℝ) * 2 ^ k| < 2 ^ (P + k) := by
      rw [abs_mul, abs_of_pos (by positivity : (0 : ℝ) < 2 ^ k), zpow_add₀ two_ne_zero]
      refine mul_lt_mul_of_pos_right ?_ (by positivity)
      have h2 : (2 : ℝ) ^ P = ((2 ^ P.toNat : ℤ) : ℝ) := by
        push_cast
        rw [← zpow_natCast, Int.toNat_of_nonneg hP]
      rw [h2]
      exact_mod_cast hn
    have h2 := Int.zpow_log_le_self (b := 2) (by norm_num) hpos
    have h3 := lt_of_le_of_lt h2 h1
    have h4 := (zpow_lt_zpow_iff_right₀ (by norm_num : (1 : ℝ) < 2)).1 (by exact_mod_cast h3)
    omega
  generalize hE : expo emin ((n : ℝ) * 2 ^ k) = E at he
  rw [rndBits, hE]
  obtain ⟨j, hj⟩ : ∃ j : ℕ, k - (E - (p - 1)) = j := ⟨(k - (E - (p - 1))).toNat, by omega⟩
  have h4 : (n : ℝ) * 2 ^ k / 2 ^ (E - (p - 1)) = ((n * 2 ^ j : ℤ) : ℝ) := by
    rw [mul_div_assoc, ← zpow_sub₀ two_ne_zero, hj]
    push_cast
    rfl
  rw [h4, rne_intCast, ← h4, div_mul_cancel₀ _ (by positivity)]

/-- A single precision number is an integer of at most 24 digits, or the next power of two, times a power of two. -/
theorem fp32_shape (x : ℝ) : ∃ n E : ℤ, |n| ≤ 2 ^ 24 ∧ -126 ≤ E ∧ fp32.rnd x = (n : ℝ) * 2 ^ (E - 23) := by
  obtain ⟨E, hE⟩ : ∃ E, expo (-126) x = E := ⟨_, rfl⟩
  have hE' : -126 ≤ E := by rw [← hE]; exact le_max_right _ _
  have hx : |x| / 2 ^ (E - (24 - 1)) ≤ 2 ^ (24 : ℤ) := by
    have h1 := (lt_expo (-126) (abs_nonneg x)).le
    have h2 : expo (-126) |x| = E := by rw [← hE, expo, expo, abs_abs]
    rw [h2] at h1
    rw [div_le_iff₀ (by positivity), ← zpow_add₀ two_ne_zero, show (24 : ℤ) + (E - (24 - 1)) = E + 1 by ring]
    exact h1
  refine ⟨rne (x / 2 ^ (E - (24 - 1))), E, ?_, hE', ?_⟩
  · have hp : (0 : ℝ) < 2 ^ (E - (24 - 1)) := by positivity
    have e24 : rne ((2 : ℝ) ^ (24 : ℤ)) = 2 ^ 24 := by
      have := rne_two_pow (k := 24) (by norm_num)
      have h3 : ((2 : ℝ) ^ (24 : ℤ)) = ((2 ^ 24 : ℤ) : ℝ) := by norm_num
      rw [h3] at this ⊢
      exact_mod_cast this
    have h1 : x / 2 ^ (E - (24 - 1)) ≤ 2 ^ (24 : ℤ) := (div_le_div_of_nonneg_right (le_abs_self x) hp.le).trans hx
    have h2 : -(2 : ℝ) ^ (24 : ℤ) ≤ x / 2 ^ (E - (24 - 1)) := by
      have := div_le_div_of_nonneg_right (neg_abs_le x) hp.le
      rw [neg_div] at this
      linarith
    have h3 := rne_mono h1
    have h4 := rne_mono h2
    rw [rne_neg] at h4
    rw [e24] at h3 h4
    exact abs_le.2 ⟨h4, h3⟩
  · show rndBits 24 (-126) x = _
    rw [rndBits, hE]
    norm_num

theorem fp32_in_fp64 (x : ℝ) : fp64.rnd (fp32.rnd x) = fp32.rnd x := by
  obtain ⟨n, E, h1, h2, h3⟩ := fp32_shape x
  rw [h3]
  exact rndBits_of_mul (P := 25) (lt_of_le_of_lt h1 (by decide)) (by norm_num) (by omega) (by norm_num)

/-- Rounding a single precision number to single precision changes nothing. -/
theorem fp32_idem (x : ℝ) : fp32.rnd (fp32.rnd x) = fp32.rnd x := by
  obtain ⟨n, E, h1, h2, h3⟩ := fp32_shape x
  rw [h3]
  rcases lt_or_eq_of_le h1 with h | h
  · exact rndBits_of_mul (P := 24) h (by norm_num) (by omega) (by norm_num)
  · obtain ⟨s, hs, hn⟩ : ∃ s : ℤ, |s| < 2 ∧ n = s * 2 ^ 24 := by
      rcases (abs_eq (by norm_num)).1 h with h | h
      · exact ⟨1, by norm_num, by omega⟩
      · exact ⟨-1, by norm_num, by omega⟩
    have e : (n : ℝ) * 2 ^ (E - 23) = (s : ℝ) * 2 ^ (E + 1) := by
      rw [hn, show E + 1 = (E - 23) + 24 by ring, zpow_add₀ two_ne_zero]
      push_cast
      norm_num
      ring
    rw [e]
    exact rndBits_of_mul (P := 1) (by simpa using hs) (by norm_num) (by omega) (by norm_num)

/-- A single precision number that is not the rounded literal compares with the rounded literal as it does with the literal. -/
theorem lt_literal (x c : ℝ) (hx : fp32.rnd x = x) (hne : x ≠ fp32.rnd c) : x < fp32.rnd c ↔ x < c := by
  constructor
  · intro h
    by_contra hc
    have := fp32.mono (not_lt.1 hc)
    linarith
  · intro h
    have := fp32.mono h.le
    exact lt_of_le_of_ne (hx ▸ this) hne

theorem gt_literal (x c : ℝ) (hx : fp32.rnd x = x) (hne : x ≠ fp32.rnd c) : fp32.rnd c < x ↔ c < x := by
  constructor
  · intro h
    by_contra hc
    have := fp32.mono (not_lt.1 hc)
    linarith
  · intro h
    have := fp32.mono h.le
    exact lt_of_le_of_ne (hx ▸ this) (Ne.symm hne)

/-- One is a single precision number other than the rounded literal `0.1`. -/
example : fp32.rnd 1 = 1 ∧ (1 : ℝ) ≠ fp32.rnd (1 / 10) := by
  have h1 : fp32.rnd 1 = 1 := by
    have := rndBits_of_mul (p := 24) (emin := -126) (k := 0) (n := 1) (P := 1) (by norm_num) (by norm_num) (by norm_num) (by norm_num)
    simp only [Int.cast_one, zpow_zero, mul_one] at this
    exact this
  refine ⟨h1, fun h => ?_⟩
  have := fp32.err (1 / 10)
  rw [← h] at this
  norm_num [fp32] at this

/-! ### C68 and C79 in single precision with double precision times -/

namespace Backend

variable [FlLib fp32] [FlWiden fp32 fp64.rounding]

/-- A backend configured with a finite period that is not negative meets the conditions of C68 on its parameters. -/
theorem ieee_ready (c : Config (Fl fp32)) (st : Motion (Fl fp32)) (g : Vec3 (Fl fp32)) (b : Backend (Fl fp32) (Rounded fp64.rounding)) (hc : applyConfig c (.init st) = .ok (b, g))
    (x : ℝ) (hx : c.period = fin (fp32.rnd x)) (h0 : 0 ≤ x) (hfit : Update.Fits b.u.w.frm.extrinsics.length (max 1 c.maxFrameNum + 1) c.maxFeatures) : Fresh b ∧ Ready b := by
  obtain ⟨ex, -, e⟩ := Res.bind_eq_ok.1 hc
  cases e
  refine ⟨⟨rfl, rfl, rfl, rfl, rfl, rfl, rfl⟩, rfl, ?_, ?_, hfit⟩
  · show (TimeOps.tlit 0 : Rounded fp64.rounding) ≤ TimeCast.ofK c.period
    rw [hx, Rounded.le_def]
    show fp64.rnd ((0 : ℚ) : ℝ) ≤ fp32.rnd x
    rw [Rat.cast_zero, fp64.zero]
    exact fp32.nonneg x h0
  · show (TimeOps.mul (TimeCast.ofK c.period) (TimeOps.tlit (55/100)) : Rounded fp64.rounding) ≤ TimeCast.ofK c.period
    rw [hx, Rounded.le_def]
    show fp64.rnd (fp32.rnd x * fp64.rnd ((55 / 100 : ℚ) : ℝ)) ≤ fp32.rnd x
    have h1 : fp64.rnd ((55 / 100 : ℚ) : ℝ) ≤ 1 := by
      have e := fp64.err ((55 / 100 : ℚ) : ℝ)
      have h2 := fp64.u_le
      have h3 := fp64.eta_le
      have h4 := (abs_le.1 e).2
      have h5 : |((55 / 100 : ℚ) : ℝ)| = 55 / 100 := by norm_num
      have h6 : ((55 / 100 : ℚ) : ℝ) = 55 / 100 := by norm_num
      rw [h5] at h4
      rw [h6] at h4 ⊢
      linarith
    have h2 := fp32.nonneg x h0
    have h3 : fp32.rnd x * fp64.rnd ((55 / 100 : ℚ) : ℝ) ≤ fp32.rnd x := by
      calc _ ≤ fp32.rnd x * 1 := mul_le_mul_of_nonneg_left h1 h2
        _ = _ := mul_one _
    exact (fp64.mono h3).trans (fp32_in_fp64 x).le

/-- C68 for the types of the program: scalars are IEEE single precision numbers with infinities and NaN, times finite IEEE double precision numbers.  No sensor value, however broken, leads a configured
backend to undefined behaviour as long as the tracker's messages are well formed.  Partial for the same reason as `C68_no_ub_partial`. -/
theorem C68_ieee_partial (c : Config (Fl fp32)) (st : Motion (Fl fp32)) (g : Vec3 (Fl fp32)) (b : Backend (Fl fp32) (Rounded fp64.rounding)) (hc : applyConfig c (.init st) = .ok (b, g))
    (x : ℝ) (hx : c.period = fin (fp32.rnd x)) (h0 : 0 ≤ x) (hfit : Update.Fits b.u.w.frm.extrinsics.length (max 1 c.maxFrameNum + 1) c.maxFeatures)
    (ops : List (BOp (Fl fp32) (Rounded fp64.rounding))) (hres : ∀ op ∈ ops, op ≠ .reset) (hm : ∀ m ∈ featMsgs ops, MsgOk b.u.w.frm.extrinsics.length m)
    (hcont : Continuous ((featMsgs ops).map (·.ids))) (hn : (featMsgs ops).length + 1 < two32) :
    ∃ p outs, (⟨{}, g, b⟩ : BProc (Fl fp32) (Rounded fp64.rounding)).run ops = .ok (p, outs) ∧
      (∀ i ∈ p.b.att.items, UnitOrLost fp32 i.q) ∧ (∀ i ∈ p.b.u.q.items, UnitOrLost fp32 i.st.q) := by
  obtain ⟨hf, hr⟩ := ieee_ready c st g b hc x hx h0 hfit
  obtain ⟨p, outs, h⟩ := C68_tracker_partial (⟨{}, g, b⟩ : BProc (Fl fp32) (Rounded fp64.rounding)) ops hf hr hres hm hcont hn
  obtain ⟨h1, h2, -⟩ := C109_attitudes c st g b hc ops p outs h
  exact ⟨p, outs, h, h1, h2⟩

/-- C118 for the types of the program: `Reset` may be called anywhere. -/
theorem C118_ieee (c : Config (Fl fp32)) (st : Motion (Fl fp32)) (g : Vec3 (Fl fp32)) (b : Backend (Fl fp32) (Rounded fp64.rounding)) (hc : applyConfig c (.init st) = .ok (b, g))
    (x : ℝ) (hx : c.period = fin (fp32.rnd x)) (h0 : 0 ≤ x) (hfit : Update.Fits b.u.w.frm.extrinsics.length (max 1 c.maxFrameNum + 1) c.maxFeatures)
    (ops : List (BOp (Fl fp32) (Rounded fp64.rounding))) (hm : ∀ m ∈ featMsgs ops, MsgOk b.u.w.frm.extrinsics.length m)
    (hcont : Continuous ((featMsgs ops).map (·.ids))) (hn : (featMsgs ops).length + 1 < two32) :
    ∃ p outs, (⟨{}, g, b⟩ : BProc (Fl fp32) (Rounded fp64.rounding)).run ops = .ok (p, outs) := by
  obtain ⟨hf, hr⟩ := ieee_ready c st g b hc x hx h0 hfit
  exact C118_tracker (⟨{}, g, b⟩ : BProc (Fl fp32) (Rounded fp64.rounding)) ops hf hr hm hcont hn

/-- C79 for the types of the program: whatever the single precision numbers have become, the times of successive published states, in double precision, never run backwards. -/
theorem C79_ieee (c : Config (Fl fp32)) (st : Motion (Fl fp32)) (g : Vec3 (Fl fp32)) (b : Backend (Fl fp32) (Rounded fp64.rounding)) (hc : applyConfig c (.init st) = .ok (b, g))
    (hfit : max 1 c.maxFrameNum + 1 < two32) (ops : List (BOp (Fl fp32) (Rounded fp64.rounding))) (ho : (imuTimes ops).Pairwise (· ≤ ·)) (p : BProc (Fl fp32) (Rounded fp64.rounding))
    (outs : List (BOut (Fl fp32) (Rounded fp64.rounding))) (h : (⟨{}, g, b⟩ : BProc (Fl fp32) (Rounded fp64.rounding)).run ops = .ok (p, outs)) : (pubTimes ops outs).Pairwise (· ≤ ·) := by
  obtain ⟨ex, -, e⟩ := Res.bind_eq_ok.1 hc
  cases e
  exact C79_published_time _ p ops outs ⟨rfl, rfl, rfl, rfl, rfl, rfl, rfl⟩ hfit ho (fun _ _ => rfl) h

/-- Taking a second from a double precision time of less than `2 ^ 50` makes it smaller. -/
theorem fp64_second (t o : Rounded fp64.rounding) (h : |t.val - o.val| ≤ 2 ^ 50) :
    TimeOps.sub (TimeOps.sub t o) (TimeOps.tlit 1) < TimeOps.sub t o := by
  show _ < (_ : ℝ)
  show fp64.rnd (fp64.rnd (t.val - o.val) - fp64.rnd ((1 : ℚ) : ℝ)) < fp64.rnd (t.val - o.val)
  have hu : fp64.u = 2 ^ (-53 : ℤ) := rfl
  have he : fp64.eta ≤ fp64.u / 100 := fp64.eta_le
  have e1 := abs_le.1 (fp64.err (t.val - o.val))
  have e2 := abs_le.1 (fp64.err ((1 : ℚ) : ℝ))
  have e3 := (abs_le.1 (fp64.err (fp64.rnd (t.val - o.val) - fp64.rnd ((1 : ℚ) : ℝ)))).2
  generalize hy : fp64.rnd (t.val - o.val) = y at *
  generalize hz : fp64.rnd ((1 : ℚ) : ℝ) = z at *
  have hx := abs_le.1 h
  have n1 : |((1 : ℚ) : ℝ)| = 1 := by norm_num
  have n2 : ((1 : ℚ) : ℝ) = 1 := by norm_num
  have n3 : fp64.u ≤ 1 / 2 ^ 53 := by rw [hu]; norm_num
  rw [n1, n2] at e2
  have u0 := fp64.u_nonneg
  have h1 : fp64.u * |t.val - o.val| ≤ 1 / 2 ^ 53 * 2 ^ 50 := mul_le_mul n3 h (abs_nonneg _) (by norm_num)
  have h2 : |y - z| ≤ 2 ^ 51 := by
    rw [abs_le]
    constructor <;> norm_num at * <;> linarith [e1.1, e1.2, e2.1, e2.2, hx.1, hx.2]
  have h3 : fp64.u * |y - z| ≤ 1 / 2 ^ 53 * 2 ^ 51 := mul_le_mul n3 h2 (abs_nonneg _) (by norm_num)
  norm_num at *
  linarith [e2.1]

/-- C119 for the types of the program: a filter in single precision, whatever its numbers have become, infinities and NaN included, runs on while the IMU data, with times in double precision, keep up
with the images. -/
theorem C119_ieee (c : Config (Fl fp32)) (st : Motion (Fl fp32)) (g : Vec3 (Fl fp32)) (b : Backend (Fl fp32) (Rounded fp64.rounding)) (hc : applyConfig c (.init st) = .ok (b, g))
    (x : ℝ) (hx : c.period = fin (fp32.rnd x)) (h0 : 0 < fp32.rnd x) (hfit : Update.Fits b.u.w.frm.extrinsics.length (max 1 c.maxFrameNum + 1) c.maxFeatures)
    (o1 o2 : List (BOp (Fl fp32) (Rounded fp64.rounding))) (hres : ∀ op ∈ o1 ++ o2, op ≠ .reset ∧ op ≠ .runTest) (hm : ∀ m ∈ featMsgs (o1 ++ o2), MsgOk b.u.w.frm.extrinsics.length m)
    (hcont : Continuous ((featMsgs (o1 ++ o2)).map (·.ids))) (hn : (featMsgs (o1 ++ o2)).length + 1 < two32)
    (hord : (imuTimes (o1 ++ o2)).Pairwise (· ≤ ·)) (hbig : ∀ t ∈ imuTimes (o1 ++ o2), |t.val| ≤ 2 ^ 49) (hsv : Served b.loader.offset b.loader.imuPeriod [] (o1 ++ o2))
    (p1 p2 : BProc (Fl fp32) (Rounded fp64.rounding)) (r1 r2 : List (BOut (Fl fp32) (Rounded fp64.rounding))) (h1 : (⟨{}, g, b⟩ : BProc (Fl fp32) (Rounded fp64.rounding)).run o1 = .ok (p1, r1))
    (hs : p1.b.status = .initialized) (h2 : p1.run o2 = .ok (p2, r2)) : p2.b.status = .initialized := by
  have hpos : 0 ≤ x := by
    by_contra hx
    have := fp32.mono (not_le.1 hx).le
    rw [fp32.zero] at this
    linarith
  obtain ⟨hf, hr⟩ := ieee_ready c st g b hc x hx hpos hfit
  have e1 : b.loader.offset = TimeOps.tlit (-1) ∧ b.loader.imuPeriod = ⟨fp32.rnd x⟩ := by
    obtain ⟨ex, -, e⟩ := Res.bind_eq_ok.1 hc
    cases e
    exact ⟨rfl, by show (TimeCast.ofK c.period : Rounded fp64.rounding) = _; rw [hx]; rfl⟩
  refine C119_running (⟨{}, g, b⟩ : BProc (Fl fp32) (Rounded fp64.rounding)) p1 p2 o1 o2 r1 r2 hf hr hres hm hcont hn rfl ?_ hord (fun _ _ => rfl) ?_ rfl hsv h1 hs h2
  · show (TimeOps.tlit 0 : Rounded fp64.rounding) < b.loader.imuPeriod
    rw [e1.2]
    show fp64.rnd ((0 : ℚ) : ℝ) < fp32.rnd x
    rw [Rat.cast_zero, fp64.zero]
    exact h0
  · intro t ht
    refine fp64_second t _ ?_
    show |t.val - b.loader.offset.val| ≤ 2 ^ 50
    rw [e1.1]
    show |t.val - fp64.rnd ((-1 : ℚ) : ℝ)| ≤ 2 ^ 50
    have e2 := abs_le.1 (fp64.err ((-1 : ℚ) : ℝ))
    have h3 := fp64.u_le
    have h4 := fp64.eta_le
    have n1 : |((-1 : ℚ) : ℝ)| = 1 := by norm_num
    have n2 : ((-1 : ℚ) : ℝ) = -1 := by norm_num
    rw [n1] at e2
    rw [n2] at e2 ⊢
    have := abs_le.1 (hbig t ht)
    rw [abs_le]
    constructor <;> norm_num at * <;> linarith [e2.1, e2.2, this.1, this.2]

/-- The hypotheses of `C68_ieee_partial` are met by the default parameters with two cameras and a history that starts with samples which are not numbers. -/
example (st : Motion (Fl fp32)) (env : Env (Fl fp32)) : ∃ (c : Config (Fl fp32)) (g : Vec3 (Fl fp32)) (b : Backend (Fl fp32) (Rounded fp64.rounding)),
    applyConfig c (.init st) = .ok (b, g) ∧ b.u.w.frm.extrinsics.length = 2 ∧
    ∃ p outs, (⟨{}, g, b⟩ : BProc (Fl fp32) (Rounded fp64.rounding)).run
      [.imu ⟨⟨nan, inf true, fin 0⟩, ⟨nan, nan, nan⟩, ⟨0⟩⟩, .run env, .feat ⟨[7], [⟨[(0, ⟨nan, inf false⟩), (1, ⟨fin 0, fin 0⟩)]⟩], ⟨1⟩⟩, .run env, .publishUpdate] = .ok (p, outs) := by
  obtain ⟨bg, hc⟩ : ∃ bg, applyConfig (T := Rounded fp64.rounding) ({ Config.default with qbc := [⟨1, 0, 0, 0⟩, ⟨1, 0, 0, 0⟩], pbc := [0, ⟨1, 0, 0⟩] } : Config (Fl fp32)) (.init st) = .ok bg := ⟨_, rfl⟩
  obtain ⟨b, g⟩ := bg
  have h2 : b.u.w.frm.extrinsics.length = 2 := by
    cases hc
    rfl
  have hp : (Config.default : Config (Fl fp32)).period = fin (fp32.rnd ((5/1000 : ℚ) : ℝ)) := by
    show Fl.round ((5/1000 : ℚ) : ℝ) = _
    unfold Fl.round
    rw [if_pos]
    have e := fp32.err ((5/1000 : ℚ) : ℝ)
    have h2 := fp32.u_le
    have h3 := fp32.eta_le
    have h4 := fp32.max_ge
    have h6 : ((5/1000 : ℚ) : ℝ) = 5/1000 := by norm_num
    rw [h6, abs_of_pos (by norm_num : (0 : ℝ) < 5/1000)] at e
    rw [h6]
    rw [abs_le] at e ⊢
    constructor <;> linarith [e.1, e.2]
  refine ⟨_, g, b, hc, h2, ?_⟩
  obtain ⟨p, outs, h, -⟩ := C68_ieee_partial _ st g b hc _ hp (by norm_num) (by rw [h2]; show Update.Fits 2 (max 1 6 + 1) 30; exact ⟨by decide, by decide, by decide⟩)
    [.imu ⟨⟨nan, inf true, fin 0⟩, ⟨nan, nan, nan⟩, ⟨0⟩⟩, .run env, .feat ⟨[7], [⟨[(0, ⟨nan, inf false⟩), (1, ⟨fin 0, fin 0⟩)]⟩], ⟨1⟩⟩, .run env, .publishUpdate]
    (by intro op hop h; subst h; revert hop; simp)
    (by
      intro m hm
      rw [h2]
      have : m = ⟨[7], [⟨[(0, ⟨nan, inf false⟩), (1, ⟨fin 0, fin 0⟩)]⟩], ⟨1⟩⟩ := by simpa [featMsgs] using hm
      subst this
      refine ⟨by simp, rfl, ?_⟩
      intro o ho
      rw [List.mem_singleton.1 ho]
      exact ⟨by simp, by simp, by simp⟩)
    (by intro x y z h; exact absurd h.length_le (by simp [featMsgs]))
    (by show 1 + 1 < two32; decide)
  exact ⟨p, outs, h⟩

/-- The conditions of `C119_ieee` on the input, for the offset of a new backend and the default period: a sample and an image of the same time. -/
example (env : Env (Fl fp32)) : ∃ ops : List (BOp (Fl fp32) (Rounded fp64.rounding)), (featMsgs ops).length = 1 ∧ (∀ op ∈ ops, op ≠ .reset ∧ op ≠ .runTest) ∧ (∀ m ∈ featMsgs ops, MsgOk 2 m) ∧
    (imuTimes ops).Pairwise (· ≤ ·) ∧ (∀ t ∈ imuTimes ops, |t.val| ≤ 2 ^ 49) ∧ 0 < fp32.rnd (5 / 1000) ∧ Served (TimeOps.tlit (-1)) ⟨fp32.rnd (5 / 1000)⟩ [] ops := by
  have hp : 0 < fp32.rnd (5 / 1000) := by
    have e := (abs_le.1 (fp32.err (5 / 1000))).1
    have h2 := fp32.u_le
    have h3 := fp32.eta_le
    rw [abs_of_pos (by norm_num : (0 : ℝ) < 5 / 1000)] at e
    linarith
  refine ⟨[.imu ⟨⟨nan, inf true, fin 0⟩, ⟨nan, nan, nan⟩, ⟨1⟩⟩, .run env, .imu ⟨0, 0, ⟨2⟩⟩, .feat ⟨[7], [⟨[(0, ⟨nan, inf false⟩), (1, ⟨fin 0, fin 0⟩)]⟩], ⟨2⟩⟩, .run env], rfl, ?_, ?_, ?_, ?_, hp, ?_⟩
  · intro op hop
    constructor <;> (intro h; subst h; revert hop; simp)
  · intro m hm
    have : m = ⟨[7], [⟨[(0, ⟨nan, inf false⟩), (1, ⟨fin 0, fin 0⟩)]⟩], ⟨2⟩⟩ := by simpa [featMsgs] using hm
    subst this
    refine ⟨by simp, rfl, ?_⟩
    intro o ho
    rw [List.mem_singleton.1 ho]
    exact ⟨by simp, by simp, by simp⟩
  · show [(⟨1⟩ : Rounded fp64.rounding), ⟨2⟩].Pairwise (· ≤ ·)
    refine .cons ?_ (.cons (by simp) .nil)
    intro t ht
    rw [List.mem_singleton.1 ht, Rounded.le_def]
    norm_num
  · intro t ht
    have : t = ⟨1⟩ ∨ t = ⟨2⟩ := by simpa [imuTimes] using ht
    rcases this with rfl | rfl <;> norm_num
  · refine ⟨⟨⟨2⟩, List.mem_cons_self, le_refl _, ?_⟩, trivial⟩
    rw [TimeLaws.sub_self, Rounded.le_def]
    show fp64.rnd ((0 : ℚ) : ℝ) ≤ fp32.rnd (5 / 1000)
    rw [Rat.cast_zero, fp64.zero]
    exact hp.le

end Backend
end Vio

/-
C109: attitudes in floating point arithmetic.
-/
import Verif.Lemmas.Float
import Verif.Lemmas.AnyRun
import Verif.Props.Restart

set_option linter.unusedSectionVars false

namespace Vio
open Fl

section floats
variable {m : Arith} [FlLib m]

/-- A sum of squares: not negative, and not a number only if a summand is not. -/
def IsPos (x : Fl m) : Prop := (∃ v, 0 ≤ v ∧ x = fin v) ∨ x = inf false

theorem round_pos {x : ℝ} (h : 0 ≤ x) : IsPos (Fl.round x : Fl m) := by
  unfold Fl.round
  split
  · exact .inl ⟨_, m.nonneg x h, rfl⟩
  · rw [decide_eq_false (not_lt.2 h)]
    exact .inr rfl

theorem sq_pos {x : Fl m} (h : x ≠ nan) : IsPos (x * x) ∧ ((∃ s, x = inf s) → x * x = inf false) := by
  change IsPos (Fl.mul x x) ∧ (_ → Fl.mul x x = _)
  cases x with
  | fin v => exact ⟨round_pos (mul_self_nonneg v), fun ⟨s, hs⟩ => by cases hs⟩
  | inf s =>
    have : Fl.mul (inf s) (inf s) = (inf false : Fl m) := by simp [Fl.mul]
    rw [this]
    exact ⟨.inr rfl, fun _ => rfl⟩
  | nan => exact absurd rfl h

theorem add_pos' {x y : Fl m} (hx : IsPos x) (hy : IsPos y) : IsPos (x + y) ∧ (x = inf false ∨ y = inf false → x + y = inf false) := by
  change IsPos (Fl.add x y) ∧ (_ → Fl.add x y = _)
  rcases hx with ⟨v, hv, rfl⟩ | rfl <;> rcases hy with ⟨w, hw, rfl⟩ | rfl
  · exact ⟨round_pos (add_nonneg hv hw), fun h => by rcases h with h | h <;> cases h⟩
  · exact ⟨.inr rfl, fun _ => rfl⟩
  · exact ⟨.inr rfl, fun _ => rfl⟩
  · have : Fl.add (inf false) (inf false) = (inf false : Fl m) := by simp [Fl.add]
    exact ⟨.inr this, fun _ => this⟩

theorem lt_zero (x : Fl m) : ScalarFn.lt 0 x = Fl.lt (fin 0) x := rfl
theorem sqrt_def (x : Fl m) : ScalarFn.sqrt x = Fl.sqrt x := rfl

theorem sqNorm_nan {q : Quat (Fl m)} (h : HasNaN m q) : q.sqNorm = nan := by
  unfold Quat.sqNorm
  rcases h with h | h | h | h <;> rw [h] <;> simp only [nan_mul, nan_add, add_nan]

theorem normalized_nan {q : Quat (Fl m)} (h : HasNaN m q) : q.normalized = q := by
  unfold Quat.normalized
  simp only [sqNorm_nan h]
  exact if_neg (by rw [lt_zero]; exact Bool.false_ne_true)

/-- With an infinite component the normalisation gives a component that is not a number. -/
theorem normalized_inf {q : Quat (Fl m)} (hn : ¬ HasNaN m q) (hi : (∃ s, q.w = inf s) ∨ (∃ s, q.x = inf s) ∨ (∃ s, q.y = inf s) ∨ ∃ s, q.z = inf s) : HasNaN m q.normalized := by
  simp only [HasNaN, not_or] at hn
  obtain ⟨n1, n2, n3, n4⟩ := hn
  obtain ⟨p1, i1⟩ := sq_pos n1
  obtain ⟨p2, i2⟩ := sq_pos n2
  obtain ⟨p3, i3⟩ := sq_pos n3
  obtain ⟨p4, i4⟩ := sq_pos n4
  obtain ⟨p5, i5⟩ := add_pos' p1 p2
  obtain ⟨p6, i6⟩ := add_pos' p5 p3
  obtain ⟨p7, i7⟩ := add_pos' p6 p4
  have hz : q.sqNorm = inf false := by
    unfold Quat.sqNorm
    rcases hi with h | h | h | h
    · exact i7 (.inl (i6 (.inl (i5 (.inl (i1 h))))))
    · exact i7 (.inl (i6 (.inl (i5 (.inr (i2 h))))))
    · exact i7 (.inl (i6 (.inr (i3 h))))
    · exact i7 (.inr (i4 h))
  have hd : ∀ s, (inf s : Fl m) / ScalarFn.sqrt (inf false : Fl m) = nan := fun s => rfl
  have e : q.normalized = ⟨q.w / ScalarFn.sqrt (inf false : Fl m), q.x / ScalarFn.sqrt (inf false : Fl m), q.y / ScalarFn.sqrt (inf false : Fl m), q.z / ScalarFn.sqrt (inf false : Fl m)⟩ := by
    unfold Quat.normalized
    simp only [hz]
    exact if_pos rfl
  rw [e]
  rcases hi with ⟨s, h⟩ | ⟨s, h⟩ | ⟨s, h⟩ | ⟨s, h⟩
  · exact .inl (by simp only [h, hd])
  · exact .inr (.inl (by simp only [h, hd]))
  · exact .inr (.inr (.inl (by simp only [h, hd])))
  · exact .inr (.inr (.inr (by simp only [h, hd])))

theorem abs_mul_self' (x : ℝ) : |x * x| = x * x := abs_of_nonneg (mul_self_nonneg x)

theorem sqrt_fin {z : ℝ} (hz0 : 0 ≤ z) : ScalarFn.sqrt (fin z : Fl m) = Fl.round √z := by
  show (if z < 0 then nan else Fl.round √z) = (_ : Fl m)
  rw [if_neg (not_lt.2 hz0)]

theorem fin_sqNorm {a b c d : ℝ} : IsPos (⟨fin a, fin b, fin c, fin d⟩ : Quat (Fl m)).sqNorm := by
  have h : ∀ x : ℝ, (fin x : Fl m) ≠ nan := fun x h => by cases h
  exact (add_pos' (add_pos' (add_pos' (sq_pos (h a)).1 (sq_pos (h b)).1).1 (sq_pos (h c)).1).1 (sq_pos (h d)).1).1

/-- Normalisation without overflow. -/
theorem normalized_near {a b c d z : ℝ} (hN : 1 / 2 ≤ a * a + b * b + c * c + d * d) (e : (⟨fin a, fin b, fin c, fin d⟩ : Quat (Fl m)).sqNorm = fin z) (hz0 : 0 ≤ z) :
    0 < z ∧ (|m.rnd √z| ≤ m.max → NearUnit m (⟨fin a, fin b, fin c, fin d⟩ : Quat (Fl m)).normalized) := by
  obtain ⟨a1, b1, a2, b2, a3, b3, a4, b4, e1, e2, e3, e4, e5, e6, e7, e8, hz⟩ := four_fin e
  cases e1; cases e2; cases e3; cases e4; cases e5; cases e6; cases e7; cases e8
  simp only [abs_mul_self'] at hz
  have hs := m.err (√z)
  obtain ⟨spos, hu⟩ := norm_err m.u_nonneg m.u_le m.eta_nonneg m.eta_le hN hz hs (m.err (a / m.rnd √z)) (m.err (b / m.rnd √z)) (m.err (c / m.rnd √z)) (m.err (d / m.rnd √z))
  have zpos : 0 < z := by
    rcases hz0.lt_or_eq with h | h
    · exact h
    · rw [← h, Real.sqrt_zero, m.zero] at spos
      exact absurd spos (lt_irrefl 0)
  refine ⟨zpos, fun ho => ?_⟩
  have hl : Fl.lt (fin 0) (fin z : Fl m) = true := decide_eq_true zpos
  have hsq : ScalarFn.sqrt (fin z : Fl m) = fin (m.rnd √z) := by
    rw [sqrt_fin hz0]
    exact if_pos ho
  have hu' := m.u_le
  have hbound : ∀ x : ℝ, x * x ≤ 2 → |x| ≤ m.max := by
    intro x hx
    have := m.max_ge
    have : |x| ≤ 2 := abs_le_of_sq_le_sq (by linarith : x ^ 2 ≤ 2 ^ 2) (by norm_num)
    linarith
  have sq := fun x : ℝ => mul_self_nonneg x
  have hd : ∀ x : ℝ, m.rnd (x / m.rnd √z) * m.rnd (x / m.rnd √z) ≤ 2 → (fin x : Fl m) / fin (m.rnd √z) = fin (m.rnd (x / m.rnd √z)) := by
    intro x hx
    show (if m.rnd √z = 0 then _ else Fl.round (x / m.rnd √z)) = (_ : Fl m)
    rw [if_neg spos.ne']
    exact if_pos (hbound _ hx)
  have h2 := (abs_le.1 hu).2
  refine ⟨m.rnd (a / m.rnd √z), m.rnd (b / m.rnd √z), m.rnd (c / m.rnd √z), m.rnd (d / m.rnd √z), ?_, hu⟩
  rw [← hd a (by linarith [sq (m.rnd (b / m.rnd √z)), sq (m.rnd (c / m.rnd √z)), sq (m.rnd (d / m.rnd √z))]),
    ← hd b (by linarith [sq (m.rnd (a / m.rnd √z)), sq (m.rnd (c / m.rnd √z)), sq (m.rnd (d / m.rnd √z))]),
    ← hd c (by linarith [sq (m.rnd (a / m.rnd √z)), sq (m.rnd (b / m.rnd √z)), sq (m.rnd (d / m.rnd √z))]),
    ← hd d (by linarith [sq (m.rnd (a / m.rnd √z)), sq (m.rnd (b / m.rnd √z)), sq (m.rnd (c / m.rnd √z))])]
  have e' : (⟨fin a, fin b, fin c, fin d⟩ : Quat (Fl m)).sqNorm = fin z := e
  unfold Quat.normalized
  simp only [e', lt_zero, hl, hsq]
  exact if_pos trivial

/-- Normalisation of finite components that are not too small. -/
theorem normalized_fin {a b c d : ℝ} (hN : 1 / 2 ≤ a * a + b * b + c * c + d * d) : UnitOrLost m (⟨fin a, fin b, fin c, fin d⟩ : Quat (Fl m)).normalized := by
  have zero : ∀ z : Fl m, Fl.lt (fin 0) z = true → ScalarFn.sqrt z = inf false → (⟨fin a, fin b, fin c, fin d⟩ : Quat (Fl m)).sqNorm = z →
      (⟨fin a, fin b, fin c, fin d⟩ : Quat (Fl m)).normalized = ⟨fin 0, fin 0, fin 0, fin 0⟩ := by
    intro z hl hz e
    unfold Quat.normalized
    simp only [e, lt_zero, hl, hz]
    rw [if_pos trivial]
    rfl
  rcases fin_sqNorm (m := m) (a := a) (b := b) (c := c) (d := d) with ⟨z, hz0, e⟩ | e
  · obtain ⟨zpos, hnear⟩ := normalized_near hN e hz0
    by_cases ho : |m.rnd √z| ≤ m.max
    · exact .inl (hnear ho)
    · refine .inr (.inr (zero (fin z) (decide_eq_true zpos) ?_ e))
      rw [sqrt_fin hz0]
      unfold Fl.round
      rw [if_neg ho, decide_eq_false (not_lt.2 (Real.sqrt_nonneg z))]
  · exact .inr (.inr (zero _ rfl rfl e))

theorem normalized_zero : (⟨fin 0, fin 0, fin 0, fin 0⟩ : Quat (Fl m)).normalized = ⟨fin 0, fin 0, fin 0, fin 0⟩ := by
  have h0 : (Fl.round 0 : Fl m) = fin 0 := by
    unfold Fl.round
    rw [m.zero, abs_zero]
    exact if_pos (by linarith [m.max_ge])
  have h1 : (fin 0 : Fl m) * fin 0 = fin 0 := by
    show Fl.round (0 * 0) = _
    rw [mul_zero, h0]
  have h2 : (fin 0 : Fl m) + fin 0 = fin 0 := by
    show Fl.round (0 + 0) = _
    rw [add_zero, h0]
  unfold Quat.normalized Quat.sqNorm
  simp only [h1, h2, lt_zero, Fl.lt]
  simp

/-- Normalisation gives a nearly unit quaternion unless the components are all small, overflow or are not numbers. -/
theorem normalized_any {q : Quat (Fl m)} (h : ∀ a b c d : ℝ, q = ⟨fin a, fin b, fin c, fin d⟩ → 1 / 2 ≤ a * a + b * b + c * c + d * d ∨ q = ⟨fin 0, fin 0, fin 0, fin 0⟩) :
    UnitOrLost m q.normalized := by
  by_cases hn : HasNaN m q
  · rw [normalized_nan hn]
    exact .inr (.inl hn)
  by_cases hi : (∃ s, q.w = inf s) ∨ (∃ s, q.x = inf s) ∨ (∃ s, q.y = inf s) ∨ ∃ s, q.z = inf s
  · exact .inr (.inl (normalized_inf hn hi))
  obtain ⟨w, x, y, z⟩ := q
  simp only [HasNaN, not_or] at hn hi
  obtain ⟨n1, n2, n3, n4⟩ := hn
  obtain ⟨i1, i2, i3, i4⟩ := hi
  have key : ∀ x : Fl m, x ≠ nan → (¬ ∃ s, x = inf s) → ∃ v, x = fin v := by
    intro x h1 h2
    cases x with
    | fin v => exact ⟨v, rfl⟩
    | inf s => exact absurd ⟨s, rfl⟩ h2
    | nan => exact absurd rfl h1
  obtain ⟨a, rfl⟩ := key _ n1 i1
  obtain ⟨b, rfl⟩ := key _ n2 i2
  obtain ⟨c, rfl⟩ := key _ n3 i3
  obtain ⟨d, rfl⟩ := key _ n4 i4
  rcases h a b c d rfl with h | h
  · exact normalized_fin h
  · rw [h, normalized_zero]
    exact .inr (.inr rfl)

theorem unitOrLost_normalized {q : Quat (Fl m)} (h : UnitOrLost m q) : UnitOrLost m q.normalized := by
  refine normalized_any (fun a b c d e => ?_)
  rcases h with ⟨w, x, y, z, e', hu⟩ | h | h
  · rw [e] at e'
    cases e'
    have := m.u_le
    exact .inl (by linarith [(abs_le.1 hu).1])
  · rw [e] at h
    rcases h with h | h | h | h <;> cases h
  · exact .inr h

theorem deltaQ_any (v : Vec3 (Fl m)) : UnitOrLost m (Utility.deltaQ v).normalized := by
  refine normalized_any (fun a b c d e => .inl ?_)
  unfold Utility.deltaQ at e
  simp only [Quat.mk.injEq] at e
  have : a = 1 := by
    have h : (fin 1 : Fl m) = fin a := e.1
    cases h; rfl
  subst this
  linarith [mul_self_nonneg b, mul_self_nonneg c, mul_self_nonneg d]

theorem zero_mul' {x c : Fl m} (h : (fin 0 : Fl m) * x = c) : c = fin 0 ∨ c = nan := by
  subst h
  change Fl.mul (fin 0) x = _ ∨ Fl.mul (fin 0) x = _
  cases x with
  | fin v =>
    refine .inl ?_
    show Fl.round (0 * v) = _
    unfold Fl.round
    rw [zero_mul, m.zero, abs_zero]
    exact if_pos (by linarith [m.max_ge])
  | inf s => exact .inr (if_pos rfl)
  | nan => exact .inr rfl

theorem zn_add {x y : Fl m} (hx : x = fin 0 ∨ x = nan) (hy : y = fin 0 ∨ y = nan) : x + y = fin 0 ∨ x + y = nan := by
  rcases hx with rfl | rfl
  · rcases hy with rfl | rfl
    · refine .inl ?_
      show Fl.round (0 + 0) = _
      unfold Fl.round
      rw [zero_add, m.zero, abs_zero]
      exact if_pos (by linarith [m.max_ge])
    · exact .inr (add_nan _)
  · exact .inr (nan_add _)

theorem zn_neg {x : Fl m} (hx : x = fin 0 ∨ x = nan) : -x = fin 0 ∨ -x = nan := by
  rcases hx with rfl | rfl
  · refine .inl ?_
    show (fin (-0) : Fl m) = fin 0
    rw [neg_zero]
  · exact .inr rfl

theorem product_big {a b c d p1 p2 p3 p4 : ℝ} {v : Vec3 (Fl m)} (hu : |a * a + b * b + c * c + d * d - 1| ≤ 10 * m.u)
    (e : (⟨fin a, fin b, fin c, fin d⟩ : Quat (Fl m)).mul (Utility.deltaQ v) = ⟨fin p1, fin p2, fin p3, fin p4⟩) : 1 / 2 ≤ p1 * p1 + p2 * p2 + p3 * p3 + p4 * p4 := by
  generalize hq : Utility.deltaQ v = r at e
  obtain ⟨w, x, y, z⟩ := r
  have hw : w = fin 1 := by
    unfold Utility.deltaQ at hq
    simp only [Quat.mk.injEq] at hq
    exact hq.1.symm
  subst hw
  unfold Quat.mul at e
  simp only [Quat.mk.injEq] at e
  obtain ⟨e1, e2, e3, e4⟩ := e
  obtain ⟨_, _, _, _, _, _, _, _, f1, f2, f3, f4, f5, f6, f7, f8, h1⟩ := four_fin_w e1
  obtain ⟨_, _, _, _, _, _, _, _, g1, g2, g3, g4, g5, g6, g7, g8, h2⟩ := four_fin_v e2
  obtain ⟨_, _, _, _, _, _, _, _, i1, i2, i3, i4, i5, i6, i7, i8, h3⟩ := four_fin_v e3
  obtain ⟨_, _, _, _, _, _, _, _, j1, j2, j3, j4, j5, j6, j7, j8, h4⟩ := four_fin_v e4
  subst f4 f6 f8
  cases f1; cases f2; cases f3; cases f5; cases f7
  cases g1; cases g2; cases g3; cases g4; cases g5; cases g6; cases g7; cases g8
  cases i1; cases i2; cases i3; cases i4; cases i5; cases i6; cases i7; cases i8
  cases j1; cases j2; cases j3; cases j4; cases j5; cases j6; cases j7; cases j8
  exact prod_big m.u_le m.eta_le hu h1 h2 h3 h4

/-- The update of an attitude by a small rotation, as all parts of the filter do it. -/
theorem step_any {q : Quat (Fl m)} (h : UnitOrLost m q) (v : Vec3 (Fl m)) : UnitOrLost m (q.mul (Utility.deltaQ v)).normalized := by
  refine normalized_any (fun p1 p2 p3 p4 e => ?_)
  rcases h with ⟨a, b, c, d, rfl, hu⟩ | h | rfl
  · exact .inl (product_big hu e)
  · exfalso
    have : (q.mul (Utility.deltaQ v)).w = nan := by
      simp only [Quat.mul, sub_def]
      rcases h with h | h | h | h <;> rw [h] <;> simp only [nan_mul, nan_add, add_nan, neg_nan]
    rw [e] at this
    cases this
  · right
    generalize Utility.deltaQ v = r at e
    have h0 : ∀ x : Fl m, (fin 0 : Fl m) * x = fin 0 ∨ (fin 0 : Fl m) * x = nan := fun x => zero_mul' rfl
    rw [e]
    unfold Quat.mul at e
    simp only [Quat.mk.injEq, sub_def] at e
    obtain ⟨e1, e2, e3, e4⟩ := e
    have k1 := zn_add (zn_add (zn_add (h0 r.w) (zn_neg (h0 r.x))) (zn_neg (h0 r.y))) (zn_neg (h0 r.z))
    have k2 := zn_add (zn_add (zn_add (h0 r.x) (h0 r.w)) (h0 r.z)) (zn_neg (h0 r.y))
    have k3 := zn_add (zn_add (zn_add (h0 r.y) (h0 r.w)) (h0 r.x)) (zn_neg (h0 r.z))
    have k4 := zn_add (zn_add (zn_add (h0 r.z) (h0 r.w)) (h0 r.y)) (zn_neg (h0 r.x))
    rw [e1] at k1
    rw [e2] at k2
    rw [e3] at k3
    rw [e4] at k4
    have key : ∀ p : ℝ, (fin p : Fl m) = fin 0 ∨ (fin p : Fl m) = nan → (fin p : Fl m) = fin 0 := by
      intro p h
      rcases h with h | h
      · exact h
      · cases h
    rw [key _ k1, key _ k2, key _ k3, key _ k4]

/-! Without overflow -/

/-- A finite number of bounded size. -/
def Small (B : ℝ) (x : Fl m) : Prop := ∃ v, x = fin v ∧ |v| ≤ B

theorem round_small {x A B : ℝ} (h : |x| ≤ A) (hB : A * (1001 / 1000) + 1 ≤ B) (hm : B ≤ m.max) : Small B (Fl.round x : Fl m) := by
  have h1 := m.err x
  have h2 : |m.rnd x| ≤ B := by
    have := abs_add_le (m.rnd x - x) x
    rw [sub_add_cancel] at this
    have : m.u * |x| ≤ 1 / 1000 * |x| := mul_le_mul_of_nonneg_right m.u_le (abs_nonneg x)
    have := m.eta_le
    have := m.u_le
    linarith
  exact ⟨_, if_pos (h2.trans hm), h2⟩

theorem Small.add {A B C : ℝ} {x y : Fl m} (hx : Small A x) (hy : Small B y) (hC : (A + B) * (1001 / 1000) + 1 ≤ C) (hm : C ≤ m.max) : Small C (x + y) := by
  obtain ⟨a, rfl, ha⟩ := hx
  obtain ⟨b, rfl, hb⟩ := hy
  exact round_small ((abs_add_le a b).trans (add_le_add ha hb)) hC hm

theorem Small.mul {A B C : ℝ} {x y : Fl m} (hx : Small A x) (hy : Small B y) (hC : A * B * (1001 / 1000) + 1 ≤ C) (hm : C ≤ m.max) : Small C (x * y) := by
  obtain ⟨a, rfl, ha⟩ := hx
  obtain ⟨b, rfl, hb⟩ := hy
  refine round_small (A := A * B) ?_ hC hm
  rw [abs_mul]
  exact mul_le_mul ha hb (abs_nonneg b) ((abs_nonneg a).trans ha)

theorem Small.neg {A : ℝ} {x : Fl m} (hx : Small A x) : Small A (-x) := by
  obtain ⟨a, rfl, ha⟩ := hx
  exact ⟨-a, rfl, by rwa [abs_neg]⟩

theorem half_small {x : Fl m} (h : Small 1000 x) (hm : 1000000000 ≤ m.max) : Small 1000 (x / lit 2) := by
  obtain ⟨a, rfl, ha⟩ := h
  have h2 := m.err 2
  rw [abs_two] at h2
  have hu := m.u_le
  have he := m.eta_le
  obtain ⟨l1, l2⟩ := abs_le.1 h2
  have hl : (lit 2 : Fl m) = fin (m.rnd 2) := by
    show Fl.round ((2 : ℚ) : ℝ) = _
    rw [show ((2 : ℚ) : ℝ) = 2 by norm_num]
    exact if_pos (by rw [abs_le]; constructor <;> linarith)
  rw [hl]
  show Small 1000 (if m.rnd 2 = 0 then _ else Fl.round (a / m.rnd 2))
  rw [if_neg (by intro hc; rw [hc] at l1; linarith)]
  refine round_small (A := 600) ?_ (by norm_num) (by linarith)
  rw [abs_div, abs_of_pos (by linarith : 0 < m.rnd 2), div_le_iff₀ (by linarith)]
  linarith

/-- C109: a step with a finite rotation of moderate size keeps a unit quaternion a unit quaternion, to within the same ten rounding errors. -/
theorem C109_step (hm : 1000000000 ≤ m.max) {q : Quat (Fl m)} (h : NearUnit m q) {v : Vec3 (Fl m)} (hx : Small 1000 v.x) (hy : Small 1000 v.y) (hz : Small 1000 v.z) :
    NearUnit m (q.mul (Utility.deltaQ v)).normalized := by
  obtain ⟨a, b, c, d, rfl, hu⟩ := h
  have hb : ∀ x : ℝ, x * x ≤ 4 → Small 2 (fin x : Fl m) := fun x hx => ⟨x, rfl, abs_le_of_sq_le_sq (by linarith : x ^ 2 ≤ 2 ^ 2) (by norm_num)⟩
  have hu' := m.u_le
  have h2 := (abs_le.1 hu).2
  have sq := fun x : ℝ => mul_self_nonneg x
  have sa := hb a (by linarith [sq b, sq c, sq d])
  have sb := hb b (by linarith [sq a, sq c, sq d])
  have sc := hb c (by linarith [sq a, sq b, sq d])
  have sd := hb d (by linarith [sq a, sq b, sq c])
  have s1 : Small 1000 (fin 1 : Fl m) := ⟨1, rfl, by norm_num⟩
  have hx' := half_small hx hm
  have hy' := half_small hy hm
  have hz' := half_small hz hm
  have pr : ∀ {x y : Fl m}, Small 2 x → Small 1000 y → Small 2100 (x * y) := fun hx hy => hx.mul hy (by norm_num) (by linarith)
  have sm : ∀ {x y z w : Fl m}, Small 2100 x → Small 2100 y → Small 2100 z → Small 2100 w → Small 9000 (x + y + z + w) := fun hx hy hz hw =>
    ((hx.add hy (by norm_num : _ ≤ (4300 : ℝ)) (by linarith)).add hz (by norm_num : _ ≤ (6500 : ℝ)) (by linarith)).add hw (by norm_num) (by linarith)
  have e : ∃ p1 p2 p3 p4, (⟨fin a, fin b, fin c, fin d⟩ : Quat (Fl m)).mul (Utility.deltaQ v) = ⟨fin p1, fin p2, fin p3, fin p4⟩ ∧ |p1| ≤ 9000 ∧ |p2| ≤ 9000 ∧ |p3| ≤ 9000 ∧ |p4| ≤ 9000 := by
    obtain ⟨p1, e1, b1⟩ := sm (pr sa s1) (pr sb hx').neg (pr sc hy').neg (pr sd hz').neg
    obtain ⟨p2, e2, b2⟩ := sm (pr sa hx') (pr sb s1) (pr sc hz') (pr sd hy').neg
    obtain ⟨p3, e3, b3⟩ := sm (pr sa hy') (pr sc s1) (pr sd hx') (pr sb hz').neg
    obtain ⟨p4, e4, b4⟩ := sm (pr sa hz') (pr sd s1) (pr sb hy') (pr sc hx').neg
    refine ⟨p1, p2, p3, p4, ?_, b1, b2, b3, b4⟩
    rw [← e1, ← e2, ← e3, ← e4]
    rfl
  obtain ⟨p1, p2, p3, p4, e, b1, b2, b3, b4⟩ := e
  have hN := product_big hu e
  rw [e]
  have sqs : ∀ p : ℝ, |p| ≤ 9000 → Small 82000000 ((fin p : Fl m) * fin p) := by
    intro p hp
    have h : Small 9000 (fin p : Fl m) := ⟨p, rfl, hp⟩
    exact h.mul h (by norm_num) (by linarith)
  obtain ⟨z, ez, hz⟩ := (((sqs p1 b1).add (sqs p2 b2) (by norm_num : _ ≤ (170000000 : ℝ)) (by linarith)).add (sqs p3 b3) (by norm_num : _ ≤ (260000000 : ℝ)) (by linarith)).add (sqs p4 b4)
    (by norm_num : _ ≤ (400000000 : ℝ)) (by linarith)
  have hz0 : 0 ≤ z := by
    rcases fin_sqNorm (m := m) (a := p1) (b := p2) (c := p3) (d := p4) with ⟨z', hz', e'⟩ | e'
    · have : (fin z : Fl m) = fin z' := ez.symm.trans e'
      cases this
      exact hz'
    · have : (fin z : Fl m) = inf false := ez.symm.trans e'
      cases this
  refine (normalized_near hN ez hz0).2 ?_
  have hr : √z ≤ 20000 := Real.sqrt_le_iff.2 ⟨by norm_num, by linarith [(abs_le.1 hz).2]⟩
  obtain ⟨w, hw, hw'⟩ := round_small (m := m) (x := √z) (A := 20000) (B := 1000000) (by rwa [abs_of_nonneg (Real.sqrt_nonneg z)]) (by norm_num) (by linarith)
  unfold Fl.round at hw
  split at hw
  · assumption
  · cases hw

end floats

/-! ### Histories, for any scalar type -/

variable {K T : Type} [Add K] [Sub K] [Mul K] [Neg K] [Div K] [Zero K] [One K] [ScalarFn K] [TimeOps T] [TimeCast T K]

/-- A property of quaternions that every update by a small rotation keeps. -/
def QuatRule (P : Quat K → Prop) : Prop := ∀ q v, P q → P (q.mul (Utility.deltaQ v)).normalized

/-- All attitudes of the queues have the property, and so has the state a running propagator started from; a first attitude has it too if there is none yet. -/
structure QuatKept (P : Quat K → Prop) (b : Backend K T) : Prop where
  first : b.att.items.getLast? = none → ∀ a g, P (Att.initQuat a g)
  att : ∀ i ∈ b.att.items, P i.q
  queue : ∀ i ∈ b.u.q.items, P i.st.q
  seed : b.status = .initialized → P b.u.q.initState.q

/-- An attitude handed out has the property. -/
def QuatOut (P : Quat K → Prop) : BOut K T → Prop
  | .state (some s) => P s.st.q
  | _ => True

variable {P : Quat K → Prop}

theorem forall_suffix {α : Type} {p : α → Prop} {l l' : List α} (h : l' <:+ l) (hl : ∀ i ∈ l, p i) : ∀ i ∈ l', p i := fun i hi => hl i (h.subset hi)

namespace Att

theorem quat_propagate (hp : QuatRule P) (s : Att K T) (g a w : Vec3 K) (t : T) (h : ∀ i ∈ s.items, P i.q) (hf : s.items.getLast? = none → ∀ a g, P (initQuat a g)) :
    (∀ i ∈ (s.propagate g a w t).1.items, P i.q) ∧ ((s.propagate g a w t).1.items.getLast? = none → ∀ a g, P (initQuat a g)) := by
  unfold propagate
  split
  · rename_i h0
    dsimp only
    split
    · exact ⟨h, hf⟩
    · refine ⟨fun i hi => ?_, fun _ => hf h0⟩
      rw [List.mem_singleton.1 hi]
      exact hf h0 _ _
  · rename_i i0 h0
    dsimp only
    split
    · exact ⟨h, hf⟩
    · refine ⟨fun i hi => ?_, fun hc => by simp at hc⟩
      rcases List.mem_append.1 hi with hi | hi
      · exact h i hi
      · rw [List.mem_singleton.1 hi]
        exact hp _ _ (h i0 (List.mem_of_getLast? h0))

theorem quat_search (ts thr : T) : ∀ (l : List (AttItem K T)) (prev : Option (AttItem K T)) (q : Quat K), search ts thr prev l = .ok (some q) → (∀ i ∈ prev, P i.q) →
    (∀ i ∈ l, P i.q) → P q
  | [], _, _, h, _, _ => by cases h
  | it :: rest, prev, q, h, hp, hl => by
    rw [search] at h
    split at h
    · cases prev with
      | none => cases h
      | some p' =>
        dsimp only [Res.bind_ok] at h
        split at h
        · cases h; exact hp _ rfl
        · split at h
          · cases h; exact hl _ (List.mem_cons_self ..)
          · cases h
    · exact quat_search ts thr rest (some it) q h (fun i hi => by cases hi; exact hl _ (List.mem_cons_self ..)) (fun i hi => hl i (List.mem_cons_of_mem _ hi))

theorem quat_get (s : Att K T) (ts thr : T) (q : Quat K) (h : s.getAttitude ts thr = .ok (some q)) (hl : ∀ i ∈ s.items, P i.q) : P q := by
  unfold getAttitude at h
  split at h
  · rename_i a b ha hb
    split at h
    · split at h
      · cases h; exact hl _ (List.mem_of_getLast? hb)
      · cases h
    · split at h
      · split at h
        · cases h; exact hl _ (List.mem_of_head? ha)
        · cases h
      · exact quat_search ts thr _ none q h (fun i hi => by cases hi) (fun i hi => hl i (List.mem_reverse.1 hi))
  · cases h

end Att

namespace PropQueue

theorem quat_propagate (hp : QuatRule P) (s : PropQueue K T) (n : Nat) (g a w : Vec3 K) (t : T) (h : ∀ i ∈ s.items, P i.st.q) (h0 : P s.initState.q) :
    (∀ i ∈ (s.propagate n g a w t).items, P i.st.q) ∧ (s.propagate n g a w t).initState = s.initState := by
  unfold propagate
  dsimp only
  split
  · refine ⟨fun i hi => ?_, rfl⟩
    rw [List.mem_singleton.1 hi]
    exact h0
  · rename_i i0 hi0
    refine ⟨fun i hi => ?_, rfl⟩
    rcases List.mem_append.1 hi with hi | hi
    · exact h i hi
    · rw [List.mem_singleton.1 hi]
      exact hp _ _ (h i0 (List.mem_of_getLast? hi0))

theorem quat_reprop (hp : QuatRule P) (g : Vec3 K) : ∀ (l : List (PropItem K T)) (s : PropQueue K T) (i0 : PropItem K T), P i0.st.q →
    (∀ i ∈ (repropLoop g s i0 l).2, P i.st.q) ∧ (repropLoop g s i0 l).1.initState = s.initState
  | [], s, i0, _ => ⟨fun i hi => absurd hi List.not_mem_nil, rfl⟩
  | i1 :: rest, s, i0, h => by
    have hj : P (s.stepItem g i0 i1.accel i1.gyro i1.ts).st.q := hp _ _ h
    obtain ⟨h1, h2⟩ := quat_reprop hp g rest { s with F := s.stepF i0 i1.accel i1.gyro i1.ts, G := s.stepG i0 i1.ts } _ hj
    refine ⟨fun i hi => ?_, h2⟩
    rcases List.mem_cons.1 hi with rfl | hi
    · exact hj
    · exact h1 i hi

theorem quat_repropagate (hp : QuatRule P) (s : PropQueue K T) (g : Vec3 K) (h : ∀ i ∈ s.items, P i.st.q) :
    (∀ i ∈ (s.repropagate g).items, P i.st.q) ∧ (s.repropagate g).initState = s.initState := by
  unfold repropagate
  split
  · exact ⟨h, rfl⟩
  · rename_i i0 rest e
    have h0 : P i0.st.q := h i0 (by rw [e]; exact List.mem_cons_self ..)
    obtain ⟨h1, h2⟩ := quat_reprop hp g rest s i0 h0
    refine ⟨fun i hi => ?_, h2⟩
    rcases List.mem_cons.1 hi with rfl | hi
    · exact h0
    · exact h1 i hi

theorem quat_reset (s : PropQueue K T) (ts thr : T) (h : ∀ i ∈ s.items, P i.st.q) : (∀ i ∈ (s.resetOrigin ts thr).1.items, P i.st.q) ∧ (s.resetOrigin ts thr).1.initState = s.initState := by
  have hl : ∀ l : List (PropItem K T), resetLoop ts thr l <:+ l := by
    intro l
    induction l with
    | nil => exact List.suffix_refl _
    | cons i rest ih =>
      rw [resetLoop]
      split
      · exact ih.trans (List.suffix_cons _ _)
      · exact List.suffix_refl _
  unfold resetOrigin
  split
  · exact ⟨h, rfl⟩
  · exact ⟨forall_suffix (hl _) h, rfl⟩

end PropQueue

namespace Update

theorem quat_store (s s' : PropQueue K T) (c : DMat K) (h : storeCov s c = .ok s') (hs : ∀ i ∈ s.items, P i.st.q) : (∀ i ∈ s'.items, P i.st.q) ∧ s'.initState = s.initState := by
  unfold storeCov at h
  split at h
  · cases h
  · rename_i i0 rest e
    obtain ⟨_, _, h⟩ := Res.bind_eq_ok.1 h
    obtain ⟨_, _, h⟩ := Res.bind_eq_ok.1 h
    obtain ⟨_, _, h⟩ := Res.bind_eq_ok.1 h
    cases h
    rw [e] at hs
    refine ⟨fun i hi => ?_, rfl⟩
    rcases List.mem_cons.1 hi with rfl | hi
    · exact hs i0 (List.mem_cons_self ..)
    · exact hs i (List.mem_cons_of_mem _ hi)

theorem quat_correct (hp : QuatRule P) (dx : DMat K) (s s' : PropQueue K T) (m m' : FrameMgr K T) (h : correct dx s m = .ok (s', m')) (hs : ∀ i ∈ s.items, P i.st.q) :
    (∀ i ∈ s'.items, P i.st.q) ∧ s'.initState = s.initState := by
  unfold correct at h
  split at h
  · cases h
  · rename_i i0 rest e
    obtain ⟨_, _, h⟩ := Res.bind_eq_ok.1 h
    obtain ⟨_, _, h⟩ := Res.bind_eq_ok.1 h
    obtain ⟨_, _, h⟩ := Res.bind_eq_ok.1 h
    obtain ⟨_, _, h⟩ := Res.bind_eq_ok.1 h
    obtain ⟨_, _, h⟩ := Res.bind_eq_ok.1 h
    obtain ⟨_, _, h⟩ := Res.bind_eq_ok.1 h
    obtain ⟨_, _, h⟩ := Res.bind_eq_ok.1 h
    obtain ⟨_, _, h⟩ := Res.bind_eq_ok.1 h
    cases h
    rw [e] at hs
    refine ⟨fun i hi => ?_, rfl⟩
    rcases List.mem_cons.1 hi with rfl | hi
    · exact hp _ _ (hs i0 (List.mem_cons_self ..))
    · exact hs i (List.mem_cons_of_mem _ hi)

theorem quat_finish (hp : QuatRule P) (env : Env K) (g : Vec3 K) (u u' : Upd K T) (b : Bool) (h : finish env g u = .ok (b, u')) (hs : ∀ i ∈ u.q.items, P i.st.q) :
    (∀ i ∈ u'.q.items, P i.st.q) ∧ u'.q.initState = u.q.initState := by
  unfold finish at h
  obtain ⟨c1, h1, h⟩ := Res.bind_eq_ok.1 h
  obtain ⟨c2, h2, h⟩ := Res.bind_eq_ok.1 h
  obtain ⟨s, h3, h⟩ := Res.bind_eq_ok.1 h
  cases h
  obtain ⟨e1, e2⟩ := quat_store _ _ _ h3 hs
  obtain ⟨f1, f2⟩ := PropQueue.quat_repropagate hp s g e1
  exact ⟨f1, f2.trans e2⟩

theorem quat_update (hp : QuatRule P) (env : Env K) (noise : K) (maxUsed : Nat) (g : Vec3 K) (u u' : Upd K T) (ts thr : T) (good : Bool)
    (h : update env noise maxUsed g u ts thr = .ok (good, u')) (hs : ∀ i ∈ u.q.items, P i.st.q) : (∀ i ∈ u'.q.items, P i.st.q) ∧ u'.q.initState = u.q.initState := by
  obtain ⟨r1, r2⟩ := PropQueue.quat_reset u.q ts thr hs
  unfold update at h
  generalize u.q.resetOrigin ts thr = ro at *
  obtain ⟨s, found⟩ := ro
  dsimp only at h r1 r2
  split at h
  · cases h; exact ⟨r1, r2⟩
  · obtain ⟨policy, _, h⟩ := Res.bind_eq_ok.1 h
    obtain ⟨⟨g1, c⟩, _, h⟩ := Res.bind_eq_ok.1 h
    dsimp only at h
    split at h
    · cases h; exact ⟨r1, r2⟩
    · obtain ⟨⟨g2, m⟩, _, h⟩ := Res.bind_eq_ok.1 h
      dsimp only at h
      split at h
      · cases h; exact ⟨r1, r2⟩
      · obtain ⟨⟨w, fs, pos⟩, _, h⟩ := Res.bind_eq_ok.1 h
        dsimp only at h
        split at h
        · obtain ⟨f1, f2⟩ := quat_finish hp _ _ _ _ _ h r1
          exact ⟨f1, f2.trans r2⟩
        · obtain ⟨mh, _, h⟩ := Res.bind_eq_ok.1 h
          cases mh with
          | none => cases h; exact ⟨r1, r2⟩
          | some hxr =>
            obtain ⟨u2, hu, h⟩ := Res.bind_eq_ok.1 h
            unfold updateState at hu
            obtain ⟨k, _, hu⟩ := Res.bind_eq_ok.1 hu
            obtain ⟨⟨s2, m2⟩, hc, hu⟩ := Res.bind_eq_ok.1 hu
            cases hu
            obtain ⟨c1, c2⟩ := quat_correct hp _ _ _ _ _ hc r1
            obtain ⟨f1, f2⟩ := quat_finish hp _ _ _ _ _ h c1
            exact ⟨f1, f2.trans (c2.trans r2)⟩

end Update

namespace Backend

theorem quat_replay (hp : QuatRule P) (mt : Bool) (n : Nat) (g : Vec3 K) : ∀ (l : List (AttItem K T)) (s s' : PropQueue K T), replay mt n g s l = .ok s' → (∀ i ∈ s.items, P i.st.q) →
    P s.initState.q → (∀ i ∈ s'.items, P i.st.q) ∧ s'.initState = s.initState
  | [], s, s', h, hs, _ => by cases h; exact ⟨hs, rfl⟩
  | it :: rest, s, s', h, hs, h0 => by
    rw [replay] at h
    split at h
    · obtain ⟨p1, p2⟩ := PropQueue.quat_propagate hp s n g it.accel it.gyro it.ts hs h0
      obtain ⟨r1, r2⟩ := quat_replay hp mt n g rest _ _ h p1 (by rw [p2]; exact h0)
      exact ⟨r1, r2.trans p2⟩
    · cases h

theorem quat_initialise (hp : QuatRule P) (env : Env K) (g : Vec3 K) (b b' : Backend K T) (r : Bool) (h : initialise env g b = .ok (r, b')) (hk : QuatKept P b) :
    (∀ i ∈ b'.att.items, P i.q) ∧ (∀ i ∈ b'.u.q.items, P i.st.q) ∧ (r = true → P b'.u.q.initState.q) ∧ b'.att.items.getLast? = b.att.items.getLast? := by
  obtain ⟨-, -, hatt, hlast, -, hq, -⟩ := initialise_any _ _ _ _ _ h
  have ha := forall_suffix hatt hk.att
  cases r with
  | false => exact ⟨ha, by rw [hq rfl]; exact hk.queue, by simp, hlast⟩
  | true =>
    obtain ⟨-, -, hr⟩ := initialise_queue _ _ _ _ _ h
    obtain ⟨st, t, -, hr⟩ := hr rfl
    obtain ⟨fi, fj, rest, fi', fj', q, -, -, -, hget, hfq, -, -, -, -, -, -, hseed, -⟩ := C78_initialise _ _ _ _ h
    have hP : P b'.u.q.initState.q := by
      rw [hseed]
      show P fi'.q
      rw [hfq]
      exact Att.quat_get _ _ _ _ hget hk.att
    have e : b'.u.q.initState = st := (replay_spec _ _ _ _ _ _ hr).1
    obtain ⟨r1, -⟩ := quat_replay hp _ _ _ _ _ _ hr hk.queue (by rw [e] at hP; exact hP)
    exact ⟨ha, r1, fun _ => hP, hlast⟩

theorem quat_onFeat (hp : QuatRule P) (env : Env K) (g : Vec3 K) (b b' : Backend K T) (m : FeatMsg K T) (h : b.onFeat env g m = .ok b') (hk : QuatKept P b) : QuatKept P b' := by
  unfold onFeat at h
  obtain ⟨b1, h1, h⟩ := Res.bind_eq_ok.1 h
  obtain ⟨b2, h2, h⟩ := Res.bind_eq_ok.1 h
  have k0 : QuatKept P (b.setWin (b.u.w.insert m)) := ⟨hk.first, hk.att, hk.queue, hk.seed⟩
  have k1 : QuatKept P b1 := by
    unfold tryInit at h1
    split at h1
    · rename_i hst
      obtain ⟨⟨good, b3⟩, hi, h1⟩ := Res.bind_eq_ok.1 h1
      obtain ⟨i1, i2, i3, i4⟩ := quat_initialise hp _ _ _ _ _ hi k0
      obtain ⟨-, -, -, -, i5, -, -⟩ := initialise_any _ _ _ _ _ hi
      dsimp only at h1
      split at h1
      · rename_i hg
        cases h1
        exact ⟨fun hc => k0.first (i4.symm.trans hc), i1, i2, fun _ => i3 hg⟩
      · obtain ⟨w, rfl, -⟩ := shrunk_keep _ _ h1
        exact ⟨fun hc => k0.first (i4.symm.trans hc), i1, i2, fun hc => absurd ((i5.trans hst).symm.trans hc) (by decide)⟩
    · cases h1
      exact k0
  have k2 : QuatKept P b2 := by
    unfold tryUpdate at h2
    split at h2
    · cases h2
      exact k1
    · rename_i hst
      split at h2
      · obtain ⟨⟨good, u⟩, hu, h2⟩ := Res.bind_eq_ok.1 h2
        obtain ⟨u1, u2⟩ := Update.quat_update hp _ _ _ _ _ _ _ _ _ hu k1.queue
        dsimp only at h2
        split at h2
        · obtain ⟨w, _, h2⟩ := Res.bind_eq_ok.1 h2
          cases h2
          refine ⟨k1.first, k1.att, u1, fun _ => ?_⟩
          show P u.q.initState.q
          rw [u2]
          exact k1.seed hst
        · obtain ⟨w, rfl, -⟩ := shrunk_keep _ _ h2
          exact ⟨k1.first, k1.att, u1, fun hc => by cases hc⟩
      · cases h2
  obtain ⟨c1, c2, c3, c4⟩ := cleanAtt_any _ _ h
  exact ⟨fun hc => k2.first (c4.symm.trans hc), forall_suffix c3 k2.att, by rw [c1]; exact k2.queue, by rw [c1, c2]; exact k2.seed⟩

theorem quat_runOnce (hp : QuatRule P) (env : Env K) (g : Vec3 K) (b b' : Backend K T) (r : Bool) (h : b.runOnce env g = .ok (r, b')) (hk : QuatKept P b) : QuatKept P b' := by
  unfold runOnce at h
  dsimp only at h
  split at h
  · obtain ⟨⟨res, b1⟩, h1, h⟩ := Res.bind_eq_ok.1 h
    have k1 : QuatKept P b1 := by
      unfold onImu at h1
      split at h1
      · cases h1
        exact ⟨hk.first, hk.att, hk.queue, hk.seed⟩
      · rename_i m _ _
        obtain ⟨ha, hl⟩ := Att.quat_propagate hp b.att g m.accel m.gyro m.ts hk.att hk.first
        dsimp only at h1
        split at h1
        · cases h1
          exact ⟨hl, ha, hk.queue, hk.seed⟩
        · rename_i hst
          split at h1
          · cases h1
            obtain ⟨p1, p2⟩ := PropQueue.quat_propagate hp b.u.q b.u.w.frm.extrinsics.length g m.accel m.gyro m.ts hk.queue (hk.seed hst)
            refine ⟨hl, ha, p1, fun _ => ?_⟩
            show P (b.u.q.propagate _ _ _ _ _).initState.q
            rw [p2]
            exact hk.seed hst
          · cases h1
    dsimp only at h
    split at h
    · cases h
      exact k1
    · obtain ⟨b2, h2, h⟩ := Res.bind_eq_ok.1 h
      cases h
      exact quat_onFeat hp _ _ _ _ _ h2 k1
  · cases h
    exact ⟨hk.first, hk.att, hk.queue, hk.seed⟩

end Backend

theorem back_mem {α : Type} : ∀ (l : List α) (x : α), back l = .ok x → x ∈ l := by
  intro l x h
  unfold back at h
  split at h
  · rename_i y e
    cases h
    exact List.mem_of_getLast? e
  · cases h

theorem front_mem {α : Type} : ∀ (l : List α) (x : α), front l = .ok x → x ∈ l
  | [], _, h => by cases h
  | y :: l, x, h => by cases h; exact List.mem_cons_self ..

theorem quat_step (hp : QuatRule P) (p p' : BProc K T) (op : BOp K T) (o : BOut K T) (h : p.step op = .ok (p', o)) (hk : QuatKept P p.b) : QuatKept P p'.b ∧ QuatOut P o := by
  cases op with
  | imu m => cases h; exact ⟨⟨hk.first, hk.att, hk.queue, hk.seed⟩, trivial⟩
  | feat m => cases h; exact ⟨⟨hk.first, hk.att, hk.queue, hk.seed⟩, trivial⟩
  | run env =>
    obtain ⟨⟨r, b⟩, h1, h⟩ := Res.bind_eq_ok.1 h
    cases h
    exact ⟨Backend.quat_runOnce hp _ _ _ _ _ h1 hk, trivial⟩
  | runTest => cases h; exact ⟨⟨hk.first, hk.att, hk.queue, hk.seed⟩, trivial⟩
  | publishPropagate =>
    obtain ⟨s, h1, h⟩ := Res.bind_eq_ok.1 h
    cases h
    refine ⟨hk, ?_⟩
    unfold Backend.publishPropagate at h1
    split at h1
    · cases h1; trivial
    · obtain ⟨i, hi, h1⟩ := Res.bind_eq_ok.1 h1
      cases h1
      exact hk.queue i (back_mem _ _ hi)
  | publishUpdate =>
    obtain ⟨s, h1, h⟩ := Res.bind_eq_ok.1 h
    cases h
    refine ⟨hk, ?_⟩
    unfold Backend.publishUpdate at h1
    split at h1
    · cases h1; trivial
    · obtain ⟨i, hi, h1⟩ := Res.bind_eq_ok.1 h1
      cases h1
      exact hk.queue i (front_mem _ _ hi)
  | reset => cases h; exact ⟨⟨hk.first, hk.att, hk.queue, fun hc => by cases hc⟩, trivial⟩

/-- A property of attitudes that the start has and every small rotation keeps holds in every defined history. -/
theorem quat_run (hp : QuatRule P) (ops : List (BOp K T)) : ∀ (p p' : BProc K T) (outs : List (BOut K T)), p.run ops = .ok (p', outs) → QuatKept P p.b →
    QuatKept P p'.b ∧ ∀ o ∈ outs, QuatOut P o := by
  induction ops with
  | nil => intro p p' outs h hk; cases h; exact ⟨hk, fun o ho => absurd ho List.not_mem_nil⟩
  | cons op ops ih =>
    intro p p' outs h hk
    rw [BProc.run] at h
    obtain ⟨⟨p1, o⟩, h1, h⟩ := Res.bind_eq_ok.1 h
    obtain ⟨⟨p2, os⟩, h2, h⟩ := Res.bind_eq_ok.1 h
    cases h
    obtain ⟨s1, s2⟩ := quat_step hp _ _ _ _ h1 hk
    obtain ⟨r1, r2⟩ := ih _ _ _ h2 s1
    refine ⟨r1, fun x hx => ?_⟩
    rcases List.mem_cons.1 hx with rfl | hx
    · exact s2
    · exact r2 x hx

/-! ### C109 -/

/-- C109.  In floating point arithmetic, with rounding, underflow, overflow and NaN: from the configured start, after every defined history, every attitude of the attitude filter and of the
propagation queue, and every attitude handed out, is a unit quaternion up to ten rounding errors, or has a NaN component, or is zero.  The error does not grow with the history. -/
theorem C109_attitudes {m : Arith} [FlLib m] [TimeCast T (Fl m)] (c : Config (Fl m)) (st : Motion (Fl m)) (g : Vec3 (Fl m)) (b : Backend (Fl m) T)
    (hc : Backend.applyConfig c (.init st) = .ok (b, g)) (ops : List (BOp (Fl m) T)) (p : BProc (Fl m) T) (outs : List (BOut (Fl m) T))
    (h : (⟨{}, g, b⟩ : BProc (Fl m) T).run ops = .ok (p, outs)) :
    (∀ i ∈ p.b.att.items, UnitOrLost m i.q) ∧ (∀ i ∈ p.b.u.q.items, UnitOrLost m i.st.q) ∧ ∀ o ∈ outs, QuatOut (UnitOrLost m) o := by
  have hb : QuatKept (UnitOrLost m) b := by
    obtain ⟨ex, -, e⟩ := Res.bind_eq_ok.1 hc
    cases e
    exact ⟨fun _ a g => unitOrLost_normalized (deltaQ_any _), fun i hi => absurd hi List.not_mem_nil, fun i hi => absurd hi List.not_mem_nil, fun hc => by cases hc⟩
  obtain ⟨k, ho⟩ := quat_run (fun q v hq => step_any hq v) ops _ _ _ h hb
  exact ⟨k.att, k.queue, ho⟩

/-- The arithmetics of the code meet the assumption of `C109_step`. -/
theorem fp32_range : 1000000000 ≤ fp32.max := by
  show (1000000000 : ℝ) ≤ (2 - 2 ^ (-23 : ℤ)) * 2 ^ (127 : ℤ)
  norm_num

/-- Without images every history of samples and calls of `RunOnce` is defined. -/
theorem imu_run_defined (ms : List (ImuMsg K T × Env K)) : ∀ p : BProc K T, p.b.status = .needInit → p.b.loader.featMeas = [] →
    ∃ p' outs, p.run (ms.flatMap (fun x => [.imu x.1, .run x.2])) = .ok (p', outs) := by
  induction ms with
  | nil => intro p _ _; exact ⟨_, _, rfl⟩
  | cons x ms ih =>
    intro p h1 h2
    have hs : ∃ p1 o, (({ p with statics := (p.b.loader.pushImu p.statics x.1).statics, b := { p.b with loader := (p.b.loader.pushImu p.statics x.1).loader } } : BProc K T).step (.run x.2)) = .ok (p1, o) ∧
        p1.b.status = .needInit ∧ p1.b.loader.featMeas = [] := by
      have hf : (p.b.loader.pushImu p.statics x.1).loader.featMeas = [] := h2
      generalize p.b.loader.pushImu p.statics x.1 = r at *
      cases hl : r.loader.imuMeas with
      | nil =>
        refine ⟨⟨r.statics, p.g, { p.b with loader := r.loader }⟩, .ret false, ?_, h1, hf⟩
        simp only [BProc.step, Backend.runOnce, Loader.popOne, hf, hl, Bool.false_eq_true, if_false, Res.bind_ok]
      | cons m l =>
        refine ⟨⟨r.statics, p.g, { p.b with loader := { r.loader with imuMeas := l }, att := (p.b.att.propagate p.g m.accel m.gyro m.ts).1 }⟩,
          .ret (p.b.att.propagate p.g m.accel m.gyro m.ts).2, ?_, h1, hf⟩
        simp only [BProc.step, Backend.runOnce, Loader.popOne, hf, hl, Backend.onImu, h1, if_true, Res.bind_ok]
    obtain ⟨p1, o, e, e1, e2⟩ := hs
    obtain ⟨p', outs, h⟩ := ih p1 e1 e2
    refine ⟨p', .ret true :: o :: outs, ?_⟩
    rw [List.flatMap_cons]
    show (p.run (.imu x.1 :: .run x.2 :: _)) = _
    rw [BProc.run]
    show (BProc.run ⟨(p.b.loader.pushImu p.statics x.1).statics, p.g, { p.b with loader := (p.b.loader.pushImu p.statics x.1).loader }⟩ (.run x.2 :: _) >>= fun y => Res.ok (y.1, BOut.ret true :: y.2)) = _
    rw [BProc.run, e]
    simp only [Res.bind_ok, show ∀ l : List (BOp K T), [].append l = l from fun _ => rfl]
    rw [h]
    rfl

/-- The hypotheses of `C109_attitudes` are met in single precision with double precision times, for every list of IMU samples. -/
example [FlLib fp32] (c : Config (Fl fp32)) (st : Motion (Fl fp32)) (g : Vec3 (Fl fp32)) (b : Backend (Fl fp32) (Fl fp64)) (hc : Backend.applyConfig c (.init st) = .ok (b, g))
    (ms : List (ImuMsg (Fl fp32) (Fl fp64) × Env (Fl fp32))) :
    ∃ p outs, (⟨{}, g, b⟩ : BProc (Fl fp32) (Fl fp64)).run (ms.flatMap (fun x => [.imu x.1, .run x.2])) = .ok (p, outs) ∧ ∀ i ∈ p.b.att.items, UnitOrLost fp32 i.q := by
  have hb : b.status = .needInit ∧ b.loader.featMeas = [] := by
    obtain ⟨ex, -, e⟩ := Res.bind_eq_ok.1 hc
    cases e
    exact ⟨rfl, rfl⟩
  obtain ⟨p, outs, h⟩ := imu_run_defined ms (⟨{}, g, b⟩ : BProc (Fl fp32) (Fl fp64)) hb.1 hb.2
  exact ⟨p, outs, h, (C109_attitudes c st g b hc _ p outs h).1⟩

/-- A configuration without cameras applies. -/
example [FlLib fp32] (st : Motion (Fl fp32)) : ∃ c, ∃ bg, Backend.applyConfig (T := Fl fp64) c (.init st) = .ok bg :=
  ⟨.default, _, rfl⟩

/-- The hypotheses of `C109_step` are met by the identity and a rotation by a quarter of a radian. -/
example [FlLib fp32] : NearUnit fp32 ((⟨fin 1, fin 0, fin 0, fin 0⟩ : Quat (Fl fp32)).mul (Utility.deltaQ ⟨fin (1 / 4), fin 0, fin 0⟩)).normalized :=
  C109_step fp32_range ⟨1, 0, 0, 0, rfl, by norm_num; exact fp32.u_nonneg⟩ ⟨1 / 4, rfl, by norm_num [abs_le]⟩ ⟨0, rfl, by norm_num⟩ ⟨0, rfl, by norm_num⟩

/-! ### Overflow -/

theorem round_pow {k : ℤ} (h1 : -126 ≤ k) (h2 : k ≤ 127) : (Fl.round ((2 : ℝ) ^ k) : Fl fp32) = fin (2 ^ k) := by
  have e : fp32.rnd ((2 : ℝ) ^ k) = 2 ^ k := by
    show rndBits 24 (-126) ((2 : ℝ) ^ k) = 2 ^ k
    have hk : expo (-126) ((2 : ℝ) ^ k) = k := by
      have : Int.log 2 |(2 : ℝ) ^ k| = k := by
        rw [abs_of_pos (by positivity)]
        exact_mod_cast Int.log_zpow (R := ℝ) (b := 2) (by norm_num) k
      rw [expo, this, max_eq_left h1]
    rw [rndBits, hk]
    have h3 : (2 : ℝ) ^ k / 2 ^ (k - (24 - 1)) = ((2 ^ 23 : ℤ) : ℝ) := by
      rw [← zpow_sub₀ two_ne_zero]
      have : k - (k - (24 - 1)) = 23 := by ring
      rw [this]
      norm_num
    rw [h3, rne_intCast, ← h3, div_mul_cancel₀ _ (by positivity)]
  unfold Fl.round
  rw [e, if_pos]
  rw [abs_of_pos (by positivity)]
  show _ ≤ (2 - 2 ^ (-23 : ℤ)) * (2 : ℝ) ^ (127 : ℤ)
  have h3 : (2 : ℝ) ^ k ≤ 2 ^ (127 : ℤ) := zpow_le_zpow_right₀ (by norm_num) h2
  have h4 : (1 : ℝ) ≤ 2 - 2 ^ (-23 : ℤ) := by norm_num
  have h5 : (0 : ℝ) < 2 ^ (127 : ℤ) := by positivity
  nlinarith

theorem round_zero' {m : Arith} : (Fl.round 0 : Fl m) = fin 0 := by
  unfold Fl.round
  rw [m.zero, abs_zero]
  exact if_pos (by linarith [m.max_ge])

theorem round_over {x : ℝ} (h : 2 ^ (129 : ℤ) ≤ x) : (Fl.round x : Fl fp32) = inf false := by
  have hx : 0 < x := lt_of_lt_of_le (by positivity) h
  unfold Fl.round
  rw [if_neg, decide_eq_false (not_lt.2 hx.le)]
  intro hc
  have h1 := fp32.err x
  have h2 : fp32.u ≤ 1 / 1000 := fp32.u_le
  have h3 : fp32.eta ≤ 1 := by linarith [fp32.eta_le]
  have h4 : fp32.max ≤ 2 ^ (128 : ℤ) := by
    show (2 - 2 ^ (-23 : ℤ)) * (2 : ℝ) ^ (127 : ℤ) ≤ 2 ^ (128 : ℤ)
    norm_num
  have h5 : (2 : ℝ) ^ (129 : ℤ) = 2 * 2 ^ (128 : ℤ) := by norm_num
  have h6 : (4 : ℝ) ≤ 2 ^ (128 : ℤ) := by norm_num
  rw [abs_of_pos hx] at h1
  have h7 := (abs_le.1 h1).1
  have h8 := (abs_le.1 hc).2
  have h9 : fp32.u * x ≤ 1 / 1000 * x := mul_le_mul_of_nonneg_right h2 hx.le
  linarith

/-- What is missing in C109: the attitude can be lost.  A rotation vector with a component of 2^100, as a broken gyroscope reading gives, makes the square of the norm overflow; the division by infinity then
gives the zero quaternion, without an error, and every later rotation by a finite vector of ordinary size leaves it zero. -/
theorem C109_overflow [FlLib fp32] :
    ((⟨1, 0, 0, 0⟩ : Quat (Fl fp32)).mul (Utility.deltaQ ⟨fin (2 ^ (100 : ℤ)), 0, 0⟩)).normalized = ⟨fin 0, fin 0, fin 0, fin 0⟩ ∧
    ∀ v : Vec3 (Fl fp32), Small 1000 v.x → Small 1000 v.y → Small 1000 v.z →
      ((⟨fin 0, fin 0, fin 0, fin 0⟩ : Quat (Fl fp32)).mul (Utility.deltaQ v)).normalized = ⟨fin 0, fin 0, fin 0, fin 0⟩ := by
  have hadd : ∀ a b : ℝ, (fin a : Fl fp32) + fin b = Fl.round (a + b) := fun _ _ => rfl
  have hmul : ∀ a b : ℝ, (fin a : Fl fp32) * fin b = Fl.round (a * b) := fun _ _ => rfl
  have hneg : ∀ a : ℝ, -(fin a : Fl fp32) = fin (-a) := fun _ => rfl
  have one : (Fl.round 1 : Fl fp32) = fin 1 := by simpa using round_pow (k := 0) (by norm_num) (by norm_num)
  have two : (lit 2 : Fl fp32) = fin 2 := by
    have := round_pow (k := 1) (by norm_num) (by norm_num)
    rw [zpow_one] at this
    show (Fl.round (((2 : ℚ) : ℝ)) : Fl fp32) = _
    rw [← this]
    norm_num
  have e0 : (0 : Fl fp32) = fin 0 := rfl
  have e1 : (1 : Fl fp32) = fin 1 := rfl
  have h99 : (fin (2 ^ (100 : ℤ)) : Fl fp32) / fin 2 = fin (2 ^ (99 : ℤ)) := by
    show (if (2 : ℝ) = 0 then _ else Fl.round (2 ^ (100 : ℤ) / 2)) = _
    rw [if_neg two_ne_zero, ← round_pow (k := 99) (by norm_num) (by norm_num)]
    norm_num
  have h0 : (fin 0 : Fl fp32) / fin 2 = fin 0 := by
    show (if (2 : ℝ) = 0 then _ else Fl.round (0 / 2)) = _
    rw [if_neg two_ne_zero, zero_div, round_zero']
  constructor
  · have p : (⟨1, 0, 0, 0⟩ : Quat (Fl fp32)).mul (Utility.deltaQ ⟨fin (2 ^ (100 : ℤ)), 0, 0⟩) = ⟨fin 1, fin (2 ^ (99 : ℤ)), fin 0, fin 0⟩ := by
      have r99 := round_pow (k := 99) (by norm_num) (by norm_num)
      unfold Quat.mul Utility.deltaQ
      simp only [Vec3.sdiv_x, Vec3.sdiv_y, Vec3.sdiv_z, two, e0, e1, h99, h0, sub_def, hneg, hadd, hmul, one_mul, mul_one, zero_mul, mul_zero, add_zero, neg_zero, one, round_zero', r99]
    have hn : (⟨fin 1, fin (2 ^ (99 : ℤ)), fin 0, fin 0⟩ : Quat (Fl fp32)).sqNorm = inf false := by
      have : (Fl.round ((2 : ℝ) ^ (99 : ℤ) * 2 ^ (99 : ℤ)) : Fl fp32) = inf false := by
        refine round_over ?_
        rw [← zpow_add₀ two_ne_zero]
        exact zpow_le_zpow_right₀ (by norm_num) (by norm_num)
      unfold Quat.sqNorm
      simp only [hmul, this, mul_one, mul_zero, one, round_zero']
      rfl
    rw [p]
    unfold Quat.normalized
    simp only [hn]
    rfl
  · intro v hx hy hz
    obtain ⟨x, ex, hx⟩ := half_small hx fp32_range
    obtain ⟨y, ey, hy⟩ := half_small hy fp32_range
    obtain ⟨z, ez, hz⟩ := half_small hz fp32_range
    have p : (⟨fin 0, fin 0, fin 0, fin 0⟩ : Quat (Fl fp32)).mul (Utility.deltaQ v) = ⟨fin 0, fin 0, fin 0, fin 0⟩ := by
      unfold Quat.mul Utility.deltaQ
      simp only [Vec3.sdiv_x, Vec3.sdiv_y, Vec3.sdiv_z, e1, ex, ey, ez, sub_def, hneg, hadd, hmul, zero_mul, add_zero, neg_zero, round_zero']
    rw [p, normalized_zero]

end Vio

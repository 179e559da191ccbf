/-
Rounding errors of the quaternion product and of the normalisation.
-/
import Verif.Spec.Float

namespace Vio

/-! ### Real numbers -/

theorem four_sum {u η m1 m2 m3 m4 t1 t2 t3 t4 s1 s2 s3 : ℝ} (hu : 0 ≤ u) (hu' : u ≤ 1 / 1000) (hη : 0 ≤ η) (h1 : |t1 - m1| ≤ u * |m1| + η) (h2 : |t2 - m2| ≤ u * |m2| + η)
    (h3 : |t3 - m3| ≤ u * |m3| + η) (h4 : |t4 - m4| ≤ u * |m4| + η) (e1 : |s1 - (t1 + t2)| ≤ u * |t1 + t2| + η) (e2 : |s2 - (s1 + t3)| ≤ u * |s1 + t3| + η)
    (e3 : |s3 - (s2 + t4)| ≤ u * |s2 + t4| + η) : |s3 - (m1 + m2 + m3 + m4)| ≤ 5 * u * (|m1| + |m2| + |m3| + |m4|) + 8 * η := by
  have a1 := abs_nonneg m1
  have a2 := abs_nonneg m2
  have a3 := abs_nonneg m3
  have a4 := abs_nonneg m4
  have p1 := mul_nonneg hu a1
  have p2 := mul_nonneg hu a2
  have p3 := mul_nonneg hu a3
  have p4 := mul_nonneg hu a4
  have key : ∀ x B c : ℝ, |x| ≤ B + c * η → 0 ≤ B → 0 ≤ c → c ≤ 100 → u * |x| ≤ u * B + c * η / 1000 := by
    intro x B c hx hB hc hc'
    have := mul_le_mul_of_nonneg_left hx hu
    have : u * (c * η) ≤ 1 / 1000 * (c * η) := mul_le_mul_of_nonneg_right hu' (mul_nonneg hc hη)
    linarith
  have hs : ∀ x : ℝ, 0 ≤ x → u * x ≤ x / 1000 := by
    intro x hx
    have := mul_le_mul_of_nonneg_right hu' hx
    linarith
  have q1 := hs _ p1
  have q2 := hs _ p2
  have q3 := hs _ p3
  have q4 := hs _ p4
  have b1 : |t1 + t2| ≤ (|m1| + |m2| + u * |m1| + u * |m2|) + 2 * η := by
    have := abs_add_le (t1 - m1) (t2 - m2)
    have := abs_add_le (t1 - m1 + (t2 - m2)) (m1 + m2)
    have := abs_add_le m1 m2
    rw [show t1 - m1 + (t2 - m2) + (m1 + m2) = t1 + t2 by ring] at *
    linarith
  have c1 := key _ _ 2 b1 (by linarith) (by norm_num) (by norm_num)
  have d1 : |s1 - (m1 + m2)| ≤ u * |m1| + u * |m2| + u * (|m1| + |m2| + u * |m1| + u * |m2|) + (3 + 2 / 1000) * η := by
    have := abs_add_le (s1 - (t1 + t2)) (t1 - m1 + (t2 - m2))
    have := abs_add_le (t1 - m1) (t2 - m2)
    rw [show s1 - (t1 + t2) + (t1 - m1 + (t2 - m2)) = s1 - (m1 + m2) by ring] at *
    linarith
  have r1 : u * (|m1| + |m2| + u * |m1| + u * |m2|) ≤ (1 + 1 / 1000) * (u * |m1| + u * |m2|) := by
    have : u * (|m1| + |m2| + u * |m1| + u * |m2|) = u * |m1| + u * |m2| + u * (u * |m1|) + u * (u * |m2|) := by ring
    linarith
  have d1' : |s1 - (m1 + m2)| ≤ (2 + 1 / 1000) * (u * |m1| + u * |m2|) + (3 + 2 / 1000) * η := by linarith
  have b2 : |s1 + t3| ≤ (|m1| + |m2| + |m3| + (2 + 1 / 1000) * (u * |m1| + u * |m2| + u * |m3|)) + (4 + 2 / 1000) * η := by
    have := abs_add_le (s1 - (m1 + m2)) (t3 - m3)
    have := abs_add_le (s1 - (m1 + m2) + (t3 - m3)) (m1 + m2 + m3)
    have := abs_add_three m1 m2 m3
    rw [show s1 - (m1 + m2) + (t3 - m3) + (m1 + m2 + m3) = s1 + t3 by ring] at *
    linarith
  have c2 := key _ _ _ b2 (by linarith) (by norm_num) (by norm_num)
  have r2 : u * (|m1| + |m2| + |m3| + (2 + 1 / 1000) * (u * |m1| + u * |m2| + u * |m3|)) ≤ (1 + 3 / 1000) * (u * |m1| + u * |m2| + u * |m3|) := by
    have : u * (|m1| + |m2| + |m3| + (2 + 1 / 1000) * (u * |m1| + u * |m2| + u * |m3|)) =
      u * |m1| + u * |m2| + u * |m3| + (2 + 1 / 1000) * (u * (u * |m1|) + u * (u * |m2|) + u * (u * |m3|)) := by ring
    linarith
  have d2 : |s2 - (m1 + m2 + m3)| ≤ (3 + 4 / 1000) * (u * |m1| + u * |m2| + u * |m3|) + (5 + 1 / 100) * η := by
    have := abs_add_le (s2 - (s1 + t3)) (s1 - (m1 + m2) + (t3 - m3))
    have := abs_add_le (s1 - (m1 + m2)) (t3 - m3)
    rw [show s2 - (s1 + t3) + (s1 - (m1 + m2) + (t3 - m3)) = s2 - (m1 + m2 + m3) by ring] at *
    linarith
  have b3 : |s2 + t4| ≤ (|m1| + |m2| + |m3| + |m4| + (3 + 4 / 1000) * (u * |m1| + u * |m2| + u * |m3| + u * |m4|)) + (6 + 1 / 100) * η := by
    have := abs_add_le (s2 - (m1 + m2 + m3)) (t4 - m4)
    have := abs_add_le (s2 - (m1 + m2 + m3) + (t4 - m4)) (m1 + m2 + m3 + m4)
    have := abs_add_three m1 m2 m3
    have := abs_add_le (m1 + m2 + m3) m4
    rw [show s2 - (m1 + m2 + m3) + (t4 - m4) + (m1 + m2 + m3 + m4) = s2 + t4 by ring] at *
    linarith
  have c3 := key _ _ _ b3 (by linarith) (by norm_num) (by norm_num)
  have r3 : u * (|m1| + |m2| + |m3| + |m4| + (3 + 4 / 1000) * (u * |m1| + u * |m2| + u * |m3| + u * |m4|)) ≤ (1 + 4 / 1000) * (u * |m1| + u * |m2| + u * |m3| + u * |m4|) := by
    have : u * (|m1| + |m2| + |m3| + |m4| + (3 + 4 / 1000) * (u * |m1| + u * |m2| + u * |m3| + u * |m4|)) =
      u * |m1| + u * |m2| + u * |m3| + u * |m4| + (3 + 4 / 1000) * (u * (u * |m1|) + u * (u * |m2|) + u * (u * |m3|) + u * (u * |m4|)) := by ring
    linarith
  have := abs_add_le (s3 - (s2 + t4)) (s2 - (m1 + m2 + m3) + (t4 - m4))
  have := abs_add_le (s2 - (m1 + m2 + m3)) (t4 - m4)
  rw [show s3 - (s2 + t4) + (s2 - (m1 + m2 + m3) + (t4 - m4)) = s3 - (m1 + m2 + m3 + m4) by ring] at *
  have : 5 * u * (|m1| + |m2| + |m3| + |m4|) = 5 * (u * |m1| + u * |m2| + u * |m3| + u * |m4|) := by ring
  linarith

theorem sq_err {u r s k : ℝ} (hu : 0 ≤ u) (hu' : u ≤ 1 / 1000) (hk : 0 ≤ k) (hk' : k ≤ 2) (h : |s - r| ≤ k * u * r) (hr : 0 ≤ r) : |s * s - r * r| ≤ (2 * k + 4 / 1000) * (u * (r * r)) := by
  have e : |s * s - r * r| = |s - r| * |s + r| := by rw [← abs_mul]; ring_nf
  have h' : |s + r| ≤ 2 * r + k * u * r := by
    have := abs_add_le (s - r) (2 * r)
    rw [show s - r + 2 * r = s + r by ring, abs_of_nonneg (by linarith : 0 ≤ 2 * r)] at this
    linarith
  have hp : |s - r| * |s + r| ≤ k * u * r * (2 * r + k * u * r) := mul_le_mul h h' (abs_nonneg _) (by positivity)
  have hku : k * (k * u) ≤ 4 / 1000 := by
    have h1 : k * u ≤ 2 * (1 / 1000) := mul_le_mul hk' hu' hu (by norm_num)
    have : k * (k * u) ≤ 2 * (2 * (1 / 1000)) := mul_le_mul hk' h1 (by positivity) (by norm_num)
    linarith
  have h2 : k * (k * u) * (u * (r * r)) ≤ 4 / 1000 * (u * (r * r)) := mul_le_mul_of_nonneg_right hku (by positivity)
  rw [e]
  linarith

theorem term_err {u η r x : ℝ} (hu : 0 ≤ u) (hu' : u ≤ 1 / 1000) (hη : 0 ≤ η) (hη' : η ≤ u / 100) (h : |r - x| ≤ u * |x| + η) :
    |r * r - x * x| ≤ (202 / 100) * (u * (x * x)) + (2 / 100) * u := by
  have e : |r * r - x * x| = |r - x| * |r + x| := by rw [← abs_mul]; ring_nf
  have h' : |r + x| ≤ 2 * |x| + (u * |x| + η) := by
    have := abs_add_le (r - x) (2 * x)
    rw [show r - x + 2 * x = r + x by ring, abs_mul, abs_two] at this
    linarith
  have ha := abs_nonneg x
  have hp : |r - x| * |r + x| ≤ (u * |x| + η) * (2 * |x| + (u * |x| + η)) := mul_le_mul h h' (abs_nonneg _) (by positivity)
  rw [e, ← abs_mul_abs_self x]
  generalize |x| = k at *
  have hk : 2 * k ≤ 1 + k * k := by nlinarith [sq_nonneg (k - 1)]
  have g1 : η * (2 * k) ≤ u / 100 * (1 + k * k) := mul_le_mul hη' hk (by positivity) (by positivity)
  have g2 : u * (u * (k * k)) ≤ 1 / 1000 * (u * (k * k)) := mul_le_mul_of_nonneg_right hu' (by positivity)
  have g3 : u * (η * (2 * k)) ≤ 1 / 1000 * (u / 100 * (1 + k * k)) := mul_le_mul hu' g1 (by positivity) (by norm_num)
  have g4 : η * η ≤ u / 100 * (u / 100) := mul_le_mul hη' hη' hη (by positivity)
  have g5 : u * u ≤ 1 / 1000 * u := mul_le_mul_of_nonneg_right hu' hu
  have : 0 ≤ u * (k * k) := by positivity
  linarith

theorem quot_err {u N t : ℝ} (hu : 0 ≤ u) (hu' : u ≤ 1 / 1000) (hN : 0 < N) (h : |t - N| ≤ (73 / 10) * (u * N)) (ht : 0 < t) : |N / t - 1| ≤ (74 / 10) * u := by
  rw [show N / t - 1 = (N - t) / t by field_simp, abs_div, abs_of_pos ht, div_le_iff₀ ht, abs_sub_comm]
  obtain ⟨v1, -⟩ := abs_le.1 h
  have h1 : u * N ≤ 1 / 1000 * N := mul_le_mul_of_nonneg_right hu' hN.le
  have h2 : (1 - 73 / 10000) * N ≤ t := by linarith
  have h3 : u * ((1 - 73 / 10000) * N) ≤ u * t := mul_le_mul_of_nonneg_left h2 hu
  have : 0 ≤ u * N := by positivity
  linarith

/-- Division of four numbers by a rounded norm. -/
theorem norm_err {u η a b c d z s r1 r2 r3 r4 : ℝ} (hu : 0 ≤ u) (hu' : u ≤ 1 / 1000) (hη : 0 ≤ η) (hη' : η ≤ u / 100) (hN : 1 / 2 ≤ a * a + b * b + c * c + d * d)
    (hz : |z - (a * a + b * b + c * c + d * d)| ≤ 5 * u * (a * a + b * b + c * c + d * d) + 8 * η) (hs : |s - √z| ≤ u * |√z| + η) (h1 : |r1 - a / s| ≤ u * |a / s| + η)
    (h2 : |r2 - b / s| ≤ u * |b / s| + η) (h3 : |r3 - c / s| ≤ u * |c / s| + η) (h4 : |r4 - d / s| ≤ u * |d / s| + η) :
    0 < s ∧ |r1 * r1 + r2 * r2 + r3 * r3 + r4 * r4 - 1| ≤ 10 * u := by
  have hX : a / s * (a / s) + b / s * (b / s) + c / s * (c / s) + d / s * (d / s) = (a * a + b * b + c * c + d * d) / (s * s) := by
    simp only [div_mul_div_comm, add_div]
  generalize a * a + b * b + c * c + d * d = N at *
  have huN : u / 2 ≤ u * N := by
    have := mul_le_mul_of_nonneg_left hN hu
    linarith
  have huN' : u * N ≤ 1 / 1000 * N := mul_le_mul_of_nonneg_right hu' (by linarith)
  have hz1 : |z - N| ≤ (52 / 10) * (u * N) := by linarith
  obtain ⟨z1, z2⟩ := abs_le.1 hz1
  have zbig : 49 / 100 ≤ z := by linarith
  have zpos : 0 < z := by linarith
  have hr := Real.mul_self_sqrt zpos.le
  have rpos := Real.sqrt_pos.2 zpos
  generalize √z = r at *
  rw [abs_of_pos rpos] at hs
  have rbig : 7 / 10 ≤ r := by
    by_contra hc
    have : r * r < 7 / 10 * (7 / 10) := mul_self_lt_mul_self rpos.le (not_le.1 hc)
    linarith
  have hur : u * (7 / 10) ≤ u * r := mul_le_mul_of_nonneg_left rbig hu
  have hs1 : |s - r| ≤ 102 / 100 * u * r := by linarith
  have hs2 := sq_err hu hu' (by norm_num) (by norm_num) hs1 rpos.le
  have hur' : u * r ≤ 1 / 1000 * r := mul_le_mul_of_nonneg_right hu' rpos.le
  have spos : 0 < s := by
    have := (abs_le.1 hs1).1
    linarith
  rw [hr] at hs2
  obtain ⟨w1, w2⟩ := abs_le.1 hs2
  have huz : u * z ≤ (1 + 6 / 1000) * (u * N) := by
    have : u * z ≤ u * ((1 + 6 / 1000) * N) := mul_le_mul_of_nonneg_left (by linarith) hu
    linarith
  have hsN : |s * s - N| ≤ (73 / 10) * (u * N) := by
    rw [abs_le]
    constructor <;> linarith
  have hX1 := quot_err hu hu' (by linarith) hsN (mul_pos spos spos)
  rw [← hX] at hX1
  have t1 := abs_le.1 (term_err hu hu' hη hη' h1)
  have t2 := abs_le.1 (term_err hu hu' hη hη' h2)
  have t3 := abs_le.1 (term_err hu hu' hη hη' h3)
  have t4 := abs_le.1 (term_err hu hu' hη hη' h4)
  clear h1 h2 h3 h4 hs2 hs1 hsN hz hz1 hs hX
  generalize a / s * (a / s) = A at *
  generalize b / s * (b / s) = B at *
  generalize c / s * (c / s) = C at *
  generalize d / s * (d / s) = D at *
  obtain ⟨y1, y2⟩ := abs_le.1 hX1
  have huX : u * (A + B + C + D) ≤ u * (1 + 74 / 10 * (1 / 1000)) := mul_le_mul_of_nonneg_left (by linarith) hu
  refine ⟨spos, ?_⟩
  rw [abs_le]
  constructor <;> linarith [t1.1, t1.2, t2.1, t2.2, t3.1, t3.2, t4.1, t4.2]

/-- The product of a nearly unit quaternion with `(1, h)`, with a rounding error in every operation, is not small. -/
theorem prod_big {u η a b c d x y z p1 p2 p3 p4 : ℝ} (hu' : u ≤ 1 / 1000) (hη' : η ≤ u / 100) (hN : |a * a + b * b + c * c + d * d - 1| ≤ 10 * u)
    (h1 : |p1 - (a * 1 + -(b * x) + -(c * y) + -(d * z))| ≤ 5 * u * (|a * 1| + |-(b * x)| + |-(c * y)| + |-(d * z)|) + 8 * η)
    (h2 : |p2 - (a * x + b * 1 + c * z + -(d * y))| ≤ 5 * u * (|a * x| + |b * 1| + |c * z| + |-(d * y)|) + 8 * η)
    (h3 : |p3 - (a * y + c * 1 + d * x + -(b * z))| ≤ 5 * u * (|a * y| + |c * 1| + |d * x| + |-(b * z)|) + 8 * η)
    (h4 : |p4 - (a * z + d * 1 + b * y + -(c * x))| ≤ 5 * u * (|a * z| + |d * 1| + |b * y| + |-(c * x)|) + 8 * η) :
    1 / 2 ≤ p1 * p1 + p2 * p2 + p3 * p3 + p4 * p4 := by
  have cs : ∀ a b c d w x y z : ℝ, (|a * w| + |b * x| + |c * y| + |d * z|) ^ 2 ≤ (a * a + b * b + c * c + d * d) * (w * w + x * x + y * y + z * z) := by
    intro a b c d w x y z
    simp only [abs_mul]
    rw [← abs_mul_abs_self a, ← abs_mul_abs_self b, ← abs_mul_abs_self c, ← abs_mul_abs_self d, ← abs_mul_abs_self w, ← abs_mul_abs_self x, ← abs_mul_abs_self y, ← abs_mul_abs_self z]
    generalize |a| = a, |b| = b, |c| = c, |d| = d, |w| = w, |x| = x, |y| = y, |z| = z
    nlinarith [sq_nonneg (a * x - b * w), sq_nonneg (a * y - c * w), sq_nonneg (a * z - d * w), sq_nonneg (b * y - c * x), sq_nonneg (b * z - d * x), sq_nonneg (c * z - d * y)]
  have lower : ∀ p e S : ℝ, 0 ≤ S → |p - e| ≤ 5 * u * S + 8 * η → 9 / 10 * (e * e) - 45 / 100000 * S ^ 2 - 1 / 1000 ≤ p * p := by
    intro p e S hS h
    have hb : 5 * u * S + 8 * η ≤ 1 / 200 * S + 1 / 12500 := by
      have := mul_le_mul_of_nonneg_right hu' hS
      linarith
    have h' : |p - e| ≤ 1 / 200 * S + 1 / 12500 := h.trans hb
    have hsq : (p - e) ^ 2 ≤ (1 / 200 * S + 1 / 12500) ^ 2 := by
      rw [← sq_abs]
      exact pow_le_pow_left₀ (abs_nonneg _) h' 2
    nlinarith [sq_nonneg (10 * (p - e) + e), sq_nonneg (1 / 200 * S - 1 / 12500)]
  have l1 := lower _ _ _ (by positivity) h1
  have l2 := lower _ _ _ (by positivity) h2
  have l3 := lower _ _ _ (by positivity) h3
  have l4 := lower _ _ _ (by positivity) h4
  have c1 := cs a b c d 1 x y z
  have c2 := cs a b c d x 1 z y
  have c3 := cs a c d b y 1 x z
  have c4 := cs a d b c z 1 y x
  simp only [abs_neg] at l1 l2 l3 l4
  generalize |a * 1| + |b * x| + |c * y| + |d * z| = S1 at *
  generalize |a * x| + |b * 1| + |c * z| + |d * y| = S2 at *
  generalize |a * y| + |c * 1| + |d * x| + |b * z| = S3 at *
  generalize |a * z| + |d * 1| + |b * y| + |c * x| = S4 at *
  have e : (a * 1 + -(b * x) + -(c * y) + -(d * z)) * (a * 1 + -(b * x) + -(c * y) + -(d * z)) + (a * x + b * 1 + c * z + -(d * y)) * (a * x + b * 1 + c * z + -(d * y)) +
      (a * y + c * 1 + d * x + -(b * z)) * (a * y + c * 1 + d * x + -(b * z)) + (a * z + d * 1 + b * y + -(c * x)) * (a * z + d * 1 + b * y + -(c * x)) =
      (a * a + b * b + c * c + d * d) * (1 + x * x + y * y + z * z) := by ring
  have f1 : (a * a + b * b + c * c + d * d) * (1 * 1 + x * x + y * y + z * z) = (a * a + b * b + c * c + d * d) * (1 + x * x + y * y + z * z) := by ring
  have f2 : (a * a + b * b + c * c + d * d) * (x * x + 1 * 1 + z * z + y * y) = (a * a + b * b + c * c + d * d) * (1 + x * x + y * y + z * z) := by ring
  have f3 : (a * a + c * c + d * d + b * b) * (y * y + 1 * 1 + x * x + z * z) = (a * a + b * b + c * c + d * d) * (1 + x * x + y * y + z * z) := by ring
  have f4 : (a * a + d * d + b * b + c * c) * (z * z + 1 * 1 + y * y + x * x) = (a * a + b * b + c * c + d * d) * (1 + x * x + y * y + z * z) := by ring
  have hA := (abs_le.1 hN).1
  have hM : (1 - 1 / 100) * 1 ≤ (a * a + b * b + c * c + d * d) * (1 + x * x + y * y + z * z) :=
    mul_le_mul (by linarith) (by linarith [mul_self_nonneg x, mul_self_nonneg y, mul_self_nonneg z]) (by norm_num) (by linarith)
  linarith

/-! ### Floating point numbers -/

namespace Fl
variable {m : Arith}

theorem round_fin {x c : ℝ} (h : (round x : Fl m) = .fin c) : |c - x| ≤ m.u * |x| + m.eta := by
  unfold Fl.round at h
  split at h
  · cases h; exact m.err x
  · cases h

theorem add_fin {x y : Fl m} {c : ℝ} (h : x + y = fin c) : ∃ a b, x = fin a ∧ y = fin b ∧ |c - (a + b)| ≤ m.u * |a + b| + m.eta := by
  change add x y = fin c at h
  cases x <;> cases y <;> simp only [Fl.add] at h
  · exact ⟨_, _, rfl, rfl, round_fin h⟩
  · cases h
  · cases h
  · cases h
  · split at h <;> cases h
  all_goals cases h

theorem mul_fin {x y : Fl m} {c : ℝ} (h : x * y = fin c) : ∃ a b, x = fin a ∧ y = fin b ∧ |c - (a * b)| ≤ m.u * |a * b| + m.eta := by
  change mul x y = .fin c at h
  cases x <;> cases y <;> simp only [Fl.mul, Fl.infBy] at h
  · exact ⟨_, _, rfl, rfl, round_fin h⟩
  · split at h <;> cases h
  · cases h
  · split at h <;> cases h
  all_goals cases h

theorem neg_fin {x : Fl m} {c : ℝ} (h : -x = fin c) : x = fin (-c) := by
  change Fl.neg x = .fin c at h
  cases x <;> simp only [Fl.neg] at h <;> cases h
  rw [neg_neg]

theorem sub_def (x y : Fl m) : x - y = x + -y := rfl

theorem four_fin {x1 y1 x2 y2 x3 y3 x4 y4 : Fl m} {c : ℝ} (h : x1 * y1 + x2 * y2 + x3 * y3 + x4 * y4 = fin c) :
    ∃ a1 b1 a2 b2 a3 b3 a4 b4 : ℝ, x1 = fin a1 ∧ y1 = fin b1 ∧ x2 = fin a2 ∧ y2 = fin b2 ∧ x3 = fin a3 ∧ y3 = fin b3 ∧ x4 = fin a4 ∧ y4 = fin b4 ∧
      |c - (a1 * b1 + a2 * b2 + a3 * b3 + a4 * b4)| ≤ 5 * m.u * (|a1 * b1| + |a2 * b2| + |a3 * b3| + |a4 * b4|) + 8 * m.eta := by
  obtain ⟨s2, t4, h, h4, e3⟩ := add_fin h
  obtain ⟨s1, t3, h, h3, e2⟩ := add_fin h
  obtain ⟨t1, t2, h1, h2, e1⟩ := add_fin h
  obtain ⟨a1, b1, p1, q1, r1⟩ := mul_fin h1
  obtain ⟨a2, b2, p2, q2, r2⟩ := mul_fin h2
  obtain ⟨a3, b3, p3, q3, r3⟩ := mul_fin h3
  obtain ⟨a4, b4, p4, q4, r4⟩ := mul_fin h4
  exact ⟨a1, b1, a2, b2, a3, b3, a4, b4, p1, q1, p2, q2, p3, q3, p4, q4, four_sum m.u_nonneg m.u_le m.eta_nonneg r1 r2 r3 r4 e1 e2 e3⟩

theorem neg_err {t x u η : ℝ} (h : |t - x| ≤ u * |x| + η) : |-t - -x| ≤ u * |-x| + η := by
  rw [abs_neg, show -t - -x = -(t - x) by ring, abs_neg]
  exact h

/-- The last three products are subtracted. -/
theorem four_fin_w {x1 y1 x2 y2 x3 y3 x4 y4 : Fl m} {c : ℝ} (h : x1 * y1 - x2 * y2 - x3 * y3 - x4 * y4 = fin c) :
    ∃ a1 b1 a2 b2 a3 b3 a4 b4 : ℝ, x1 = fin a1 ∧ y1 = fin b1 ∧ x2 = fin a2 ∧ y2 = fin b2 ∧ x3 = fin a3 ∧ y3 = fin b3 ∧ x4 = fin a4 ∧ y4 = fin b4 ∧
      |c - (a1 * b1 + -(a2 * b2) + -(a3 * b3) + -(a4 * b4))| ≤ 5 * m.u * (|a1 * b1| + |-(a2 * b2)| + |-(a3 * b3)| + |-(a4 * b4)|) + 8 * m.eta := by
  simp only [sub_def] at h
  obtain ⟨s2, t4, h, h4, e3⟩ := add_fin h
  obtain ⟨s1, t3, h, h3, e2⟩ := add_fin h
  obtain ⟨t1, t2, h1, h2, e1⟩ := add_fin h
  obtain ⟨a1, b1, p1, q1, r1⟩ := mul_fin h1
  obtain ⟨a2, b2, p2, q2, r2⟩ := mul_fin (neg_fin h2)
  obtain ⟨a3, b3, p3, q3, r3⟩ := mul_fin (neg_fin h3)
  obtain ⟨a4, b4, p4, q4, r4⟩ := mul_fin (neg_fin h4)
  have r2 := neg_err r2
  have r3 := neg_err r3
  have r4 := neg_err r4
  rw [neg_neg] at r2 r3 r4
  exact ⟨a1, b1, a2, b2, a3, b3, a4, b4, p1, q1, p2, q2, p3, q3, p4, q4, four_sum m.u_nonneg m.u_le m.eta_nonneg r1 r2 r3 r4 e1 e2 e3⟩

/-- The last product is subtracted. -/
theorem four_fin_v {x1 y1 x2 y2 x3 y3 x4 y4 : Fl m} {c : ℝ} (h : x1 * y1 + x2 * y2 + x3 * y3 - x4 * y4 = fin c) :
    ∃ a1 b1 a2 b2 a3 b3 a4 b4 : ℝ, x1 = fin a1 ∧ y1 = fin b1 ∧ x2 = fin a2 ∧ y2 = fin b2 ∧ x3 = fin a3 ∧ y3 = fin b3 ∧ x4 = fin a4 ∧ y4 = fin b4 ∧
      |c - (a1 * b1 + a2 * b2 + a3 * b3 + -(a4 * b4))| ≤ 5 * m.u * (|a1 * b1| + |a2 * b2| + |a3 * b3| + |-(a4 * b4)|) + 8 * m.eta := by
  simp only [sub_def] at h
  obtain ⟨s2, t4, h, h4, e3⟩ := add_fin h
  obtain ⟨s1, t3, h, h3, e2⟩ := add_fin h
  obtain ⟨t1, t2, h1, h2, e1⟩ := add_fin h
  obtain ⟨a1, b1, p1, q1, r1⟩ := mul_fin h1
  obtain ⟨a2, b2, p2, q2, r2⟩ := mul_fin h2
  obtain ⟨a3, b3, p3, q3, r3⟩ := mul_fin h3
  obtain ⟨a4, b4, p4, q4, r4⟩ := mul_fin (neg_fin h4)
  have r4 := neg_err r4
  rw [neg_neg] at r4
  exact ⟨a1, b1, a2, b2, a3, b3, a4, b4, p1, q1, p2, q2, p3, q3, p4, q4, four_sum m.u_nonneg m.u_le m.eta_nonneg r1 r2 r3 r4 e1 e2 e3⟩

/-! Not a number -/

theorem nan_add (x : Fl m) : (nan : Fl m) + x = nan := by
  change add .nan x = _
  cases x <;> rfl
theorem add_nan (x : Fl m) : x + (nan : Fl m) = nan := by
  change add x .nan = _
  cases x <;> rfl
theorem nan_mul (x : Fl m) : (nan : Fl m) * x = nan := by
  change mul .nan x = _
  cases x <;> rfl
theorem mul_nan (x : Fl m) : x * (nan : Fl m) = nan := by
  change mul x .nan = _
  cases x <;> rfl
theorem neg_nan : -(nan : Fl m) = nan := rfl

end Fl
end Vio

/-
Property C94: the quaternion of a rotation matrix.
-/
import Verif.Spec.Rotation
import Verif.Lemmas.Quat
import Verif.Props.Config
import Mathlib.Tactic.LinearCombination
import Mathlib.Tactic.NormNum
import Mathlib.Tactic.FieldSimp

namespace Vio
open Spec

/-- The cofactors of a rotation matrix are its entries. -/
theorem Spec.IsRot.cofactors {a b c d e f g h i : ℝ} (hm : IsRot ⟨⟨a, b, c⟩, ⟨d, e, f⟩, ⟨g, h, i⟩⟩) :
    (g = b * f - c * e ∧ h = c * d - a * f ∧ i = a * e - b * d) ∧ (a = e * i - f * h ∧ b = f * g - d * i ∧ c = d * h - e * g) ∧
      (d = h * c - i * b ∧ e = i * a - g * c ∧ f = g * b - h * a) := by
  obtain ⟨n0, n1, n2, o01, o02, o12, hd⟩ := hm
  dsimp only at *
  have hs : (g - (b * f - c * e)) ^ 2 + (h - (c * d - a * f)) ^ 2 + (i - (a * e - b * d)) ^ 2 = 0 := by
    linear_combination n2 - 2 * hd + (d * d + e * e + f * f) * n0 + n1 - (a * d + b * e + c * f) * o01
  have hg : g = b * f - c * e := by nlinarith [sq_nonneg (g - (b * f - c * e)), sq_nonneg (h - (c * d - a * f)), sq_nonneg (i - (a * e - b * d))]
  have hh : h = c * d - a * f := by nlinarith [sq_nonneg (g - (b * f - c * e)), sq_nonneg (h - (c * d - a * f)), sq_nonneg (i - (a * e - b * d))]
  have hi : i = a * e - b * d := by nlinarith [sq_nonneg (g - (b * f - c * e)), sq_nonneg (h - (c * d - a * f)), sq_nonneg (i - (a * e - b * d))]
  refine ⟨⟨hg, hh, hi⟩, ⟨?_, ?_, ?_⟩, ⟨?_, ?_, ?_⟩⟩
  · rw [hh, hi]; linear_combination -a * n1 + d * o01
  · rw [hg, hi]; linear_combination -b * n1 + e * o01
  · rw [hg, hh]; linear_combination -c * n1 + f * o01
  · rw [hh, hi]; linear_combination -d * n0 + a * o01
  · rw [hg, hi]; linear_combination -e * n0 + b * o01
  · rw [hg, hh]; linear_combination -f * n0 + c * o01

/-- So its columns are unit vectors as well. -/
theorem Spec.IsRot.columns {a b c d e f g h i : ℝ} (hm : IsRot ⟨⟨a, b, c⟩, ⟨d, e, f⟩, ⟨g, h, i⟩⟩) :
    a * a + d * d + g * g = 1 ∧ b * b + e * e + h * h = 1 ∧ c * c + f * f + i * i = 1 := by
  obtain ⟨⟨c1, c2, c3⟩, ⟨c4, c5, c6⟩, ⟨c7, c8, c9⟩⟩ := hm.cofactors
  have hd := hm.det
  dsimp only at hd
  refine ⟨?_, ?_, ?_⟩
  · linear_combination hd + a * c4 + d * c7 + g * c1
  · linear_combination hd + b * c5 + e * c8 + h * c2
  · linear_combination hd + c * c6 + f * c9 + i * c3

/-- The three other column pairs are orthogonal. -/
theorem Spec.IsRot.columns_orth {a b c d e f g h i : ℝ} (hm : IsRot ⟨⟨a, b, c⟩, ⟨d, e, f⟩, ⟨g, h, i⟩⟩) :
    a * b + d * e + g * h = 0 ∧ a * c + d * f + g * i = 0 ∧ b * c + e * f + h * i = 0 := by
  obtain ⟨⟨c1, c2, c3⟩, ⟨c4, c5, c6⟩, ⟨c7, c8, c9⟩⟩ := hm.cofactors
  refine ⟨?_, ?_, ?_⟩
  · linear_combination b * c4 + e * c7 + h * c1
  · linear_combination c * c4 + f * c7 + i * c1
  · linear_combination c * c5 + f * c8 + i * c2

/-- Half of the turn about an axis: the quaternion built from the antisymmetric part. -/
theorem toMat_core {a b c d e f g h i : ℝ} (hm : IsRot ⟨⟨a, b, c⟩, ⟨d, e, f⟩, ⟨g, h, i⟩⟩) (s t : ℝ) (hs : s * s = 1 + a + e + i) (hst : s * t = 1 / 2) :
    (⟨1 / 2 * s, (h - f) * t, (c - g) * t, (d - b) * t⟩ : Quat ℝ).toMat = ⟨⟨a, b, c⟩, ⟨d, e, f⟩, ⟨g, h, i⟩⟩ ∧
      (⟨1 / 2 * s, (h - f) * t, (c - g) * t, (d - b) * t⟩ : Quat ℝ).sqNorm = 1 := by
  obtain ⟨⟨c1, c2, c3⟩, ⟨c4, c5, c6⟩, ⟨c7, c8, c9⟩⟩ := hm.cofactors
  obtain ⟨k0, k1, k2⟩ := hm.columns
  obtain ⟨p0, p1, p2⟩ := hm.columns_orth
  obtain ⟨n0, n1, n2, o01, o02, o12, -⟩ := hm
  dsimp only at *
  have ht : t * t * (1 + a + e + i) = 1 / 4 := by rw [← hs]; linear_combination (s * t + 1 / 2) * hst
  have d0 : (c - g) * (c - g) + (d - b) * (d - b) = 2 * (1 - a) * (1 + a + e + i) := by
    linear_combination n0 + k0 - 2 * c8 - 2 * c3
  have d1 : (h - f) * (h - f) + (d - b) * (d - b) = 2 * (1 - e) * (1 + a + e + i) := by
    linear_combination n1 + k1 - 2 * c4 - 2 * c3
  have d2 : (h - f) * (h - f) + (c - g) * (c - g) = 2 * (1 - i) * (1 + a + e + i) := by
    linear_combination n2 + k2 - 2 * c4 - 2 * c8
  have e01 : (h - f) * (c - g) = (b + d) * (1 + a + e + i) := by linear_combination -p0 - o01 - c5 - c7
  have e02 : (h - f) * (d - b) = (c + g) * (1 + a + e + i) := by linear_combination -p1 - o02 - c6 - c1
  have e12 : (c - g) * (d - b) = (f + h) * (1 + a + e + i) := by linear_combination -p2 - o12 - c9 - c2
  have m00 : 1 - (2 * ((c - g) * t) * ((c - g) * t) + 2 * ((d - b) * t) * ((d - b) * t)) = a := by
    linear_combination -2 * t * t * d0 - 4 * (1 - a) * ht
  have m11 : 1 - (2 * ((h - f) * t) * ((h - f) * t) + 2 * ((d - b) * t) * ((d - b) * t)) = e := by
    linear_combination -2 * t * t * d1 - 4 * (1 - e) * ht
  have m22 : 1 - (2 * ((h - f) * t) * ((h - f) * t) + 2 * ((c - g) * t) * ((c - g) * t)) = i := by
    linear_combination -2 * t * t * d2 - 4 * (1 - i) * ht
  constructor
  · unfold Quat.toMat
    simp only [lit]
    push_cast
    ext
    · exact m00
    · dsimp only; linear_combination 2 * t * t * e01 + 2 * (b + d) * ht - (d - b) * hst
    · dsimp only; linear_combination 2 * t * t * e02 + 2 * (c + g) * ht + (c - g) * hst
    · dsimp only; linear_combination 2 * t * t * e01 + 2 * (b + d) * ht + (d - b) * hst
    · exact m11
    · dsimp only; linear_combination 2 * t * t * e12 + 2 * (f + h) * ht - (h - f) * hst
    · dsimp only; linear_combination 2 * t * t * e02 + 2 * (c + g) * ht - (c - g) * hst
    · dsimp only; linear_combination 2 * t * t * e12 + 2 * (f + h) * ht + (h - f) * hst
    · exact m22
  · unfold Quat.sqNorm
    dsimp only
    linear_combination (-1 / 4) * (m00 + m11 + m22) + 1 / 4 * hs

/-- C94.  The quaternion taken from a rotation matrix has unit length and that matrix. -/
theorem C94_matrix (m : Mat3 ℝ) (hm : IsRot m) : (Quat.ofMat m).toMat = m ∧ (Quat.ofMat m).sqNorm = 1 := by
  obtain ⟨⟨a, b, c⟩, ⟨d, e, f⟩, ⟨g, h, i⟩⟩ := m
  have hall := hm
  obtain ⟨n0, n1, n2, o01, o02, o12, hd⟩ := hall
  dsimp only at n0 n1 n2 o01 o02 o12 hd
  have hsq : ∀ u : ℝ, 0 < u → Real.sqrt u * Real.sqrt u = u ∧ Real.sqrt u * (1 / 2 / Real.sqrt u) = 1 / 2 := by
    intro u hu
    have : Real.sqrt u ≠ 0 := (Real.sqrt_pos.2 hu).ne'
    exact ⟨Real.mul_self_sqrt hu.le, by field_simp⟩
  unfold Quat.ofMat
  simp only [ScalarFn.lt_real, ScalarFn.sqrt_real, lit, Mat3.trace, decide_eq_true_eq]
  push_cast
  by_cases h0 : 0 < a + e + i
  · rw [if_pos h0]
    obtain ⟨s1, s2⟩ := hsq (a + e + i + 1) (by linarith)
    exact toMat_core hm _ _ (by rw [s1]; ring) s2
  rw [if_neg h0]
  have turn : ∀ (p : Quat ℝ) (a b c d e f g h i : ℝ), p.toMat = ⟨⟨a, b, c⟩, ⟨d, e, f⟩, ⟨g, h, i⟩⟩ →
      1 - (2 * p.y * p.y + 2 * p.z * p.z) = a ∧ 2 * p.y * p.x - 2 * p.z * p.w = b ∧ 2 * p.z * p.x + 2 * p.y * p.w = c ∧
      2 * p.y * p.x + 2 * p.z * p.w = d ∧ 1 - (2 * p.x * p.x + 2 * p.z * p.z) = e ∧ 2 * p.z * p.y - 2 * p.x * p.w = f ∧
      2 * p.z * p.x - 2 * p.y * p.w = g ∧ 2 * p.z * p.y + 2 * p.x * p.w = h ∧ 1 - (2 * p.x * p.x + 2 * p.y * p.y) = i := by
    intro p a b c d e f g h i hp
    unfold Quat.toMat at hp
    simp only [lit, Mat3.mk.injEq, Vec3.mk.injEq] at hp
    push_cast at hp
    obtain ⟨⟨h1, h2, h3⟩, ⟨h4, h5, h6⟩, ⟨h7, h8, h9⟩⟩ := hp
    exact ⟨h1, h2, h3, h4, h5, h6, h7, h8, h9⟩
  have fx : 0 < a - e - i + 1 → (⟨(h - f) * (1 / 2 / √(a - e - i + 1)), 1 / 2 * √(a - e - i + 1), (d + b) * (1 / 2 / √(a - e - i + 1)), (g + c) * (1 / 2 / √(a - e - i + 1))⟩ : Quat ℝ).toMat =
      ⟨⟨a, b, c⟩, ⟨d, e, f⟩, ⟨g, h, i⟩⟩ ∧
      (⟨(h - f) * (1 / 2 / √(a - e - i + 1)), 1 / 2 * √(a - e - i + 1), (d + b) * (1 / 2 / √(a - e - i + 1)), (g + c) * (1 / 2 / √(a - e - i + 1))⟩ : Quat ℝ).sqNorm = 1 := by
    intro hp
    obtain ⟨s1, s2⟩ := hsq _ hp
    generalize √(a - e - i + 1) = s at *
    generalize 1 / 2 / s = t at *
    obtain ⟨r1, r2⟩ := toMat_core (a := a) (b := -b) (c := -c) (d := d) (e := -e) (f := -f) (g := g) (h := -h) (i := -i)
      ⟨by linear_combination n0, by linear_combination n1, by linear_combination n2, by linear_combination o01, by linear_combination o02, by linear_combination o12,
        by linear_combination hd⟩ s t (by linear_combination s1) s2
    obtain ⟨h1, h2, h3, h4, h5, h6, h7, h8, h9⟩ := turn _ _ _ _ _ _ _ _ _ _ r1
    unfold Quat.sqNorm at r2 ⊢
    unfold Quat.toMat
    simp only [lit] at *
    push_cast
    refine ⟨?_, by linear_combination r2⟩
    ext <;> dsimp only
    · linear_combination h1
    · linear_combination -h2
    · linear_combination -h3
    · linear_combination h4
    · linear_combination -h5 - 2 * r2
    · linear_combination -h6
    · linear_combination h7
    · linear_combination -h8
    · linear_combination -h9 - 2 * r2
  have fy : 0 < e - i - a + 1 → (⟨(c - g) * (1 / 2 / √(e - i - a + 1)), (b + d) * (1 / 2 / √(e - i - a + 1)), 1 / 2 * √(e - i - a + 1), (h + f) * (1 / 2 / √(e - i - a + 1))⟩ : Quat ℝ).toMat =
      ⟨⟨a, b, c⟩, ⟨d, e, f⟩, ⟨g, h, i⟩⟩ ∧
      (⟨(c - g) * (1 / 2 / √(e - i - a + 1)), (b + d) * (1 / 2 / √(e - i - a + 1)), 1 / 2 * √(e - i - a + 1), (h + f) * (1 / 2 / √(e - i - a + 1))⟩ : Quat ℝ).sqNorm = 1 := by
    intro hp
    obtain ⟨s1, s2⟩ := hsq _ hp
    generalize √(e - i - a + 1) = s at *
    generalize 1 / 2 / s = t at *
    obtain ⟨r1, r2⟩ := toMat_core (a := -a) (b := b) (c := -c) (d := -d) (e := e) (f := -f) (g := -g) (h := h) (i := -i)
      ⟨by linear_combination n0, by linear_combination n1, by linear_combination n2, by linear_combination o01, by linear_combination o02, by linear_combination o12,
        by linear_combination hd⟩ s t (by linear_combination s1) s2
    obtain ⟨h1, h2, h3, h4, h5, h6, h7, h8, h9⟩ := turn _ _ _ _ _ _ _ _ _ _ r1
    unfold Quat.sqNorm at r2 ⊢
    unfold Quat.toMat
    simp only [lit] at *
    push_cast
    refine ⟨?_, by linear_combination r2⟩
    ext <;> dsimp only
    · linear_combination -h1 - 2 * r2
    · linear_combination h2
    · linear_combination -h3
    · linear_combination -h4
    · linear_combination h5
    · linear_combination -h6
    · linear_combination -h7
    · linear_combination h8
    · linear_combination -h9 - 2 * r2
  have fz : 0 < i - a - e + 1 → (⟨(d - b) * (1 / 2 / √(i - a - e + 1)), (c + g) * (1 / 2 / √(i - a - e + 1)), (f + h) * (1 / 2 / √(i - a - e + 1)), 1 / 2 * √(i - a - e + 1)⟩ : Quat ℝ).toMat =
      ⟨⟨a, b, c⟩, ⟨d, e, f⟩, ⟨g, h, i⟩⟩ ∧
      (⟨(d - b) * (1 / 2 / √(i - a - e + 1)), (c + g) * (1 / 2 / √(i - a - e + 1)), (f + h) * (1 / 2 / √(i - a - e + 1)), 1 / 2 * √(i - a - e + 1)⟩ : Quat ℝ).sqNorm = 1 := by
    intro hp
    obtain ⟨s1, s2⟩ := hsq _ hp
    generalize √(i - a - e + 1) = s at *
    generalize 1 / 2 / s = t at *
    obtain ⟨r1, r2⟩ := toMat_core (a := -a) (b := -b) (c := c) (d := -d) (e := -e) (f := f) (g := -g) (h := -h) (i := i)
      ⟨by linear_combination n0, by linear_combination n1, by linear_combination n2, by linear_combination o01, by linear_combination o02, by linear_combination o12,
        by linear_combination hd⟩ s t (by linear_combination s1) s2
    obtain ⟨h1, h2, h3, h4, h5, h6, h7, h8, h9⟩ := turn _ _ _ _ _ _ _ _ _ _ r1
    unfold Quat.sqNorm at r2 ⊢
    unfold Quat.toMat
    simp only [lit] at *
    push_cast
    refine ⟨?_, by linear_combination r2⟩
    ext <;> dsimp only
    · linear_combination -h1 - 2 * r2
    · linear_combination -h2
    · linear_combination h3
    · linear_combination -h4
    · linear_combination -h5 - 2 * r2
    · linear_combination h6
    · linear_combination -h7
    · linear_combination -h8
    · linear_combination h9
  have pick : (if Mat3.get ⟨⟨a, b, c⟩, ⟨d, e, f⟩, ⟨g, h, i⟩⟩ (if a < e then 1 else 0) (if a < e then 1 else 0) < i then 2 else if a < e then 1 else 0) =
      (if a < e then (if e < i then 2 else 1) else if a < i then 2 else 0) := by
    by_cases h1 : a < e
    · simp only [if_pos h1]; rfl
    · simp only [if_neg h1]; rfl
  rw [pick]
  by_cases h1 : a < e
  · by_cases h2 : e < i
    · rw [if_pos h1, if_pos h2]
      exact fz (by linarith)
    · rw [if_pos h1, if_neg h2]
      exact fy (by linarith)
  · by_cases h2 : a < i
    · rw [if_neg h1, if_pos h2]
      exact fz (by linarith)
    · rw [if_neg h1, if_neg h2]
      exact fx (by linarith)

/-- The matrix of a unit quaternion is a rotation. -/
theorem toMat_isRot (q : Quat ℝ) (hq : q.sqNorm = 1) : IsRot q.toMat := by
  unfold Quat.sqNorm at hq
  constructor <;> simp only [Quat.toMat, lit] <;> push_cast
  · linear_combination 4 * (q.y * q.y + q.z * q.z) * hq
  · linear_combination 4 * (q.x * q.x + q.z * q.z) * hq
  · linear_combination 4 * (q.x * q.x + q.y * q.y) * hq
  · linear_combination -4 * (q.x * q.y) * hq
  · linear_combination -4 * (q.x * q.z) * hq
  · linear_combination -4 * (q.y * q.z) * hq
  · linear_combination 4 * (q.x * q.x + q.y * q.y + q.z * q.z) * hq

theorem four_squares {a b c d : ℝ} (h : a ^ 2 + b ^ 2 + c ^ 2 + d ^ 2 = 0) : a = 0 ∧ b = 0 ∧ c = 0 ∧ d = 0 := by
  have := sq_nonneg a
  have := sq_nonneg b
  have := sq_nonneg c
  have := sq_nonneg d
  exact ⟨pow_eq_zero_iff (two_ne_zero) |>.1 (by linarith), pow_eq_zero_iff (two_ne_zero) |>.1 (by linarith), pow_eq_zero_iff (two_ne_zero) |>.1 (by linarith),
    pow_eq_zero_iff (two_ne_zero) |>.1 (by linarith)⟩

/-- Two unit quaternions with the same matrix are equal up to sign. -/
theorem toMat_inj (p q : Quat ℝ) (hp : p.sqNorm = 1) (hq : q.sqNorm = 1) (h : p.toMat = q.toMat) : p = q ∨ p = ⟨-q.w, -q.x, -q.y, -q.z⟩ := by
  unfold Quat.sqNorm at hp hq
  unfold Quat.toMat at h
  simp only [lit, Mat3.mk.injEq, Vec3.mk.injEq] at h
  push_cast at h
  obtain ⟨⟨h1, h2, h3⟩, ⟨h4, h5, h6⟩, ⟨h7, h8, h9⟩⟩ := h
  obtain ⟨pw, px, py, pz⟩ := p
  obtain ⟨w, x, y, z⟩ := q
  dsimp only at *
  have xx : px * px = x * x := by linear_combination (1 / 4) * (h1 - h5 - h9)
  have yy : py * py = y * y := by linear_combination (1 / 4) * (h5 - h1 - h9)
  have zz : pz * pz = z * z := by linear_combination (1 / 4) * (h9 - h1 - h5)
  have ww : pw * pw = w * w := by linear_combination hp - hq - xx - yy - zz
  have xy : px * py = x * y := by linear_combination (1 / 4) * (h2 + h4)
  have xz : px * pz = x * z := by linear_combination (1 / 4) * (h3 + h7)
  have yz : py * pz = y * z := by linear_combination (1 / 4) * (h6 + h8)
  have wx : pw * px = w * x := by linear_combination (1 / 4) * (h8 - h6)
  have wy : pw * py = w * y := by linear_combination (1 / 4) * (h3 - h7)
  have wz : pw * pz = w * z := by linear_combination (1 / 4) * (h4 - h2)
  have hd : (pw * w + px * x + py * y + pz * z) ^ 2 = 1 := by
    linear_combination (w * w) * ww + (x * x) * xx + (y * y) * yy + (z * z) * zz + 2 * (w * x) * wx + 2 * (w * y) * wy + 2 * (w * z) * wz +
      2 * (x * y) * xy + 2 * (x * z) * xz + 2 * (y * z) * yz + (w * w + x * x + y * y + z * z + 1) * hq
  rcases sq_eq_one_iff.1 hd with h | h
  · left
    obtain ⟨a, b, c, d⟩ := four_squares (a := pw - w) (b := px - x) (c := py - y) (d := pz - z) (by linear_combination hp + hq - 2 * h)
    ext <;> dsimp only <;> linarith
  · right
    obtain ⟨a, b, c, d⟩ := four_squares (a := pw + w) (b := px + x) (c := py + y) (d := pz + z) (by linear_combination hp + hq + 2 * h)
    ext <;> dsimp only <;> linarith

/-- C94.  The quaternion taken from the matrix of a unit quaternion is that quaternion or its negative. -/
theorem C94_inverse (q : Quat ℝ) (hq : q.sqNorm = 1) : Quat.ofMat q.toMat = q ∨ Quat.ofMat q.toMat = ⟨-q.w, -q.x, -q.y, -q.z⟩ :=
  have h := C94_matrix _ (toMat_isRot q hq)
  toMat_inj _ _ h.2 hq h.1

/-- C94.  Cameras whose files hold rotation matrices: the configured quaternions have unit length and turn vectors as the matrices of the files do. -/
theorem C94_cameras (lib : ConfLib ℝ) (fs : String → Option (List Char)) (path : String) (s : Conf.St ℝ) (k fuel : Nat) (cam : Nat → Nat → Nat → ℝ)
    (hs : s.cfg.maxCameraNum = 0 ∧ s.cfg.qbc = [] ∧ s.cfg.pbc = [])
    (hcam : ∀ i < k, ConfSpec.Entry lib.numGet fs (Conf.camFile path i) 4 4 (some (cam i))) (hk : fs (Conf.camFile path k) = none) (hk32 : k < two32) (hfuel : k < fuel)
    (hrot : ∀ i < k, IsRot ⟨⟨cam i 0 0, cam i 0 1, cam i 0 2⟩, ⟨cam i 1 0, cam i 1 1, cam i 1 2⟩, ⟨cam i 2 0, cam i 2 1, cam i 2 2⟩⟩) :
    ∃ s', Conf.loadCams lib fs path fuel s = .ok (some s') ∧ s'.cfg.qbc.length = k ∧ s'.cfg.pbc.length = k ∧ ∀ (i : Nat) (q : Quat ℝ) (p : Vec3 ℝ), s'.cfg.qbc[i]? = some q → s'.cfg.pbc[i]? = some p →
      q.sqNorm = 1 ∧ p = ⟨cam i 0 3, cam i 1 3, cam i 2 3⟩ ∧
      ∀ v, q.rotate v = ⟨cam i 0 0 * v.x + cam i 0 1 * v.y + cam i 0 2 * v.z, cam i 1 0 * v.x + cam i 1 1 * v.y + cam i 1 2 * v.z, cam i 2 0 * v.x + cam i 2 1 * v.y + cam i 2 2 * v.z⟩ := by
  obtain ⟨m, h⟩ := Conf.loadCams_spec lib fs path cam k hk32 hk k 0 s fuel (by omega) hs.1 hfuel (fun i _ h => hcam i h)
  refine ⟨_, h, by simp [hs.2.1], by simp [hs.2.2], ?_⟩
  intro i q p h1 h2
  dsimp only at h1 h2
  rw [hs.2.1, List.nil_append, List.getElem?_map] at h1
  rw [hs.2.2, List.nil_append, List.getElem?_map] at h2
  obtain ⟨j, hj, rfl⟩ := Option.map_eq_some_iff.1 h1
  obtain ⟨j', hj', rfl⟩ := Option.map_eq_some_iff.1 h2
  obtain ⟨hlt, hji⟩ := List.getElem?_eq_some_iff.1 hj
  rw [hj] at hj'
  cases hj'
  simp at hlt hji
  subst hji
  obtain ⟨c1, c2⟩ := C94_matrix _ (hrot i hlt)
  refine ⟨c2, rfl, fun v => ?_⟩
  rw [← Quat.toMat_mulVec]
  show (Quat.ofMat _).toMat.mulVec v = _
  unfold Conf.camOf
  rw [c1]
  rfl

/-- C94: a turn by a third about the diagonal has trace zero, so the branch for small traces is taken. -/
example : IsRot ⟨⟨0, 0, 1⟩, ⟨1, 0, 0⟩, ⟨0, 1, 0⟩⟩ := by constructor <;> norm_num

/-- C94: a half turn about the y axis. -/
example : IsRot ⟨⟨-1, 0, 0⟩, ⟨0, 1, 0⟩, ⟨0, 0, -1⟩⟩ := by constructor <;> norm_num

end Vio

/-
Numerical libraries for the turned world: to every library that reads only the matrices it is given belongs one that gives the turned results, and it keeps the same promises.
-/
import Verif.Lemmas.TurnMeas
import Verif.Lemmas.Decomp
import Verif.Lemmas.Svd
import Verif.Spec.Geometry

set_option linter.unusedSectionVars false

namespace Vio
open Spec

theorem tt_one (sel : Nat → Bool) (x : Nat → ℝ) (i : Nat) : turnTriples .one sel x i = x i := by
  unfold turnTriples
  split
  · have e : i = 3 * (i / 3) + i % 3 := by omega
    have hlt : i % 3 < 3 := Nat.mod_lt _ (by omega)
    conv_rhs => rw [e]
    generalize i % 3 = m at *
    interval_cases m <;> simp [Mat3.get, Mat3.row, Vec3.get, Mat3.one]
  · rfl

/-- Turning forth after turning back. -/
theorem tt_forth (R : Mat3 ℝ) (hR : R.mul R.transpose = .one) (sel : Nat → Bool) (x : Nat → ℝ) (i : Nat) : turnTriples R sel (turnTriples R.transpose sel x) i = x i :=
  tt_back R.transpose hR sel x i

theorem rotM_orth' (r : Quat ℝ) (hr : r.sqNorm = 1) : r.toMat.mul r.toMat.transpose = .one := by
  have h := rotM_orth r.inverse (Quat.sqNorm_inverse_of_unit _ hr)
  rw [toMat_inverse r hr] at h
  exact h

/-- The first triple. -/
theorem tt_first (R : Mat3 ℝ) (x : Nat → ℝ) :
    turnTriples R (fun b => b == 0) x 0 = R.r0.x * x 0 + R.r0.y * x 1 + R.r0.z * x 2 ∧ turnTriples R (fun b => b == 0) x 1 = R.r1.x * x 0 + R.r1.y * x 1 + R.r1.z * x 2 ∧
    turnTriples R (fun b => b == 0) x 2 = R.r2.x * x 0 + R.r2.y * x 1 + R.r2.z * x 2 ∧ turnTriples R (fun b => b == 0) x 3 = x 3 := by
  simp [turnTriples, Mat3.get, Mat3.row, Vec3.get]

/-- A library for the turned world: turns its arguments back, asks `ext`, turns the results. -/
noncomputable def Ext.turned (r : Quat ℝ) (nc : Nat) (ext : Ext ℝ) : Ext ℝ where
  svdLast a := if a.cols = 4 then turnTriples r.toMat (fun b => b == 0) (ext.svdLast ⟨a.rows, a.cols, fun i => turnTriples r.toMat.transpose (fun b => b == 0) (a.e i)⟩) else ext.svdLast a
  ldlt3 := ext.ldlt3
  ldlt6 h b :=
    let x := ext.ldlt6 ⟨(r.toMat.transpose.mul h.pp).mul r.toMat, r.toMat.transpose.mul h.pr, h.rp.mul r.toMat, h.rr⟩ ⟨r.toMat.transpose.mulVec b.p, b.r⟩
    ⟨r.rotate x.p, x.r⟩
  qrQ a := if a.cols % 3 = 0 then ext.qrQ ⟨a.rows, a.cols, fun i => turnTriples r.toMat.transpose (turnedCols nc a.cols) (a.e i)⟩ else ext.qrQ a
  eigVal := ext.eigVal
  eigVec := ext.eigVec

theorem mat3_mul_assoc (a b c : Mat3 ℝ) : (a.mul b).mul c = a.mul (b.mul c) := by
  apply Mat3.ext <;> apply Vec3.ext <;> simp only [Mat3.mul, Mat3.mulVec, Mat3.transpose, Vec3.dot] <;> ring

theorem mat3_mulVec_mul (a b : Mat3 ℝ) (v : Vec3 ℝ) : (a.mul b).mulVec v = a.mulVec (b.mulVec v) := by
  apply Vec3.ext <;> simp only [Mat3.mul, Mat3.mulVec, Mat3.transpose, Vec3.dot] <;> ring

theorem mat3_one_mul (a : Mat3 ℝ) : Mat3.one.mul a = a := by
  apply Mat3.ext <;> apply Vec3.ext <;> simp [Mat3.mul, Mat3.mulVec, Mat3.transpose, Vec3.dot, Mat3.one]

theorem mat3_mul_one (a : Mat3 ℝ) : a.mul .one = a := by
  apply Mat3.ext <;> apply Vec3.ext <;> simp [Mat3.mul, Mat3.mulVec, Mat3.transpose, Vec3.dot, Mat3.one]

theorem mat3_one_mulVec (v : Vec3 ℝ) : Mat3.one.mulVec v = v := by
  apply Vec3.ext <;> simp [Mat3.mulVec, Vec3.dot, Mat3.one]

theorem mat3_mulVec_add (a : Mat3 ℝ) (v w : Vec3 ℝ) : a.mulVec (v + w) = a.mulVec v + a.mulVec w := by
  apply Vec3.ext <;> simp [Mat3.mulVec, Vec3.dot] <;> ring

theorem ext_turned {r : Quat ℝ} (hr : r.sqNorm = 1) (nc : Nat) {ext : Ext ℝ} (hm : ext.ReadsMatrix) : ExtTurned r nc ext (ext.turned r nc) := by
  have hR := rotM_orth r hr
  refine ⟨fun a a' h hc => ⟨1, by norm_num, ?_⟩, fun h b => ?_, fun a a' h i j hi hj => ?_, fun a a' h1 h2 h3 => ?_⟩
  · have hb := (hm ⟨a'.rows, a'.cols, fun i => turnTriples r.toMat.transpose (fun b => b == 0) (a'.e i)⟩ a h.rows h.cols (by
      intro i j hi hj
      have hi' : i < a.rows := by rw [← h.rows]; exact hi
      have hj' : j < 4 := by rw [← hc, ← h.cols]; exact hj
      by_cases h3 : j < 3
      · rw [← tt_back r.toMat hR (fun b => b == 0) (a.e i) j]
        exact tt_congr r.toMat.transpose (fun b => b == 0) (n := 3) rfl h3 (fun k hk => h.coef i k hi' (by omega))
      · have : j = 3 := by omega
        subst this
        have := h.rhs i hi'
        rw [hc] at this
        exact ((tt_first r.toMat.transpose (a'.e i)).2.2.2).trans this)).1
    have e : (ext.turned r nc).svdLast a' = turnTriples r.toMat (fun b => b == 0) (ext.svdLast a) := by
      show (if a'.cols = 4 then _ else _) = _
      rw [if_pos (h.cols.trans hc), hb]
    rw [e]
    obtain ⟨e0, e1, e2, e3⟩ := tt_first r.toMat (ext.svdLast a)
    refine ⟨by rw [e3, one_mul], ?_⟩
    rw [e0, e1, e2, ← Quat.toMat_mulVec]
    apply Vec3.ext <;> simp [Mat3.mulVec, Vec3.dot]
  · have e : ∀ m : Mat3 ℝ, (r.toMat.transpose.mul ((r.toMat.mul m).mul r.toMat.transpose)).mul r.toMat = m := by
      intro m
      rw [mat3_mul_assoc, mat3_mul_assoc, mat3_mul_assoc, hR, mat3_mul_one, ← mat3_mul_assoc, hR, mat3_one_mul]
    show (⟨_, _⟩ : Vec6 ℝ) = _
    dsimp only
    rw [e, ← mat3_mul_assoc, hR, mat3_one_mul, mat3_mul_assoc h.rp, hR, mat3_mul_one, ← Quat.toMat_mulVec r b.p, ← mat3_mulVec_mul, hR, mat3_one_mulVec]
  · have hb := (hm ⟨a'.rows, a'.cols, fun i => turnTriples r.toMat.transpose (turnedCols nc a'.cols) (a'.e i)⟩ a h.rows h.cols (by
      intro i j hi hj
      have hi' : i < a.rows := by rw [← h.rows]; exact hi
      have hj' : j < a.cols := by rw [← h.cols]; exact hj
      show turnTriples r.toMat.transpose (turnedCols nc a'.cols) (a'.e i) j = _
      rw [h.cols, ← tt_back r.toMat hR (turnedCols nc a.cols) (a.e i) j]
      exact tt_congr _ _ h.width hj' (fun k hk => h.coef i k hi' hk))).2.1
    have e : (ext.turned r nc).qrQ a' = ext.qrQ a := by
      show (if a'.cols % 3 = 0 then _ else _) = _
      rw [if_pos (by rw [h.cols]; exact h.width), hb]
    rw [e]
  · obtain ⟨_, _, e1, e2⟩ := hm a' a h1 h2 (fun i j hi hj => h3 i j (by rw [← h1]; exact hi) (by rw [← h2]; exact hj))
    exact ⟨fun k _ => congrFun e1 k, fun i k _ _ => congrFun (congrFun e2 i) k⟩

theorem turned_reads {r : Quat ℝ} (nc : Nat) {ext : Ext ℝ} (hm : ext.ReadsMatrix) : (ext.turned r nc).ReadsMatrix := by
  intro a b h1 h2 h3
  refine ⟨?_, ?_, (hm a b h1 h2 h3).2.2⟩
  · show (if a.cols = 4 then _ else _) = (if b.cols = 4 then _ else _)
    rw [← h2]
    split
    · rename_i hc
      have hb := (hm ⟨a.rows, a.cols, fun i => turnTriples r.toMat.transpose (fun b => b == 0) (a.e i)⟩ ⟨b.rows, b.cols, fun i => turnTriples r.toMat.transpose (fun b => b == 0) (b.e i)⟩ h1 h2 (by
        intro i j hi hj
        have hi' : i < a.rows := hi
        have hj' : j < 4 := by rw [← hc]; exact hj
        by_cases h3' : j < 3
        · exact tt_congr r.toMat.transpose (fun b => b == 0) (n := 3) rfl h3' (fun k hk => h3 i k hi' (by omega))
        · have : j = 3 := by omega
          subst this
          exact ((tt_first r.toMat.transpose (a.e i)).2.2.2).trans ((h3 i 3 hi' (by omega)).trans (tt_first r.toMat.transpose (b.e i)).2.2.2.symm))).1
      rw [← h2] at hb
      rw [hb]
    · exact (hm a b h1 h2 h3).1
  · show (if a.cols % 3 = 0 then _ else _) = (if b.cols % 3 = 0 then _ else _)
    rw [← h2]
    split
    · rename_i hc
      have hb := (hm ⟨a.rows, a.cols, fun i => turnTriples r.toMat.transpose (turnedCols nc a.cols) (a.e i)⟩ ⟨b.rows, b.cols, fun i => turnTriples r.toMat.transpose (turnedCols nc a.cols) (b.e i)⟩ h1 h2 (by
        intro i j hi hj
        exact tt_congr r.toMat.transpose (turnedCols nc a.cols) hc hj (fun k hk => h3 i k hi hk))).2.1
      rw [← h2] at hb
      exact hb
    · exact (hm a b h1 h2 h3).2.1

theorem turned_correct {r : Quat ℝ} (hr : r.sqNorm = 1) (nc : Nat) {ext : Ext ℝ} (h : ext.Correct) : (ext.turned r nc).Correct := by
  have hR := rotM_orth r hr
  have hR' := rotM_orth' r hr
  refine ⟨⟨fun a => ?_, h.good.eig⟩, fun a hc => ?_, fun m b hx => ?_⟩
  · show IsQR a (if a.cols % 3 = 0 then _ else _)
    split
    · rename_i hc
      have hq := h.good.qr ⟨a.rows, a.cols, fun i => turnTriples r.toMat.transpose (turnedCols nc a.cols) (a.e i)⟩
      refine ⟨hq.orth, fun i j hij => ?_⟩
      have hb : ∀ l, l < a.cols → ∑ k : Fin a.rows, (ext.qrQ ⟨a.rows, a.cols, fun i => turnTriples r.toMat.transpose (turnedCols nc a.cols) (a.e i)⟩ k i) *
          turnTriples r.toMat.transpose (turnedCols nc a.cols) (a.e k) l = 0 := by
        intro l hl
        have := hq.below i ⟨l, hl⟩ hij
        rw [Matrix.mul_apply] at this
        exact this
      rw [Matrix.mul_apply]
      have e : ∀ k : Fin a.rows, a.toM a.rows a.cols k j = turnTriples r.toMat (turnedCols nc a.cols) (turnTriples r.toMat.transpose (turnedCols nc a.cols) (a.e k)) j :=
        fun k => (tt_forth _ hR' _ _ _).symm
      simp only [e, Matrix.transpose_apply, Matrix.of_apply]
      rw [← tt_sum, tt_congr _ _ hc j.2 (y := fun _ => 0) hb]
      simp [turnTriples]
    · exact h.good.qr a
  · show IsLastSingular a (if a.cols = 4 then _ else _)
    rw [if_pos hc]
    have hs := h.svd ⟨a.rows, a.cols, fun i => turnTriples r.toMat.transpose (fun b => b == 0) (a.e i)⟩ hc
    have hlen : ∀ (R : Mat3 ℝ) (_ : R.transpose.mul R = .one) (x : Nat → ℝ), ∑ j ∈ Finset.range 4, turnTriples R (fun b => b == 0) x j ^ 2 = ∑ j ∈ Finset.range 4, x j ^ 2 := by
      intro R hR x
      obtain ⟨e0, e1, e2, e3⟩ := tt_first R x
      simp only [Finset.sum_range_succ, Finset.sum_range_zero, e0, e1, e2, e3]
      simp only [Mat3.ext_iff, Vec3.ext_iff, Mat3.mul, Mat3.mulVec, Mat3.transpose, Vec3.dot, Mat3.one] at hR
      obtain ⟨⟨f1, f2, f3⟩, ⟨f4, f5, f6⟩, f7, f8, f9⟩ := hR
      linear_combination x 0 ^ 2 * f1 + 2 * x 0 * x 1 * f2 + 2 * x 0 * x 2 * f3 + x 1 ^ 2 * f5 + 2 * x 1 * x 2 * f6 + x 2 ^ 2 * f9
    have him : ∀ x, imageSq a (turnTriples r.toMat (fun b => b == 0) x) = imageSq ⟨a.rows, a.cols, fun i => turnTriples r.toMat.transpose (fun b => b == 0) (a.e i)⟩ x := by
      intro x
      unfold imageSq
      refine Finset.sum_congr rfl (fun i _ => ?_)
      congr 1
      obtain ⟨e0, e1, e2, e3⟩ := tt_first r.toMat x
      obtain ⟨g0, g1, g2, g3⟩ := tt_first r.toMat.transpose (a.e i)
      simp only [Finset.sum_range_succ, Finset.sum_range_zero, e0, e1, e2, e3, g0, g1, g2, g3]
      simp only [Mat3.transpose]
      ring
    refine ⟨(hlen _ hR _).trans hs.unit, fun y hy => ?_⟩
    rw [him]
    have e : y = turnTriples r.toMat (fun b => b == 0) (turnTriples r.toMat.transpose (fun b => b == 0) y) := by
      funext i; exact (tt_forth _ hR' _ _ _).symm
    rw [e, him]
    exact hs.least _ ((hlen _ hR' y).trans hy)
  · obtain ⟨x, hx⟩ := hx
    have e := h.solve ⟨(r.toMat.transpose.mul m.pp).mul r.toMat, r.toMat.transpose.mul m.pr, m.rp.mul r.toMat, m.rr⟩ ⟨r.toMat.transpose.mulVec b.p, b.r⟩
      ⟨⟨r.toMat.transpose.mulVec x.p, x.r⟩, by
        rw [← hx]
        simp only [Mat6.apply, mat3_mulVec_mul, mat3_mulVec_add]
        rw [← mat3_mulVec_mul r.toMat, hR', mat3_one_mulVec]⟩
    show m.apply ⟨r.rotate _, _⟩ = b
    rw [← Quat.toMat_mulVec]
    generalize ext.ldlt6 _ _ = z at e ⊢
    simp only [Mat6.apply, mat3_mulVec_mul] at e ⊢
    have e1 := congrArg Vec6.p e
    have e2 := congrArg Vec6.r e
    dsimp only at e1 e2
    have e3 := congrArg r.toMat.mulVec e1
    rw [mat3_mulVec_add, ← mat3_mulVec_mul r.toMat, ← mat3_mulVec_mul r.toMat, ← mat3_mulVec_mul r.toMat, hR', mat3_one_mulVec, mat3_one_mulVec, mat3_one_mulVec] at e3
    rw [e3, e2]

/-- The matrix with zeros outside. -/
def DMat.inside (a : DMat ℝ) : DMat ℝ := ⟨a.rows, a.cols, fun i j => if i < a.rows ∧ j < a.cols then a.e i j else 0⟩

theorem inside_congr (a b : DMat ℝ) (h1 : a.rows = b.rows) (h2 : a.cols = b.cols) (h : ∀ i j, i < a.rows → j < a.cols → a.e i j = b.e i j) : a.inside = b.inside := by
  unfold DMat.inside
  rw [← h1, ← h2]
  congr 1
  funext i j
  split
  · rename_i hc; exact h i j hc.1 hc.2
  · rfl

/-- A correct library exists that reads only the matrices it is given. -/
theorem exists_correct : ∃ ext : Ext ℝ, ext.Correct ∧ ext.ReadsMatrix := by
  classical
  obtain ⟨f, hf⟩ := exists_svd
  let sol : Mat6 ℝ → Vec6 ℝ → Vec6 ℝ := fun h b => if hx : ∃ x, h.apply x = b then hx.choose else ⟨0, 0⟩
  obtain ⟨ext, hg, h1, _, h3⟩ := exists_goodExt ⟨f, fun _ v => v, sol, fun _ _ _ => 0, fun _ _ => 0, fun _ _ _ => 0⟩
  have hM : ∀ a : DMat ℝ, a.inside.toM a.rows a.cols = a.toM a.rows a.cols := by
    intro a; ext i j; simp [DMat.toM, DMat.inside]
  refine ⟨⟨fun a => ext.svdLast a.inside, ext.ldlt3, ext.ldlt6, fun a => ext.qrQ a.inside, fun a => ext.eigVal a.inside, fun a => ext.eigVec a.inside⟩,
    ⟨⟨fun a => ?_, fun a hsq hs => ?_⟩, fun a hc => ?_, fun h b hx => ?_⟩, fun a b e1 e2 e3 => ?_⟩
  · have hq := hg.qr a.inside
    refine ⟨hq.orth, fun i j hij => ?_⟩
    have := hq.below i j hij
    rw [← hM a]
    exact this
  · have hq := hg.eig a.inside hsq (by
      intro i j hi hj
      have hi' : i < a.rows := hi
      have hj' : j < a.rows := hj
      show (if _ then _ else _) = (if _ then _ else _)
      rw [if_pos ⟨hi', by omega⟩, if_pos ⟨hj', by omega⟩]
      exact hs i j hi hj)
    refine ⟨hq.orth, Eq.trans ?_ hq.diag⟩
    ext i j
    have hj : j.val < a.cols := by have := j.2; omega
    simp [DMat.toM, DMat.inside, hj]
  · have hs := hf a.inside
    have him : ∀ x, imageSq a.inside x = imageSq a x := by
      intro x
      unfold imageSq
      refine Finset.sum_congr rfl (fun i hi => ?_)
      congr 1
      refine Finset.sum_congr rfl (fun j hj => ?_)
      have hi' : i < a.rows := Finset.mem_range.1 hi
      have hj' : j < a.cols := by rw [hc]; exact Finset.mem_range.1 hj
      show (if _ then _ else _) * _ = _
      rw [if_pos ⟨hi', hj'⟩]
    show IsLastSingular a (ext.svdLast a.inside)
    rw [h1]
    refine ⟨hs.unit, fun y hy => ?_⟩
    rw [← him, ← him]
    exact hs.least y hy
  · show h.apply (ext.ldlt6 h b) = b
    rw [h3]
    show h.apply (if hx : ∃ x, h.apply x = b then hx.choose else ⟨0, 0⟩) = b
    rw [dif_pos hx]
    exact hx.choose_spec
  · have e := inside_congr a b e1 e2 e3
    dsimp only
    rw [e]
    exact ⟨rfl, rfl, rfl, rfl⟩

end Vio

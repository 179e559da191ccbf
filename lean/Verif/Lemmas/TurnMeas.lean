/-
The measurement equation and the Kalman step in a world turned about gravity.
-/
import Verif.Lemmas.Turn
import Verif.Lemmas.Agree
import Verif.Props.Junk
import Verif.Props.Kalman
import Verif.Props.PropagatorNum

set_option linter.unusedSectionVars false

namespace Vio
open Spec WinSpec Update Res DMat

variable {T : Type} [TimeOps T] [TimeCast T ℝ]

/-! ### Rotations -/

theorem turn_inverse (r q : Quat ℝ) (hr : r.sqNorm = 1) (hq : q.sqNorm = 1) : (r.mul q).inverse = q.inverse.mul r.inverse := by
  have hm : (r.mul q).sqNorm = 1 := by rw [Quat.sqNorm_mul, hr, hq, one_mul]
  rw [Quat.inverse_of_unit _ hm, Quat.inverse_of_unit _ hr, Quat.inverse_of_unit _ hq]
  apply Quat.ext <;> simp only [Quat.mul] <;> ring

theorem unit_turn {r q : Quat ℝ} (hr : r.sqNorm = 1) (hq : q.sqNorm = 1) : (r.mul q).sqNorm = 1 := by rw [Quat.sqNorm_mul, hr, hq, one_mul]

theorem inverse_turn_rotate (r q : Quat ℝ) (hr : r.sqNorm = 1) (hq : q.sqNorm = 1) (v : Vec3 ℝ) : (r.mul q).inverse.rotate (r.rotate v) = q.inverse.rotate v := by
  rw [turn_inverse r q hr hq, Quat.rotate_mul _ _ (Quat.sqNorm_inverse_of_unit _ hq) (Quat.sqNorm_inverse_of_unit _ hr), ← Quat.rotate_mul _ _ (Quat.sqNorm_inverse_of_unit _ hr) hr,
    Quat.inverse_mul_of_unit _ hr, Quat.rotate_one]

theorem toMat_mul (a b : Quat ℝ) (ha : a.sqNorm = 1) (hb : b.sqNorm = 1) : (a.mul b).toMat = a.toMat.mul b.toMat := by
  have key : ∀ v, (a.mul b).toMat.mulVec v = a.toMat.mulVec (b.toMat.mulVec v) := by
    intro v
    rw [Quat.toMat_mulVec, Quat.toMat_mulVec, Quat.toMat_mulVec, Quat.rotate_mul _ _ ha hb]
  have e1 := key ⟨1, 0, 0⟩
  have e2 := key ⟨0, 1, 0⟩
  have e3 := key ⟨0, 0, 1⟩
  simp only [Mat3.mulVec, Vec3.dot, Vec3.ext_iff, mul_one, mul_zero, add_zero, zero_add] at e1 e2 e3
  apply Mat3.ext <;> apply Vec3.ext <;> simp only [Mat3.mul, Mat3.transpose, Mat3.mulVec, Vec3.dot] <;> linarith [e1.1, e1.2.1, e1.2.2, e2.1, e2.2.1, e2.2.2, e3.1, e3.2.1, e3.2.2]

theorem toMat_inverse (r : Quat ℝ) (hr : r.sqNorm = 1) : r.inverse.toMat = r.toMat.transpose := by
  rw [Quat.inverse_of_unit _ hr]
  apply Mat3.ext <;> apply Vec3.ext <;> simp only [Quat.toMat, Mat3.transpose, ScalarFn.lit_real] <;> push_cast <;> ring

theorem toMat_turn_inverse (r q : Quat ℝ) (hr : r.sqNorm = 1) (hq : q.sqNorm = 1) : (r.mul q).inverse.toMat = q.inverse.toMat.mul r.toMat.transpose := by
  rw [turn_inverse r q hr hq, toMat_mul _ _ (Quat.sqNorm_inverse_of_unit _ hq) (Quat.sqNorm_inverse_of_unit _ hr), toMat_inverse r hr]

theorem mul23_assoc (a : Mat23 ℝ) (m n : Mat3 ℝ) : (a.mulMat m).mulMat n = a.mulMat (m.mul n) := by
  apply Mat23.ext <;> apply Vec3.ext <;> simp only [Mat23.mulMat, Mat3.mul, Mat3.transpose, Mat3.mulVec, Vec3.dot] <;> ring

theorem mat3_assoc (a b c : Mat3 ℝ) : (a.mul b).mul c = a.mul (b.mul c) := by
  apply Mat3.ext <;> apply Vec3.ext <;> simp only [Mat3.mul, Mat3.transpose, Mat3.mulVec, Vec3.dot] <;> ring

/-! ### One observation -/

theorem bodyPoint_turned (r : Quat ℝ) (hr : r.sqNorm = 1) {f f' : Frame ℝ T} (h : FrameTurned r f f') (pw : Vec3 ℝ) : bodyPoint f' (r.rotate pw) = bodyPoint f pw := by
  unfold bodyPoint
  rw [h.p, h.q, ← Quat.rotate_sub, Quat.toMat_mulVec, Quat.toMat_mulVec, inverse_turn_rotate r _ hr h.unit]

theorem camPoint_turned (r : Quat ℝ) (hr : r.sqNorm = 1) {f f' : Frame ℝ T} (h : FrameTurned r f f') (e : Extrinsic ℝ) (pw : Vec3 ℝ) : camPoint f' e (r.rotate pw) = camPoint f e pw := by
  unfold camPoint
  rw [bodyPoint_turned r hr h]

theorem jacPw_turned (r : Quat ℝ) (hr : r.sqNorm = 1) {f f' : Frame ℝ T} (h : FrameTurned r f f') (e : Extrinsic ℝ) (pw : Vec3 ℝ) :
    jacPw f' e (r.rotate pw) = (jacPw f e pw).mulMat r.toMat.transpose := by
  unfold jacPw
  rw [camPoint_turned r hr h, h.q, toMat_turn_inverse r _ hr h.unit, mul23_assoc _ f.q.inverse.toMat]

theorem jacPwb_turned (r : Quat ℝ) (hr : r.sqNorm = 1) {f f' : Frame ℝ T} (h : FrameTurned r f f') (e : Extrinsic ℝ) (pw : Vec3 ℝ) :
    jacPwb f' e (r.rotate pw) = (jacPwb f e pw).mulMat r.toMat.transpose := by
  unfold jacPwb
  rw [camPoint_turned r hr h, h.q, toMat_turn_inverse r _ hr h.unit, mul23_assoc, mat3_assoc]

theorem jacRwb_turned (r : Quat ℝ) (hr : r.sqNorm = 1) {f f' : Frame ℝ T} (h : FrameTurned r f f') (e : Extrinsic ℝ) (pw : Vec3 ℝ) : jacRwb f' e (r.rotate pw) = jacRwb f e pw := by
  unfold jacRwb
  rw [camPoint_turned r hr h, bodyPoint_turned r hr h]

theorem jacPbc_turned (r : Quat ℝ) (hr : r.sqNorm = 1) {f f' : Frame ℝ T} (h : FrameTurned r f f') (e : Extrinsic ℝ) (pw : Vec3 ℝ) : jacPbc f' e (r.rotate pw) = jacPbc f e pw := by
  unfold jacPbc
  rw [camPoint_turned r hr h]

theorem jacRbc_turned (r : Quat ℝ) (hr : r.sqNorm = 1) {f f' : Frame ℝ T} (h : FrameTurned r f f') (e : Extrinsic ℝ) (pw : Vec3 ℝ) : jacRbc f' e (r.rotate pw) = jacRbc f e pw := by
  unfold jacRbc
  rw [camPoint_turned r hr h]

theorem residual_turned (r : Quat ℝ) (hr : r.sqNorm = 1) {f f' : Frame ℝ T} (h : FrameTurned r f f') (e : Extrinsic ℝ) (pw : Vec3 ℝ) (n : Vec2 ℝ) :
    Update.residual f' e (r.rotate pw) n = Update.residual f e pw n := by
  unfold Update.residual
  rw [camPoint_turned r hr h]

/-! ### Writing into the equation -/

theorem SystemTurned.zero (R : Mat3 ℝ) (sel : Nat → Bool) (m n : Nat) (hn : n % 3 = 1) : SystemTurned R sel (.zero m n) (.zero m n) := by
  refine ⟨rfl, rfl, hn, fun i j _ _ => ?_, fun _ _ => rfl⟩
  show (0 : ℝ) = turnTriples R sel (fun _ => 0) j
  unfold turnTriples
  split <;> simp

/-- Writing the right hand side. -/
theorem SystemTurned.setRhs {R : Mat3 ℝ} {sel : Nat → Bool} {a a' : DMat ℝ} (h : SystemTurned R sel a a') (row : Nat) (b : DMat ℝ) :
    Both (SystemTurned R sel) (a.setBlock row (a.cols - 1) 2 1 b) (a'.setBlock row (a'.cols - 1) 2 1 b) := by
  have hw := h.width
  unfold DMat.setBlock
  rw [h.rows, h.cols]
  split
  · rfl
  · split
    · rfl
    · refine ⟨rfl, rfl, h.width, fun i j hi hj => ?_, fun i hi => ?_⟩
      · have hj' : j + 1 < a.cols := hj
        dsimp only
        rw [if_neg (by omega), h.coef i j hi hj']
        refine tt_congr R sel (n := a.cols - 1) (by omega) (by omega) (fun k hk => ?_)
        rw [if_neg (by omega)]
      · dsimp only
        rw [h.rhs i hi]

/-- Writing a block of derivatives. -/
theorem SystemTurned.setCoef {R : Mat3 ℝ} {sel : Nat → Bool} {a a' : DMat ℝ} (h : SystemTurned R sel a a') (row k : Nat) (b b' : Mat23 ℝ)
    (hb : b' = if sel k then b.mulMat R.transpose else b) : Both (SystemTurned R sel) (setB23 a row (3 * k) b) (setB23 a' row (3 * k) b') := by
  have hw := h.width
  unfold setB23 DMat.setBlock
  rw [h.rows, h.cols]
  split
  · rfl
  · rename_i hin
    rw [not_not] at hin
    rw [if_neg (by simp [ofMat23]), if_neg (by simp [ofMat23])]
    refine ⟨rfl, rfl, h.width, fun i j hi hj => ?_, fun i hi => ?_⟩
    · have hj' : j + 1 < a.cols := hj
      dsimp only
      by_cases hin2 : (row ≤ i ∧ i < row + 2) ∧ j / 3 = k
      · have hj3 : 3 * k ≤ j ∧ j < 3 * k + 3 := by omega
        rw [if_pos ⟨hin2.1.1, hin2.1.2, hj3.1, hj3.2⟩]
        have em : j % 3 = j - 3 * k := by omega
        have hp : ∀ y, 3 * k ≤ y → y < 3 * k + 3 → (row ≤ i ∧ i < row + 2 ∧ 3 * k ≤ y ∧ y < 3 * k + 3) := fun y h1 h2 => ⟨hin2.1.1, hin2.1.2, h1, h2⟩
        simp only [turnTriples, hin2.2, em]
        rw [if_pos (hp (3 * k) (by omega) (by omega)), if_pos (hp (3 * k + 1) (by omega) (by omega)), if_pos (hp (3 * k + 2) (by omega) (by omega)), if_pos (hp j hj3.1 hj3.2), hb]
        have hlt : j - 3 * k < 3 := by omega
        split
        · have d0 : 3 * k - 3 * k = 0 := by omega
          have d1 : 3 * k + 1 - 3 * k = 1 := by omega
          have d2 : 3 * k + 2 - 3 * k = 2 := by omega
          rw [d0, d1, d2]
          generalize j - 3 * k = y at hlt
          have hx : i - row = 0 ∨ i - row = 1 := by omega
          rcases hx with hx | hx <;> rw [hx] <;> interval_cases y <;>
            simp [ofMat23, Mat23.mulMat, Mat3.transpose, Mat3.mulVec, Vec3.dot, Vec3.get, Mat3.get, Mat3.row]
        · rfl
      · have hn : ∀ y, y / 3 = j / 3 → ¬ (row ≤ i ∧ i < row + 2 ∧ 3 * k ≤ y ∧ y < 3 * k + 3) := fun y h1 h2 => hin2 ⟨⟨h2.1, h2.2.1⟩, by omega⟩
        rw [if_neg (hn j rfl), h.coef i j hi hj']
        simp only [turnTriples]
        rw [if_neg (hn (3 * (j / 3)) (by omega)), if_neg (hn (3 * (j / 3) + 1) (by omega)), if_neg (hn (3 * (j / 3) + 2) (by omega)), if_neg (hn j rfl)]
    · dsimp only
      have e : ¬ (row ≤ i ∧ i < row + 2 ∧ 3 * k ≤ a.cols - 1 ∧ a.cols - 1 < 3 * k + 3) := by omega
      rw [if_neg e, if_neg e, h.rhs i hi]

/-- Writing whole rows. -/
theorem SystemTurned.setRows {R : Mat3 ℝ} {sel : Nat → Bool} {a a' b b' : DMat ℝ} (h : SystemTurned R sel a a') (hb : SystemTurned R sel b b') (row m n : Nat) (hn : n = a.cols) :
    Both (SystemTurned R sel) (a.setBlock row 0 m n b) (a'.setBlock row 0 m n b') := by
  unfold DMat.setBlock
  rw [h.rows, h.cols, hb.rows, hb.cols]
  split
  · rfl
  · split
    · rfl
    · rename_i h1 h2
      rw [not_not] at h1 h2
      refine ⟨rfl, rfl, h.width, fun i j hi hj => ?_, fun i hi => ?_⟩
      · have hj' : j + 1 < a.cols := hj
        have hw := h.width
        dsimp only
        by_cases hi2 : row ≤ i ∧ i < row + m
        · rw [if_pos (by omega), Nat.sub_zero, hb.coef _ _ (by omega) (by omega)]
          refine tt_congr R sel (n := a.cols - 1) (by omega) (by omega) (fun k hk => ?_)
          rw [if_pos (by omega), Nat.sub_zero]
        · rw [if_neg (by omega), h.coef _ _ hi hj']
          refine tt_congr R sel (n := a.cols - 1) (by omega) (by omega) (fun k hk => ?_)
          rw [if_neg (by omega)]
      · have hw := h.width
        dsimp only
        by_cases hi2 : row ≤ i ∧ i < row + m
        · rw [if_pos (by omega), if_pos (by omega), Nat.sub_zero]
          have e : a.cols - 1 = b.cols - 1 := by omega
          rw [e]
          exact hb.rhs _ (by omega)
        · rw [if_neg (by omega), if_neg (by omega), h.rhs i hi]

/-- Multiplying from the left by the same matrix. -/
theorem SystemTurned.applyQt {R : Mat3 ℝ} {sel : Nat → Bool} {a a' : DMat ℝ} (h : SystemTurned R sel a a') {ext ext' : Ext ℝ} {A A' : DMat ℝ}
    (hq : ∀ i j, i < a.rows → j < a.rows → ext'.qrQ A' i j = ext.qrQ A i j) : SystemTurned R sel (applyQt ext A a) (applyQt ext' A' a') := by
  refine ⟨h.rows, h.cols, h.width, fun i j hi hj => ?_, fun i hi => ?_⟩
  · show sumTo a'.rows (fun k => ext'.qrQ A' k i * a'.e k j) = turnTriples R sel (fun l => sumTo a.rows (fun k => ext.qrQ A k i * a.e k l)) j
    have hi' : i < a.rows := hi
    have hj' : j + 1 < a.cols := hj
    rw [h.rows]
    simp only [sumTo_eq]
    rw [tt_sum]
    refine Finset.sum_congr rfl (fun k _ => ?_)
    rw [hq k i k.2 hi', h.coef k j k.2 hj']
  · show sumTo a'.rows (fun k => ext'.qrQ A' k i * a'.e k (a.cols - 1)) = sumTo a.rows (fun k => ext.qrQ A k i * a.e k (a.cols - 1))
    have hi' : i < a.rows := hi
    rw [h.rows]
    exact sumTo_congr (fun k hk => by rw [hq k i hk hi', h.rhs k hk])

/-! ### One feature -/

/-- The triples of columns of the equation of one landmark that are turned: the landmark, then the state. -/
def measWorld (nc : Nat) : Nat → Bool
  | 0 => true
  | b + 1 => inWorld nc b

theorem measNorm_turned (r : Quat ℝ) (hr : r.sqNorm = 1) {m m' : FrameMgr ℝ T} (hm : m'.extrinsics = m.extrinsics) {f f' : Frame ℝ T} (h : FrameTurned r f f')
    (frameID frontId backId : Nat) (pw : Vec3 ℝ) (row : Nat) {a a' : DMat ℝ} (ha : SystemTurned r.toMat (measWorld m.extrinsics.length) a a') (c : Nat) (n : Vec2 ℝ) :
    Both (SystemTurned r.toMat (measWorld m.extrinsics.length)) (measNorm m f frameID frontId backId pw row a c n) (measNorm m' f' frameID frontId backId (r.rotate pw) row a' c n) := by
  unfold measNorm
  rw [hm]
  refine (Both.refl (R := Eq) (fun _ => rfl) _).bind (fun e _ he _ e2 => ?_); subst e2
  have hc : c < m.extrinsics.length := by
    unfold idx at he
    split at he
    · rename_i x hx; exact (List.getElem?_eq_some_iff.1 hx).1
    · cases he
  rw [camPoint_turned r hr h]
  split
  · rw [residual_turned r hr h, jacPw_turned r hr h, jacPwb_turned r hr h, jacRwb_turned r hr h, jacPbc_turned r hr h, jacRbc_turned r hr h]
    refine (ha.setRhs row _).bind (fun a1 a1' _ _ h1 => ?_)
    refine (h1.setCoef row 0 _ _ (by rfl)).bind (fun a2 a2' _ _ h2 => ?_)
    have hpc : ∃ k l, (poseCols m.extrinsics.length frameID frontId backId) = (3 * k, 3 * l) ∧ measWorld m.extrinsics.length k = true ∧ measWorld m.extrinsics.length l = false := by
      unfold poseCols
      split
      · exact ⟨1, 3, rfl, by simp [measWorld, inWorld], by simp [measWorld, inWorld]; omega⟩
      · refine ⟨(5 + 2 * m.extrinsics.length + 2 * sub32 frameID frontId) + 1, (6 + 2 * m.extrinsics.length + 2 * sub32 frameID frontId) + 1, ?_, ?_, ?_⟩
        · simp only [imuStateSize]
          congr 1 <;> omega
        · simp only [measWorld, inWorld, Bool.or_eq_true, Bool.and_eq_true, decide_eq_true_eq, beq_iff_eq]
          right; omega
        · simp only [measWorld, inWorld, Bool.or_eq_false_iff, Bool.and_eq_false_iff, decide_eq_false_iff_not, beq_eq_false_iff_ne]
          constructor
          · omega
          · right; omega
    obtain ⟨k, l, e1, e2, e3⟩ := hpc
    dsimp only
    rw [e1]
    dsimp only
    refine (h2.setCoef row k _ _ (by rw [e2]; rfl)).bind (fun a3 a3' _ _ h3 => ?_)
    refine (h3.setCoef row l _ _ (by rw [e3]; rfl)).bind (fun a4 a4' _ _ h4 => ?_)
    have c1 : 3 + imuStateSize + c * 6 = 3 * ((5 + 2 * c) + 1) := by simp only [imuStateSize]; omega
    have c2 : 3 + imuStateSize + c * 6 + 3 = 3 * ((6 + 2 * c) + 1) := by simp only [imuStateSize]; omega
    have s1 : measWorld m.extrinsics.length ((5 + 2 * c) + 1) = false := by
      simp only [measWorld, inWorld, Bool.or_eq_false_iff, Bool.and_eq_false_iff, decide_eq_false_iff_not, beq_eq_false_iff_ne]
      constructor
      · omega
      · left; omega
    have s2 : measWorld m.extrinsics.length ((6 + 2 * c) + 1) = false := by
      simp only [measWorld, inWorld, Bool.or_eq_false_iff, Bool.and_eq_false_iff, decide_eq_false_iff_not, beq_eq_false_iff_ne]
      constructor
      · omega
      · right; omega
    rw [c2, c1]
    refine (h4.setCoef row _ _ _ (by rw [s1]; rfl)).bind (fun a5 a5' _ _ h5 => ?_)
    exact h5.setCoef row _ _ _ (by rw [s2]; rfl)
  · exact ha

theorem measNorms_turned (r : Quat ℝ) (hr : r.sqNorm = 1) {m m' : FrameMgr ℝ T} (hm : m'.extrinsics = m.extrinsics) {f f' : Frame ℝ T} (h : FrameTurned r f f')
    (frameID frontId backId : Nat) (pw : Vec3 ℝ) (l : List (Nat × Vec2 ℝ)) : ∀ (row : Nat) (a a' : DMat ℝ), SystemTurned r.toMat (measWorld m.extrinsics.length) a a' →
    Both (fun x y => SystemTurned r.toMat (measWorld m.extrinsics.length) x.1 y.1 ∧ y.2 = x.2) (measNorms m f frameID frontId backId pw row a l)
      (measNorms m' f' frameID frontId backId (r.rotate pw) row a' l) := by
  induction l with
  | nil => intro row a a' ha; exact ⟨ha, rfl⟩
  | cons x l ih =>
    intro row a a' ha
    obtain ⟨c, n⟩ := x
    rw [measNorms, measNorms]
    exact (measNorm_turned r hr hm h frameID frontId backId pw row ha c n).bind (fun a1 a1' _ _ h1 => ih _ _ _ h1)

theorem forall₂_find {α β : Type} {R : α → β → Prop} (p : α → Bool) (q : β → Bool) (hpq : ∀ a b, R a b → p a = q b) {l : List α} {l' : List β} (h : List.Forall₂ R l l') :
    Option.Rel R (l.find? p) (l'.find? q) := by
  induction h with
  | nil => exact .none
  | cons hab _ ih =>
    rw [List.find?_cons, List.find?_cons, ← hpq _ _ hab]
    split
    · exact .some hab
    · exact ih

theorem forall₂_head {α β : Type} {R : α → β → Prop} {l : List α} {l' : List β} (h : List.Forall₂ R l l') : Option.Rel R l.head? l'.head? := by
  cases h with
  | nil => exact .none
  | cons h _ => exact .some h

theorem forall₂_getLast? {α β : Type} {R : α → β → Prop} {l : List α} {l' : List β} (h : List.Forall₂ R l l') : Option.Rel R l.getLast? l'.getLast? := by
  rcases forall₂_getLast h with ⟨h1, h2⟩ | ⟨a, b, h1, h2, h3⟩
  · rw [h1, h2]; exact .none
  · rw [h1, h2]; exact .some h3

theorem getFrame_turned {r : Quat ℝ} {m m' : FrameMgr ℝ T} (h : List.Forall₂ (FrameTurned r) m.frames m'.frames) (id : Nat) : Option.Rel (FrameTurned r) (m.getFrame id) (m'.getFrame id) := by
  unfold FrameMgr.getFrame
  have h1 := forall₂_head h
  have h2 := forall₂_getLast? h
  cases ha : m.frames.head? with
  | none =>
    rw [ha] at h1
    cases hb : m'.frames.head? with
    | none => exact .none
    | some _ => rw [hb] at h1; cases h1
  | some a =>
    rw [ha] at h1
    cases ha' : m'.frames.head? with
    | none => rw [ha'] at h1; cases h1
    | some a' =>
      rw [ha'] at h1
      cases h1 with
      | some h1 =>
        cases hb : m.frames.getLast? with
        | none =>
          rw [hb] at h2
          cases hb' : m'.frames.getLast? with
          | none => exact .none
          | some _ => rw [hb'] at h2; cases h2
        | some b =>
          rw [hb] at h2
          cases hb' : m'.frames.getLast? with
          | none => rw [hb'] at h2; cases h2
          | some b' =>
            rw [hb'] at h2
            cases h2 with
            | some h2 =>
              dsimp only
              rw [h1.id, h2.id]
              split
              · exact .none
              · exact forall₂_find _ _ (fun x y hxy => by rw [hxy.id]) h

theorem front_rel {α β : Type} {R : α → β → Prop} {l : List α} {l' : List β} (h : List.Forall₂ R l l') : Both R (front l) (front l') := by
  cases h with
  | nil => rfl
  | cons h _ => exact h

theorem back_rel {α β : Type} {R : α → β → Prop} {l : List α} {l' : List β} (h : List.Forall₂ R l l') : Both R (back l) (back l') := by
  unfold back
  rcases forall₂_getLast h with ⟨h1, h2⟩ | ⟨a, b, h1, h2, h3⟩
  · rw [h1, h2]; rfl
  · rw [h1, h2]; exact h3

theorem measLoop_turned (r : Quat ℝ) (hr : r.sqNorm = 1) {m m' : FrameMgr ℝ T} (hm : FramesTurned r m m') (ft : Feature ℝ) (os : List (Obs ℝ)) : ∀ (i row : Nat) (a a' : DMat ℝ),
    SystemTurned r.toMat (measWorld m.extrinsics.length) a a' →
    Both (Option.Rel (SystemTurned r.toMat (measWorld m.extrinsics.length))) (measLoop m ft i row a os) (measLoop m' { ft with pw := r.rotate ft.pw } i row a' os) := by
  induction os with
  | nil => intro i row a a' ha; exact .some ha
  | cons o os ih =>
    intro i row a a' ha
    rw [measLoop, measLoop]
    have hg := getFrame_turned hm.frames (add32 i ft.first)
    dsimp only
    cases h1 : m.getFrame (add32 i ft.first) with
    | none =>
      rw [h1] at hg
      cases h2 : m'.getFrame (add32 i ft.first) with
      | none => exact .none
      | some _ => rw [h2] at hg; cases hg
    | some f =>
      rw [h1] at hg
      cases h2 : m'.getFrame (add32 i ft.first) with
      | none => rw [h2] at hg; cases hg
      | some f' =>
        rw [h2] at hg
        cases hg with
        | some hf =>
          dsimp only
          refine (front_rel hm.frames).bind (fun a0 a0' _ _ k0 => ?_)
          refine (back_rel hm.frames).bind (fun b0 b0' _ _ k1 => ?_)
          rw [k0.id, k1.id]
          refine (measNorms_turned r hr hm.extrinsics hf _ _ _ ft.pw o.norms row a a' ha).bind (fun x y _ _ k2 => ?_)
          obtain ⟨x1, x2⟩ := x
          obtain ⟨y1, y2⟩ := y
          obtain ⟨k2, k3⟩ := k2
          dsimp only at k2 k3 ⊢
          subst k3
          exact ih _ _ _ _ k2

theorem project_turned (r : Quat ℝ) (nc : Nat) {ext ext' : Ext ℝ} (he : ExtTurned r nc ext ext') {a a' : DMat ℝ} (ha : SystemTurned r.toMat (measWorld nc) a a') (hc : 4 ≤ a.cols) :
    Both (SystemTurned r.toMat (inWorld nc)) (project ext a) (project ext' a') := by
  unfold project
  rw [ha.rows]
  have hw := ha.width
  obtain ⟨hf, e1, e2, e3, e4⟩ := DMat.block_spec (a := a) (i := 0) (j := 0) (r := a.rows) (c := 3) (by omega) (by omega)
  obtain ⟨hf', e1', e2', e3', e4'⟩ := DMat.block_spec (a := a') (i := 0) (j := 0) (r := a.rows) (c := 3) (by rw [ha.rows]; omega) (by rw [ha.cols]; omega)
  rw [e1, e1']
  simp only [Res.bind_ok]
  have hct : ColsTurned r.toMat (turnedCols nc hf.cols) hf hf' := by
    refine ⟨by rw [e2, e2'], by rw [e3, e3'], by rw [e3], fun i j hi hj => ?_⟩
    rw [e2] at hi
    rw [e3] at hj
    rw [e4', Nat.zero_add, Nat.zero_add, ha.coef i j hi (by omega)]
    have e : ∀ k, hf.e i k = a.e i k := fun k => by rw [e4, Nat.zero_add, Nat.zero_add]
    have h0 : j / 3 = 0 := by omega
    unfold turnTriples
    simp only [e, h0, measWorld, turnedCols, e3, if_true]
  have hq := ha.applyQt (ext := ext) (ext' := ext') (A := hf) (A' := hf') (fun i j hi hj => he.qr hf hf' hct i j (by rw [e2]; exact hi) (by rw [e2]; exact hj))
  have r1 : (applyQt ext' hf' a').rows = (applyQt ext hf a).rows := hq.rows
  have r2 : (applyQt ext hf a).cols = a.cols := rfl
  generalize applyQt ext hf a = b at hq r1 r2
  generalize applyQt ext' hf' a' = b' at hq r1
  rw [r1]
  split
  · rfl
  · rename_i h3
    rw [hq.cols]
    obtain ⟨c, k1, k2, k3, k4⟩ := DMat.block_spec (a := b) (i := 3) (j := 3) (r := b.rows - 3) (c := b.cols - 3) (by omega) (by omega)
    obtain ⟨c', k1', k2', k3', k4'⟩ := DMat.block_spec (a := b') (i := 3) (j := 3) (r := b.rows - 3) (c := b.cols - 3) (by omega) (by rw [hq.cols]; omega)
    rw [k1, k1']
    refine ⟨by rw [k2, k2'], by rw [k3, k3'], by rw [k3, r2]; omega, fun i j hi hj => ?_, fun i hi => ?_⟩
    · rw [k2] at hi
      rw [k3] at hj
      rw [k4', hq.coef (3 + i) (3 + j) (by omega) (by omega)]
      have e : c.e i = fun k => b.e (3 + i) (3 + k) := by funext k; rw [k4]
      rw [e]
      symm
      refine tt_reindex _ _ _ (fun k => 3 + k) (b.e (3 + i)) j ?_ (by omega) (fun k hk => by omega)
      have : (3 + j) / 3 = j / 3 + 1 := by omega
      rw [this]
      rfl
    · rw [k2] at hi
      rw [k3, k4', k4]
      have : 3 + (b.cols - 3 - 1) = b.cols - 1 := by omega
      rw [this]
      exact hq.rhs _ (by omega)

theorem setBlock_cols {a b c : DMat ℝ} {i j m n : Nat} (h : a.setBlock i j m n b = .ok c) : c.cols = a.cols := by
  unfold DMat.setBlock at h
  split at h
  · cases h
  · split at h
    · cases h
    · cases h; rfl

theorem measNorm_cols {m : FrameMgr ℝ T} {f : Frame ℝ T} {x y z : Nat} {pw : Vec3 ℝ} {row : Nat} {a b : DMat ℝ} {c : Nat} {n : Vec2 ℝ} (h : measNorm m f x y z pw row a c n = .ok b) : b.cols = a.cols := by
  unfold measNorm at h
  obtain ⟨e, _, h⟩ := Res.bind_eq_ok.1 h
  split at h
  · obtain ⟨a1, h1, h⟩ := Res.bind_eq_ok.1 h
    obtain ⟨a2, h2, h⟩ := Res.bind_eq_ok.1 h
    obtain ⟨a3, h3, h⟩ := Res.bind_eq_ok.1 h
    obtain ⟨a4, h4, h⟩ := Res.bind_eq_ok.1 h
    obtain ⟨a5, h5, h⟩ := Res.bind_eq_ok.1 h
    rw [setBlock_cols h, setBlock_cols h5, setBlock_cols h4, setBlock_cols h3, setBlock_cols h2, setBlock_cols h1]
  · cases h; rfl

theorem measNorms_cols {m : FrameMgr ℝ T} {f : Frame ℝ T} {x y z : Nat} {pw : Vec3 ℝ} (l : List (Nat × Vec2 ℝ)) : ∀ {row : Nat} {a : DMat ℝ} {b : DMat ℝ × Nat},
    measNorms m f x y z pw row a l = .ok b → b.1.cols = a.cols := by
  induction l with
  | nil => intro row a b h; cases h; rfl
  | cons o l ih =>
    intro row a b h
    obtain ⟨c, n⟩ := o
    rw [measNorms] at h
    obtain ⟨a1, h1, h⟩ := Res.bind_eq_ok.1 h
    rw [ih h, measNorm_cols h1]

theorem measLoop_cols {m : FrameMgr ℝ T} {ft : Feature ℝ} (os : List (Obs ℝ)) : ∀ {i row : Nat} {a b : DMat ℝ}, measLoop m ft i row a os = .ok (some b) → b.cols = a.cols := by
  induction os with
  | nil => intro i row a b h; cases h; rfl
  | cons o os ih =>
    intro i row a b h
    rw [measLoop] at h
    dsimp only at h
    split at h
    · cases h
    · obtain ⟨_, _, h⟩ := Res.bind_eq_ok.1 h
      obtain ⟨_, _, h⟩ := Res.bind_eq_ok.1 h
      obtain ⟨⟨a1, r1⟩, h1, h⟩ := Res.bind_eq_ok.1 h
      rw [ih h]
      exact measNorms_cols _ h1

theorem measFeature_turned (r : Quat ℝ) (hr : r.sqNorm = 1) {m m' : FrameMgr ℝ T} (hm : FramesTurned r m m') {ext ext' : Ext ℝ} (he : ExtTurned r m.extrinsics.length ext ext') (ft : Feature ℝ) :
    Both (Option.Rel (fun x y => SystemTurned r.toMat (inWorld m.extrinsics.length) x y)) (measFeature ext m ft) (measFeature ext' m' { ft with pw := r.rotate ft.pw }) := by
  unfold measFeature
  have hcols : hxCols m' = hxCols m := by unfold hxCols; rw [hm.extrinsics, hm.frames.length_eq]
  rw [hcols]
  refine (measLoop_turned r hr hm ft ft.observes 0 0 _ _ (SystemTurned.zero _ _ _ _ (by unfold hxCols; simp only [imuStateSize]; omega))).bind (fun x y hx _ h => ?_)
  cases h with
  | none => exact Option.Rel.none
  | some h =>
    have := measLoop_cols _ hx
    have hcc : (DMat.zero (mul32 ft.observeNum 2) (hxCols m + 4) : DMat ℝ).cols = hxCols m + 4 := rfl
    refine (project_turned r _ he h (by rw [this, hcc]; omega)).bind (fun b b' _ _ hb => ?_)
    exact Option.Rel.some hb

end Vio

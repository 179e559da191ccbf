/-
C123: what the correction by gravity does to the attitude of a device at rest.
-/
import Verif.Props.Startup

set_option linter.unusedSectionVars false

namespace Vio
open AttSpec

namespace Rest

/-- The cosine of the angle between measured and estimated gravity, times their lengths: `a` is the measured specific force, `g` is gravity. -/
def agree (a g : Vec3 ℝ) (q : Quat ℝ) : ℝ := (q.rotate a).dot g

/-- The axis of the error: the measured specific force times the estimated gravity in the body frame. -/
noncomputable def axis (a g : Vec3 ℝ) (q : Quat ℝ) : Vec3 ℝ := a.cross (q.inverse.rotate g)

theorem agree_eq (a g : Vec3 ℝ) (q : Quat ℝ) (hq : q.sqNorm = 1) : agree a g q = a.dot (q.inverse.rotate g) := by
  rw [Quat.inverse_of_unit q hq]
  simp only [agree, Vec3.dot, Quat.rotate, Quat.vec, Vec3.cross, Vec3.add_x, Vec3.add_y, Vec3.add_z, Vec3.smul_x, Vec3.smul_y, Vec3.smul_z]
  ring

theorem sqNorm_turn (g : Vec3 ℝ) (q : Quat ℝ) (hq : q.sqNorm = 1) : (q.rotate g).sqNorm = g.sqNorm := by
  simp only [Quat.sqNorm] at hq
  simp only [Vec3.sqNorm, Quat.rotate, Quat.vec, Vec3.cross, Vec3.add_x, Vec3.add_y, Vec3.add_z, Vec3.smul_x, Vec3.smul_y, Vec3.smul_z]
  linear_combination (4 * ((q.y * g.z - q.z * g.y) ^ 2 + (q.z * g.x - q.x * g.z) ^ 2 + (q.x * g.y - q.y * g.x) ^ 2)) * hq

theorem lagrange (a g : Vec3 ℝ) (q : Quat ℝ) (hq : q.sqNorm = 1) : (axis a g q).sqNorm + agree a g q ^ 2 = a.sqNorm * g.sqNorm := by
  rw [agree_eq a g q hq, axis, Vec3.sqNorm_cross, sqNorm_turn g _ (Quat.sqNorm_inverse_of_unit q hq)]

/-- A step that turns by the vector `-u`, to first order, with the quaternion normalised afterwards. -/
theorem inverse_turn (q : Quat ℝ) (hq : q.sqNorm = 1) (u g : Vec3 ℝ) :
    (q.mul ⟨1, -u.x, -u.y, -u.z⟩).normalized.inverse.rotate g =
      q.inverse.rotate g + Vec3.smul (2 / (1 + u.sqNorm)) (u.cross (q.inverse.rotate g) + u.cross (u.cross (q.inverse.rotate g))) := by
  have hd : (⟨1, -u.x, -u.y, -u.z⟩ : Quat ℝ).sqNorm = 1 + u.sqNorm := by simp only [Quat.sqNorm, Vec3.sqNorm]; ring
  have hs : 0 < 1 + u.sqNorm := by have := u.sqNorm_nonneg; linarith
  have hn : (q.mul ⟨1, -u.x, -u.y, -u.z⟩).sqNorm = 1 + u.sqNorm := by rw [Quat.sqNorm_mul, hq, hd, one_mul]
  have hsq := Real.sq_sqrt hs.le
  have hr := Real.sqrt_pos.2 hs
  have hne := hr.ne'
  obtain ⟨d, hdd⟩ : ∃ d : Quat ℝ, d = ⟨1 / √(1 + u.sqNorm), u.x / √(1 + u.sqNorm), u.y / √(1 + u.sqNorm), u.z / √(1 + u.sqNorm)⟩ := ⟨_, rfl⟩
  have hd1 : d.sqNorm = 1 := by
    have h2 : √(1 + u.sqNorm) ^ 2 = 1 + (u.x * u.x + u.y * u.y + u.z * u.z) := hsq
    rw [hdd]
    simp only [Quat.sqNorm]
    field_simp
    rw [h2]; ring
  have hinv : (q.mul ⟨1, -u.x, -u.y, -u.z⟩).normalized.inverse = d.mul q.inverse := by
    rw [Quat.inverse_of_unit _ (Quat.sqNorm_normalized _ (by rw [hn]; exact hs)), Quat.normalized_of_pos _ (by rw [hn]; exact hs), hn, Quat.inverse_of_unit q hq, hdd]
    apply Quat.ext <;> simp only [Quat.mul] <;> field_simp <;> ring
  rw [hinv, Quat.rotate_mul _ _ hd1 (Quat.sqNorm_inverse_of_unit q hq), hdd]
  generalize q.inverse.rotate g = t
  have e : 2 / (1 + u.sqNorm) = 2 / √(1 + u.sqNorm) ^ 2 := by rw [hsq]
  rw [e]
  generalize √(1 + u.sqNorm) = r at *
  apply Vec3.ext <;> simp only [Quat.rotate, Quat.vec, Vec3.cross, Vec3.add_x, Vec3.add_y, Vec3.add_z, Vec3.smul_x, Vec3.smul_y, Vec3.smul_z] <;> field_simp <;> ring

/-- The same for a turn about the axis of the error. -/
theorem turn_axis (a g : Vec3 ℝ) (q : Quat ℝ) (hq : q.sqNorm = 1) (y : ℝ) :
    let m := axis a g q
    let q' := (q.mul ⟨1, -(y * m.x), -(y * m.y), -(y * m.z)⟩).normalized
    (1 + y ^ 2 * m.sqNorm) * agree a g q' = (1 - y ^ 2 * m.sqNorm) * agree a g q - 2 * y * m.sqNorm ∧
      axis a g q' = Vec3.smul (((1 - y ^ 2 * m.sqNorm) + 2 * y * agree a g q) / (1 + y ^ 2 * m.sqNorm)) m ∧ q'.sqNorm = 1 := by
  intro m q'
  have hm : (Vec3.smul y m).sqNorm = y ^ 2 * m.sqNorm := by simp only [Vec3.sqNorm, Vec3.smul_x, Vec3.smul_y, Vec3.smul_z]; ring
  have hpos : 0 < 1 + y ^ 2 * m.sqNorm := by have := mul_nonneg (sq_nonneg y) m.sqNorm_nonneg; linarith
  have hu : q'.sqNorm = 1 := by
    refine Quat.sqNorm_normalized _ ?_
    rw [Quat.sqNorm_mul, hq, one_mul]
    have e : (⟨1, -(y * m.x), -(y * m.y), -(y * m.z)⟩ : Quat ℝ).sqNorm = 1 + y ^ 2 * m.sqNorm := by simp only [Quat.sqNorm, Vec3.sqNorm]; ring
    rw [e]; exact hpos
  have ht := inverse_turn q hq (Vec3.smul y m) g
  rw [hm] at ht
  have ht : q'.inverse.rotate g = _ := ht
  rw [agree_eq a g q' hu, agree_eq a g q hq, axis, ht]
  have hmd : m = a.cross (q.inverse.rotate g) := rfl
  rw [hmd] at hpos ⊢
  generalize q.inverse.rotate g = t at *
  have hne := hpos.ne'
  simp only [Vec3.sqNorm, Vec3.cross] at hne
  refine ⟨?_, ?_, hu⟩
  · simp only [Vec3.dot, Vec3.sqNorm, Vec3.cross, Vec3.add_x, Vec3.add_y, Vec3.add_z, Vec3.smul_x, Vec3.smul_y, Vec3.smul_z]
    field_simp
    ring
  · apply Vec3.ext <;> simp only [Vec3.dot, Vec3.sqNorm, Vec3.cross, Vec3.add_x, Vec3.add_y, Vec3.add_z, Vec3.smul_x, Vec3.smul_y, Vec3.smul_z] <;> field_simp <;> ring

variable {T : Type} [TimeOps T] [TimeCast T ℝ]

/-- One step of the filter without rotation, when the integral of the error points along the axis of the error. -/
theorem step_eq (s : Att ℝ T) (a g : Vec3 ℝ) (i : AttItem ℝ T) (t : T) (c : ℝ) (hw : i.gyro = 0) (hc : s.errInt = Vec3.smul c (axis a g i.q)) :
    let m := axis a g i.q
    let y := ((s.kp + s.ki) / (a.norm * g.norm) + c) * TimeCast.toK (TimeOps.sub t i.ts) / 2
    s.stepQuat g i a 0 t = ((i.q.mul ⟨1, -(y * m.x), -(y * m.y), -(y * m.z)⟩).normalized, Vec3.smul (c + s.ki / (a.norm * g.norm)) m) := by
  intro m y
  have herr : Att.gravErr g i.q a = Vec3.smul (1 / (a.norm * g.norm)) m := by
    show _ = Vec3.smul _ (a.cross (i.q.inverse.rotate g))
    unfold Att.gravErr
    generalize i.q.inverse.rotate g = t
    apply Vec3.ext <;> simp only [Vec3.cross, Vec3.sdiv, Vec3.smul_x, Vec3.smul_y, Vec3.smul_z] <;> ring
  have hm : axis a g i.q = m := rfl
  rw [hm] at hc
  unfold Att.stepQuat
  rw [herr, hw, hc]
  generalize m = m' at *
  simp only [Prod.mk.injEq]
  refine ⟨?_, ?_⟩
  · congr 2
    apply Quat.ext <;> simp only [Utility.deltaQ, Vec3.sdiv, ScalarFn.lit_real, Vec3.neg_x, Vec3.neg_y, Vec3.neg_z, Vec3.add_x, Vec3.add_y, Vec3.add_z, Vec3.smul_x, Vec3.smul_y, Vec3.smul_z,
      Vec3.zero_x, Vec3.zero_y, Vec3.zero_z, y] <;> push_cast <;> ring
  · apply Vec3.ext <;> simp only [Vec3.add_x, Vec3.add_y, Vec3.add_z, Vec3.smul_x, Vec3.smul_y, Vec3.smul_z] <;> ring

/-- What is known of a filter at rest: its newest attitude is a unit quaternion, it has no rotation rate, and the integral of the error points along the axis of the error. -/
structure Still (a g : Vec3 ℝ) (s : Att ℝ T) (i : AttItem ℝ T) (c : ℝ) : Prop where
  last : s.items.getLast? = some i
  unit : i.q.sqNorm = 1
  rate : i.gyro = 0
  int : s.errInt = Vec3.smul c (axis a g i.q)

theorem norm_mul_pos (a g : Vec3 ℝ) (q : Quat ℝ) (h : axis a g q ≠ 0) : 0 < a.norm * g.norm := by
  refine mul_pos (a.norm_pos ?_) (g.norm_pos ?_)
  · rintro rfl; exact h (by apply Vec3.ext <;> simp [axis, Vec3.cross])
  · rintro rfl; exact h (by apply Vec3.ext <;> simp [axis, Vec3.cross, Quat.rotate, Quat.vec])

theorem sqNorm_pos (v : Vec3 ℝ) (h : v ≠ 0) : 0 < v.sqNorm := lt_of_le_of_ne v.sqNorm_nonneg (fun e => h ((Vec3.sqNorm_eq_zero v).1 e.symm))

/-- One sample at rest: the error grows. -/
theorem grow (s : Att ℝ T) (a g : Vec3 ℝ) (i : AttItem ℝ T) (t : T) (c : ℝ) (h : Still a g s i c) (hc : 0 ≤ c) (hp : 0 < s.kp) (hi : 0 ≤ s.ki) (hm : axis a g i.q ≠ 0)
    (ha : 0 ≤ agree a g i.q) (ht : TimeOps.lt t i.ts = false) (d : ℝ) (hd : 0 < d) (hdt : d ≤ TimeCast.toK (TimeOps.sub t i.ts)) :
    ∃ j, (s.propagate g a s.biasG t).1.items = s.items ++ [j] ∧ j.ts = t ∧ agree a g j.q < agree a g i.q ∧
      (0 ≤ agree a g j.q → ∃ c', Still a g (s.propagate g a s.biasG t).1 j c' ∧ (axis a g i.q).sqNorm ≤ (axis a g j.q).sqNorm ∧
        (c + s.ki / (a.norm * g.norm)) * (axis a g i.q).sqNorm ≤ c' * (axis a g j.q).sqNorm ∧ 0 ≤ c' ∧
        agree a g j.q + ((s.kp + s.ki) / (a.norm * g.norm) + c) * d / 2 * (axis a g i.q).sqNorm ≤ agree a g i.q) := by
  have hR := norm_mul_pos a g i.q hm
  have hM := sqNorm_pos _ hm
  have hg0 : s.biasG - s.biasG = 0 := by apply Vec3.ext <;> simp
  have hst := step_eq s a g i t c h.rate h.int
  dsimp only at hst
  obtain ⟨y, hy⟩ : ∃ y, y = ((s.kp + s.ki) / (a.norm * g.norm) + c) * TimeCast.toK (TimeOps.sub t i.ts) / 2 := ⟨_, rfl⟩
  rw [← hy] at hst
  have hk : 0 < (s.kp + s.ki) / (a.norm * g.norm) + c := by have := div_pos (by linarith : 0 < s.kp + s.ki) hR; linarith
  have hyd : ((s.kp + s.ki) / (a.norm * g.norm) + c) * d / 2 ≤ y := by rw [hy]; have := mul_le_mul_of_nonneg_left hdt hk.le; linarith
  have hy0 : 0 < y := lt_of_lt_of_le (by positivity) hyd
  obtain ⟨t1, t2, t3⟩ := turn_axis a g i.q h.unit y
  unfold Att.propagate
  simp only [h.last, ht, hg0, hst, Bool.false_eq_true, if_false]
  refine ⟨_, rfl, rfl, ?_, ?_⟩
  all_goals dsimp only
  all_goals
    generalize hq' : (i.q.mul ⟨1, -(y * (axis a g i.q).x), -(y * (axis a g i.q).y), -(y * (axis a g i.q).z)⟩).normalized = q' at *
    have hyy : 0 < y ^ 2 * (axis a g i.q).sqNorm := by positivity
    have hyM : 0 < y * (axis a g i.q).sqNorm := by positivity
  · nlinarith [mul_nonneg hyy.le ha]
  · intro hj
    have l1 := lagrange a g i.q h.unit
    have l2 := lagrange a g q' t3
    have hlt : agree a g q' < agree a g i.q := by nlinarith [mul_nonneg hyy.le ha]
    have hle : (axis a g i.q).sqNorm ≤ (axis a g q').sqNorm := by nlinarith
    have hy1 : y ^ 2 * (axis a g i.q).sqNorm < 1 := by
      by_contra hn
      have : (1 - y ^ 2 * (axis a g i.q).sqNorm) * agree a g i.q ≤ 0 := mul_nonpos_of_nonpos_of_nonneg (by linarith) ha
      have : 0 ≤ (1 + y ^ 2 * (axis a g i.q).sqNorm) * agree a g q' := by positivity
      linarith
    obtain ⟨l, hl⟩ : ∃ l, l = ((1 - y ^ 2 * (axis a g i.q).sqNorm) + 2 * y * agree a g i.q) / (1 + y ^ 2 * (axis a g i.q).sqNorm) := ⟨_, rfl⟩
    rw [← hl] at t2
    have hl0 : 0 < l := by
      rw [hl]
      exact div_pos (by have := mul_nonneg hy0.le ha; linarith) (by linarith)
    have hsq : (axis a g q').sqNorm = l ^ 2 * (axis a g i.q).sqNorm := by rw [t2]; simp only [Vec3.sqNorm, Vec3.smul_x, Vec3.smul_y, Vec3.smul_z]; ring
    have hl1 : 1 ≤ l := by
      rw [hsq] at hle
      by_contra hn
      have : l ^ 2 < 1 := by nlinarith
      nlinarith
    have hki : 0 ≤ s.ki / (a.norm * g.norm) := by positivity
    refine ⟨(c + s.ki / (a.norm * g.norm)) / l, ⟨by simp, t3, rfl, ?_⟩, hle, ?_, by positivity, ?_⟩
    · dsimp only
      rw [t2]
      apply Vec3.ext <;> simp only [Vec3.smul_x, Vec3.smul_y, Vec3.smul_z] <;> field_simp
    · rw [hsq]
      have : (c + s.ki / (a.norm * g.norm)) / l * (l ^ 2 * (axis a g i.q).sqNorm) = (c + s.ki / (a.norm * g.norm)) * (axis a g i.q).sqNorm * l := by field_simp
      rw [this]
      exact le_mul_of_one_le_right (by positivity) hl1
    · have h1 := mul_le_mul_of_nonneg_right hyd hM.le
      have : agree a g q' + y * (axis a g i.q).sqNorm ≤ agree a g i.q := by
        nlinarith [mul_nonneg hyy.le ha, mul_pos hyM hyy]
      linarith

/-- Successive samples of a device at rest: each is at least `d` after the one before. -/
def Spaced (d : ℝ) (t0 : T) (ts : List T) : Prop := List.IsChain (fun s t => TimeOps.lt t s = false ∧ d ≤ TimeCast.toK (TimeOps.sub t s)) (t0 :: ts)

/-- Each attitude is further from gravity than the one before, until the error exceeds a right angle. -/
def Worsens (a g : Vec3 ℝ) : List (AttItem ℝ T) → Prop
  | i :: j :: l => 0 ≤ agree a g i.q → agree a g j.q < agree a g i.q ∧ Worsens a g (j :: l)
  | _ => True

/-- Every sample is accepted. -/
theorem run_accept (g a : Vec3 ℝ) (d : ℝ) (ts : List T) : ∀ (s : Att ℝ T) (i : AttItem ℝ T), s.items.getLast? = some i → Spaced d i.ts ts →
    ∃ s' js, run s (ts.map (AOp.sample g a s.biasG)) = .ok s' ∧ s'.items = s.items ++ js ∧ js.length = ts.length := by
  induction ts with
  | nil => intro s i _ _; exact ⟨s, [], rfl, by simp, rfl⟩
  | cons t ts ih =>
    intro s i hl hs
    unfold Spaced at hs
    rw [List.isChain_cons_cons] at hs
    obtain ⟨⟨h1, -⟩, h2⟩ := hs
    obtain ⟨q, e, -⟩ := C24_accepted s g a s.biasG t i hl h1
    have hb : (s.propagate g a s.biasG t).1.biasG = s.biasG := by unfold Att.propagate; simp [hl, h1]
    obtain ⟨s', js, r1, r2, r3⟩ := ih (s.propagate g a s.biasG t).1 ⟨q, a - s.biasA, s.biasG - s.biasG, t⟩ (by rw [e]; simp) h2
    rw [hb] at r1
    refine ⟨s', ⟨q, a - s.biasA, s.biasG - s.biasG, t⟩ :: js, ?_, by rw [r2, e]; simp, by simp [r3]⟩
    rw [List.map_cons, run]
    exact r1

/-- The error after `n` samples. -/
noncomputable def gained (kp ki d R M : ℝ) (n : ℕ) : ℝ := (n * kp + ki * (n * (n + 1) / 2)) * d * M / (2 * R)

theorem rest_run (g a : Vec3 ℝ) (d M A : ℝ) (hd : 0 < d) (hM : 0 < M) (ts : List T) : ∀ (s : Att ℝ T) (i : AttItem ℝ T) (c : ℝ) (k : ℕ), Still a g s i c → 0 ≤ c → 0 < s.kp → 0 ≤ s.ki →
    M ≤ (axis a g i.q).sqNorm → k * (s.ki / (a.norm * g.norm)) * M ≤ c * (axis a g i.q).sqNorm → 0 ≤ agree a g i.q → agree a g i.q ≤ A - gained s.kp s.ki d (a.norm * g.norm) M k →
    Spaced d i.ts ts →
    ∃ s' js, run s (ts.map (AOp.sample g a s.biasG)) = .ok s' ∧ s'.items = s.items ++ js ∧ js.length = ts.length ∧ Worsens a g (i :: js) ∧
      ((∃ j ∈ js, agree a g j.q < 0) ∨ 0 ≤ A - gained s.kp s.ki d (a.norm * g.norm) M (k + ts.length)) := by
  induction ts with
  | nil => intro s i c k _ _ _ _ _ _ h0 h1 _; exact ⟨s, [], rfl, by simp, rfl, trivial, .inr (h0.trans h1)⟩
  | cons t ts ih =>
    intro s i c k h hc hp hi hMm hcm h0 h1 hs
    unfold Spaced at hs
    rw [List.isChain_cons_cons] at hs
    obtain ⟨⟨hs1, hs2⟩, hs3⟩ := hs
    have hax : axis a g i.q ≠ 0 := by
      intro e
      rw [e] at hMm
      simp [Vec3.sqNorm] at hMm
      linarith
    have hR := norm_mul_pos a g i.q hax
    obtain ⟨j, g1, g2, g3, g4⟩ := grow s a g i t c h hc hp hi hax h0 hs1 d hd hs2
    have hb : (s.propagate g a s.biasG t).1.biasG = s.biasG ∧ (s.propagate g a s.biasG t).1.kp = s.kp ∧ (s.propagate g a s.biasG t).1.ki = s.ki := by
      unfold Att.propagate; simp [h.last, hs1]
    obtain ⟨b1, b2, b3⟩ := hb
    rw [← g2] at hs3
    by_cases hj : 0 ≤ agree a g j.q
    · obtain ⟨c', e1, e2, e3, e4, e5⟩ := g4 hj
      obtain ⟨s', js, r1, r2, r3, r4, r5⟩ := ih (s.propagate g a s.biasG t).1 j c' (k + 1) e1 e4 (by rw [b2]; exact hp) (by rw [b3]; exact hi) (hMm.trans e2) (by
          rw [b3]
          refine le_trans ?_ e3
          have : s.ki / (a.norm * g.norm) * M ≤ s.ki / (a.norm * g.norm) * (axis a g i.q).sqNorm := mul_le_mul_of_nonneg_left hMm (by positivity)
          push_cast
          linarith) hj (by
          rw [b2, b3]
          have hx : gained s.kp s.ki d (a.norm * g.norm) M (k + 1) = gained s.kp s.ki d (a.norm * g.norm) M k + (s.kp / (a.norm * g.norm) * M + s.ki / (a.norm * g.norm) * M + k * (s.ki / (a.norm * g.norm)) * M) * d / 2 := by
            unfold gained
            push_cast
            field_simp
            ring
          have hle : s.kp / (a.norm * g.norm) * M + s.ki / (a.norm * g.norm) * M + k * (s.ki / (a.norm * g.norm)) * M ≤ ((s.kp + s.ki) / (a.norm * g.norm) + c) * (axis a g i.q).sqNorm := by
            have : (s.kp + s.ki) / (a.norm * g.norm) * M ≤ (s.kp + s.ki) / (a.norm * g.norm) * (axis a g i.q).sqNorm := mul_le_mul_of_nonneg_left hMm (by positivity)
            have e : (s.kp + s.ki) / (a.norm * g.norm) * M = s.kp / (a.norm * g.norm) * M + s.ki / (a.norm * g.norm) * M := by ring
            linarith
          have := mul_le_mul_of_nonneg_right hle hd.le
          rw [hx]
          linarith) hs3
      rw [b1] at r1
      rw [b2, b3] at r5
      refine ⟨s', j :: js, ?_, by rw [r2, g1]; simp, by simp [r3], fun _ => ⟨g3, r4⟩, ?_⟩
      · rw [List.map_cons, run]; exact r1
      · rcases r5 with ⟨x, x1, x2⟩ | r5
        · exact .inl ⟨x, List.mem_cons_of_mem _ x1, x2⟩
        · refine .inr ?_
          rwa [List.length_cons, show k + (ts.length + 1) = k + 1 + ts.length by omega]
    · obtain ⟨s', js, r1, r2, r3⟩ := run_accept g a d ts (s.propagate g a s.biasG t).1 j (by rw [g1]; simp) hs3
      rw [b1] at r1
      refine ⟨s', j :: js, ?_, by rw [r2, g1]; simp, by simp [r3], fun _ => ⟨g3, ?_⟩, .inl ⟨j, List.mem_cons_self, not_le.1 hj⟩⟩
      · rw [List.map_cons, run]; exact r1
      · cases js with
        | nil => trivial
        | cons x l => exact fun hc => absurd hc hj

/-- The start is off by less than a right angle. -/
theorem start_agree (a g : Vec3 ℝ) (h : a.cross g ≠ 0) : 0 ≤ agree a g (Att.initQuat a g) ∧ axis a g (Att.initQuat a g) ≠ 0 := by
  obtain ⟨ha, hg⟩ := ne_zero_of_cross a g h
  have hR := mul_pos (a.norm_pos ha) (g.norm_pos hg)
  have h0 : 0 ≤ agree a g (Att.initQuat a g) := by
    unfold agree
    rw [initQuat_dot a g h]
    refine mul_nonneg hR.le (Real.cos_nonneg_of_neg_pi_div_two_le_of_le ?_ ?_)
    · have h1 := arctan_lt_self (half_pos (angle_pos a g h))
      have := Real.pi_pos
      linarith
    · have hp := angle_pos a g h
      have hle := angle_le_pi a g
      have h2 := arctan_ge (half_pos hp).le
      have hpi := Real.two_le_pi
      rcases le_or_gt 2 (angleBetween a g) with hc | hc
      · have : Real.arctan 1 ≤ Real.arctan (angleBetween a g / 2) := Real.arctan_mono (by linarith)
        rw [Real.arctan_one] at this
        linarith
      · have : (angleBetween a g / 2) ^ 3 ≤ 1 := pow_le_one₀ (half_pos hp).le (by linarith)
        linarith
  refine ⟨h0, fun e => ?_⟩
  have h1 := (C30_never_aligned a g h).1
  have h2 := lagrange a g _ (Att.initQuat_unit a g)
  rw [e] at h2
  have h3 : agree a g (Att.initQuat a g) ^ 2 = (a.norm * g.norm) ^ 2 := by
    rw [mul_pow, Vec3.norm_sq, Vec3.norm_sq, ← h2]
    simp [Vec3.sqNorm]
  have h4 := (sq_eq_sq₀ h0 hR.le).1 h3
  unfold agree at h4
  linarith

end Rest

open Rest

/-- C123 is false: the correction by gravity turns the attitude of a device at rest away from gravity.  `a` is the specific force the device measures all the time, its gyroscope measures only
its bias; `i` is the newest attitude, its error is not zero and at most a right angle, the integral of the error is a multiple of its axis, as it is after the start.  Then the next
attitude is further from gravity, whatever the period and the positive gains are. -/
theorem C123_away {T : Type} [TimeOps T] [TimeCast T ℝ] (s : Att ℝ T) (a g : Vec3 ℝ) (i : AttItem ℝ T) (t : T) (c : ℝ) (hl : s.items.getLast? = some i) (hq : i.q.sqNorm = 1) (hw : i.gyro = 0)
    (hint : s.errInt = Vec3.smul c (a.cross (i.q.inverse.rotate g))) (hc : 0 ≤ c) (hp : 0 < s.kp) (hi : 0 ≤ s.ki) (herr : a.cross (i.q.inverse.rotate g) ≠ 0)
    (h90 : 0 ≤ (i.q.rotate a).dot g) (ht : TimeOps.lt t i.ts = false) (hdt : 0 < (TimeCast.toK (TimeOps.sub t i.ts) : ℝ)) :
    ∃ j, (s.propagate g a s.biasG t).1.items = s.items ++ [j] ∧ j.ts = t ∧ (j.q.rotate a).dot g < (i.q.rotate a).dot g := by
  obtain ⟨j, h1, h2, h3, -⟩ := grow s a g i t c ⟨hl, hq, hw, hint⟩ hc hp hi herr h90 ht _ hdt le_rfl
  exact ⟨j, h1, h2, h3⟩

/-- C123, in every history: an estimator that starts on a device at rest off the gravity axis, with no bias, gets further from gravity with every sample until its error exceeds a
right angle.  `d` is a lower bound of the period. -/
theorem C123_diverges {T : Type} [TimeOps T] [TimeCast T ℝ] (s : Att ℝ T) (a g : Vec3 ℝ) (h0 : s.items = []) (hba : s.biasA = 0) (hint : s.errInt = 0) (hp : 0 < s.kp) (hi : 0 ≤ s.ki)
    (ht : a.cross g ≠ 0) (hn : TimeOps.lt (TimeOps.tlit (4/100) : T) (TimeCast.ofK (ScalarFn.fabs (g.norm - a.norm))) = false) (d : ℝ) (hd : 0 < d) (t0 : T) (ts : List T) (hs : Spaced d t0 ts) :
    ∃ s' i js, run s ((t0 :: ts).map (AOp.sample g a s.biasG)) = .ok s' ∧ s'.items = i :: js ∧ js.length = ts.length ∧ i.q = Att.initQuat a g ∧ Worsens a g (i :: js) ∧
      (2 * (a.norm * g.norm) ^ 2 < (ts.length * s.kp + s.ki * (ts.length * (ts.length + 1) / 2)) * d * ((a.norm * g.norm) ^ 2 - ((i.q.rotate a).dot g) ^ 2) →
        ∃ j ∈ js, (j.q.rotate a).dot g < 0) := by
  obtain ⟨s1, s2⟩ := start_agree a g ht
  have hu := Att.initQuat_unit a g
  have hsub : a - s.biasA = a := by rw [hba]; apply Vec3.ext <;> simp
  have hg0 : s.biasG - s.biasG = 0 := by apply Vec3.ext <;> simp
  have e : (s.propagate g a s.biasG t0).1 = { s with items := [⟨Att.initQuat a g, a, 0, t0⟩] } := by
    unfold Att.propagate
    simp only [h0, List.getLast?_nil, hsub, hg0, hn, Bool.false_eq_true, if_false]
  have hR := norm_mul_pos a g _ s2
  obtain ⟨s', js, r1, r2, r3, r4, r5⟩ := rest_run g a d (axis a g (Att.initQuat a g)).sqNorm (agree a g (Att.initQuat a g)) hd (sqNorm_pos _ s2) ts
    { s with items := [⟨Att.initQuat a g, a, 0, t0⟩] } ⟨Att.initQuat a g, a, 0, t0⟩ 0 0
    ⟨rfl, hu, rfl, by rw [show ({ s with items := [⟨Att.initQuat a g, a, 0, t0⟩] } : Att ℝ T).errInt = s.errInt from rfl, hint]; apply Vec3.ext <;> simp⟩ le_rfl hp hi le_rfl (by simp) s1
    (by simp [gained]) hs
  refine ⟨s', ⟨Att.initQuat a g, a, 0, t0⟩, js, ?_, r2, r3, rfl, r4, ?_⟩
  · rw [List.map_cons, run]
    show run (s.propagate g a s.biasG t0).1 _ = _
    rw [e]
    exact r1
  · intro hbig
    rcases r5 with r5 | r5
    · exact r5
    · exfalso
      have hl := lagrange a g _ hu
      have hM : (a.norm * g.norm) ^ 2 - ((Att.initQuat a g).rotate a).dot g ^ 2 = (axis a g (Att.initQuat a g)).sqNorm := by
        rw [mul_pow, Vec3.norm_sq, Vec3.norm_sq, ← hl]
        unfold agree
        ring
      dsimp only at hbig
      rw [hM] at hbig
      have hA : agree a g (Att.initQuat a g) ≤ a.norm * g.norm := (C30_never_aligned a g ht).1.le
      rw [zero_add] at r5
      have r5 : 0 ≤ agree a g (Att.initQuat a g) - gained s.kp s.ki d (a.norm * g.norm) (axis a g (Att.initQuat a g)).sqNorm ts.length := r5
      unfold gained at r5
      have : (ts.length * s.kp + s.ki * (ts.length * (ts.length + 1) / 2)) * d * (axis a g (Att.initQuat a g)).sqNorm / (2 * (a.norm * g.norm)) ≤ a.norm * g.norm := by linarith
      rw [div_le_iff₀ (by linarith)] at this
      nlinarith

/-- C123: so after a number of samples that depends only on the tilt, the gains and the shortest period, the error has exceeded a right angle, however many samples follow. -/
theorem C123_lost (a g : Vec3 ℝ) (kp ki d : ℝ) (hp : 0 < kp) (hi : 0 ≤ ki) (ht : a.cross g ≠ 0) (hd : 0 < d) :
    ∃ n : ℕ, ∀ {T : Type} [TimeOps T] [TimeCast T ℝ] (s : Att ℝ T) (t0 : T) (ts : List T), s.items = [] → s.biasA = 0 → s.errInt = 0 → s.kp = kp → s.ki = ki →
      TimeOps.lt (TimeOps.tlit (4/100) : T) (TimeCast.ofK (ScalarFn.fabs (g.norm - a.norm))) = false → Spaced d t0 ts → n ≤ ts.length →
      ∃ s', run s ((t0 :: ts).map (AOp.sample g a s.biasG)) = .ok s' ∧ ∃ j ∈ s'.items, (j.q.rotate a).dot g < 0 := by
  obtain ⟨s1, s2⟩ := start_agree a g ht
  have hR := norm_mul_pos a g _ s2
  have hM := sqNorm_pos _ s2
  have hl := lagrange a g _ (Att.initQuat_unit a g)
  have hMe : (a.norm * g.norm) ^ 2 - ((Att.initQuat a g).rotate a).dot g ^ 2 = (axis a g (Att.initQuat a g)).sqNorm := by
    rw [mul_pow, Vec3.norm_sq, Vec3.norm_sq, ← hl]
    unfold agree
    ring
  obtain ⟨n, hn⟩ := exists_nat_gt (2 * (a.norm * g.norm) ^ 2 / (kp * d * (axis a g (Att.initQuat a g)).sqNorm))
  refine ⟨n, ?_⟩
  intro T _ _ s t0 ts h0 hba hint hkp hki hacc hs hlen
  obtain ⟨s', i, js, r1, r2, r3, r4, -, r6⟩ := C123_diverges s a g h0 hba hint (by rw [hkp]; exact hp) (by rw [hki]; exact hi) ht hacc d hd t0 ts hs
  obtain ⟨j, j1, j2⟩ := r6 (by
    rw [r4, hMe, hkp, hki]
    rw [div_lt_iff₀ (by positivity)] at hn
    have h1 : (n : ℝ) ≤ ts.length := by exact_mod_cast hlen
    have h2 : 0 < d * (axis a g (Att.initQuat a g)).sqNorm := by positivity
    have h3 : (n : ℝ) * kp ≤ ts.length * kp + ki * (ts.length * (ts.length + 1) / 2) := by
      have : 0 ≤ ki * ((ts.length : ℝ) * (ts.length + 1) / 2) := by positivity
      nlinarith
    nlinarith [mul_le_mul_of_nonneg_right h3 h2.le])
  exact ⟨s', r1, j, by rw [r2]; exact List.mem_cons_of_mem _ j1, j2⟩

/-- Concrete cases: the estimator with its default gains on a device tilted by about 37 degrees, a sample every second. -/
example : (⟨6, 0, 8⟩ : Vec3 ℝ).cross ⟨0, 0, 10⟩ ≠ 0 ∧ TimeOps.lt (TimeOps.tlit (4/100) : ℝ) (TimeCast.ofK (ScalarFn.fabs ((⟨0, 0, 10⟩ : Vec3 ℝ).norm - (⟨6, 0, 8⟩ : Vec3 ℝ).norm))) = false ∧
    (0 < (Att.init : Att ℝ ℝ).kp ∧ 0 ≤ (Att.init : Att ℝ ℝ).ki ∧ (Att.init : Att ℝ ℝ).errInt = 0 ∧ (Att.init : Att ℝ ℝ).biasA = 0) ∧ ∀ n : ℕ, Spaced 1 (0 : ℝ) ((List.range n).map (fun k : ℕ => (k : ℝ) + 1)) := by
  have h1 : (⟨0, 0, 10⟩ : Vec3 ℝ).norm = 10 := by rw [Vec3.norm_real, show (⟨0, 0, 10⟩ : Vec3 ℝ).sqNorm = 10 ^ 2 by norm_num [Vec3.sqNorm]]; exact Real.sqrt_sq (by norm_num)
  have h2 : (⟨6, 0, 8⟩ : Vec3 ℝ).norm = 10 := by rw [Vec3.norm_real, show (⟨6, 0, 8⟩ : Vec3 ℝ).sqNorm = 10 ^ 2 by norm_num [Vec3.sqNorm]]; exact Real.sqrt_sq (by norm_num)
  refine ⟨?_, ?_, ⟨?_, ?_, rfl, rfl⟩, ?_⟩
  · intro h
    have := congrArg Vec3.y h
    simp [Vec3.cross] at this
  · rw [h1, h2]
    simp
    norm_num
  · show (0 : ℝ) < ((1 / 1000 : ℚ) : ℝ); norm_num
  · show (0 : ℝ) ≤ ((1 / 10000 : ℚ) : ℝ); norm_num
  · intro n
    unfold Spaced
    have key : ∀ (m : ℕ) (k : ℝ), List.IsChain (fun s t : ℝ => TimeOps.lt t s = false ∧ (1 : ℝ) ≤ TimeCast.toK (TimeOps.sub t s)) (k :: (List.range m).map (fun j : ℕ => k + ((j : ℝ) + 1))) := by
      intro m
      induction m with
      | zero => intro k; simp
      | succ m ih =>
        intro k
        rw [List.range_succ_eq_map, List.map_cons, List.isChain_cons_cons]
        refine ⟨⟨by simp, by simp⟩, ?_⟩
        have := ih (k + 1)
        rw [List.map_map]
        have e : ((fun j : ℕ => k + ((j : ℝ) + 1)) ∘ Nat.succ) = fun j : ℕ => k + 1 + ((j : ℝ) + 1) := by
          funext j; simp; ring
        rw [e]
        simpa using this
    simpa using key n 0

/-- C123 in the backend: a `RunOnce` that handles such a sample, with or without an image, leaves a newest attitude that is further from gravity. -/
theorem Backend.C123_run {T : Type} [TimeOps T] [TimeCast T ℝ] (env : Env ℝ) (g a : Vec3 ℝ) (b b' : Backend ℝ T) (r : Bool) (i : AttItem ℝ T) (t : T) (c : ℝ) (h : b.runOnce env g = .ok (r, b'))
    (hlt : b.u.w.frm.frames.length + 1 < two32) (hm : b.loader.popOne.out.imuMeas = [⟨b.att.biasG, a, t⟩]) (hl : b.att.items.getLast? = some i) (hq : i.q.sqNorm = 1) (hw : i.gyro = 0)
    (hint : b.att.errInt = Vec3.smul c (a.cross (i.q.inverse.rotate g))) (hc : 0 ≤ c) (hp : 0 < b.att.kp) (hi : 0 ≤ b.att.ki) (herr : a.cross (i.q.inverse.rotate g) ≠ 0)
    (h90 : 0 ≤ (i.q.rotate a).dot g) (ht : TimeOps.lt t i.ts = false) (hdt : 0 < (TimeCast.toK (TimeOps.sub t i.ts) : ℝ)) :
    ∃ j, b'.att.items.getLast? = some j ∧ j.ts = t ∧ (j.q.rotate a).dot g < (i.q.rotate a).dot g := by
  obtain ⟨j, j1, j2, j3⟩ := C123_away b.att a g i t c hl hq hw hint hc hp hi herr h90 ht hdt
  refine ⟨j, ?_, j2, j3⟩
  rcases runOnce_eq env g b b' r h with ⟨p1, -, -⟩ | ⟨-, res, b1, e1, e2⟩
  · exfalso
    revert p1 hm
    unfold Loader.popOne
    split
    · split
      · split <;> exact fun _ => (nomatch ·)
      · exact fun _ => (nomatch ·)
    · exact fun _ => (nomatch ·)
    · exact fun _ => (nomatch ·)
    · exact (nomatch ·)
  · have hw1 : b1.u.w = b.u.w := (onImu_keep _ _ _ _ _ e1).2.2.1
    have hlast : b1.att.items.getLast? = some j := by
      rw [hm] at e1
      rcases onImu_att _ _ _ _ _ e1 with ⟨hc, -⟩ | ⟨m, ms, hc, e⟩
      · cases hc
      · cases hc
        rw [e]
        show (b.att.propagate g a b.att.biasG t).1.items.getLast? = _
        rw [j1]
        simp
    rcases e2 with ⟨-, -, rfl⟩ | ⟨m, -, -, e2⟩
    · exact hlast
    · rw [onFeat_last env g b1 b' m e2 (by rw [hw1]; exact hlt), hlast]

/-- C123, what remains true: an attitude that fits gravity exactly, with no error accumulated, is kept. -/
theorem C123_aligned_partial {T : Type} [TimeOps T] [TimeCast T ℝ] (s : Att ℝ T) (a g : Vec3 ℝ) (i : AttItem ℝ T) (t : T) (hl : s.items.getLast? = some i) (hq : i.q.sqNorm = 1) (hw : i.gyro = 0)
    (hint : s.errInt = 0) (herr : a.cross (i.q.inverse.rotate g) = 0) (ht : TimeOps.lt t i.ts = false) :
    (s.propagate g a s.biasG t).1.items = s.items ++ [⟨i.q, a - s.biasA, 0, t⟩] ∧ (s.propagate g a s.biasG t).1.errInt = 0 := by
  have hg0 : s.biasG - s.biasG = 0 := by apply Vec3.ext <;> simp
  have he : axis a g i.q = 0 := herr
  have hst := step_eq s a g i t 0 hw (by rw [hint, he]; apply Vec3.ext <;> simp)
  dsimp only at hst
  rw [he] at hst
  have e1 : (⟨1, -(((s.kp + s.ki) / (a.norm * g.norm) + 0) * TimeCast.toK (TimeOps.sub t i.ts) / 2 * (0 : Vec3 ℝ).x), -(((s.kp + s.ki) / (a.norm * g.norm) + 0) * TimeCast.toK (TimeOps.sub t i.ts) / 2 * (0 : Vec3 ℝ).y),
      -(((s.kp + s.ki) / (a.norm * g.norm) + 0) * TimeCast.toK (TimeOps.sub t i.ts) / 2 * (0 : Vec3 ℝ).z)⟩ : Quat ℝ) = .one := by
    apply Quat.ext <;> simp [Quat.one]
  rw [e1, Quat.mul_one', Quat.normalized_of_unit _ hq] at hst
  unfold Att.propagate
  simp only [hl, ht, hg0, hst, Bool.false_eq_true, if_false, true_and]
  apply Vec3.ext <;> simp

/-- The hypotheses of `C123_away` are met by every start off the gravity axis. -/
example (a g : Vec3 ℝ) (h : a.cross g ≠ 0) : ∃ j, (({ (Att.init : Att ℝ ℝ) with items := [⟨Att.initQuat a g, a, 0, 0⟩] } : Att ℝ ℝ).propagate g a 0 1).1.items = [⟨Att.initQuat a g, a, 0, 0⟩, j] ∧ j.ts = 1 ∧
    (j.q.rotate a).dot g < ((Att.initQuat a g).rotate a).dot g := by
  obtain ⟨s1, s2⟩ := start_agree a g h
  exact C123_away ({ (Att.init : Att ℝ ℝ) with items := [⟨Att.initQuat a g, a, 0, 0⟩] } : Att ℝ ℝ) a g ⟨Att.initQuat a g, a, 0, 0⟩ 1 0 rfl (Att.initQuat_unit a g) rfl (by apply Vec3.ext <;> simp [Att.init]) le_rfl
    (by show (0 : ℝ) < ((1 / 1000 : ℚ) : ℝ); norm_num) (by show (0 : ℝ) ≤ ((1 / 10000 : ℚ) : ℝ); norm_num) s2 s1 (by simp) (by simp)

/-- The hypotheses of `C123_aligned_partial` are met: a level device with the right attitude. -/
example : (({ (Att.init : Att ℝ ℝ) with items := [⟨.one, ⟨0, 0, 10⟩, 0, 0⟩] } : Att ℝ ℝ).propagate ⟨0, 0, 10⟩ ⟨0, 0, 10⟩ 0 1).1.items = [⟨.one, ⟨0, 0, 10⟩, 0, 0⟩, ⟨.one, ⟨0, 0, 10⟩ - 0, 0, 1⟩] :=
  (C123_aligned_partial ({ (Att.init : Att ℝ ℝ) with items := [⟨.one, ⟨0, 0, 10⟩, 0, 0⟩] } : Att ℝ ℝ) ⟨0, 0, 10⟩ ⟨0, 0, 10⟩ ⟨.one, ⟨0, 0, 10⟩, 0, 0⟩ 1 rfl (by simp [Quat.one, Quat.sqNorm]) rfl rfl
    (by apply Vec3.ext <;> simp [Vec3.cross, Quat.one, Quat.inverse, Quat.rotate, Quat.sqNorm, Quat.vec]) (by simp)).1

end Vio

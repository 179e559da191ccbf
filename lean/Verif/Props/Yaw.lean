/-
C135: what the covariance propagation makes of the uncertainty of the heading.
-/
import Verif.Props.Linear
import Verif.Props.Gauge

set_option linter.unusedSectionVars false

namespace Vio
open PropSpec PropQueue Reckon ErrSpec

namespace Yaw

/-- The error of a state in a world that is turned about the axis `e` through the origin, to first order in the angle (`C135_meaning`). -/
noncomputable def headingErr (m : Motion ℝ) (e : Vec3 ℝ) : ErrState ℝ := ⟨e.cross m.p, e.cross m.v, m.q.inverse.rotate e, 0, 0⟩

/-- The state in the world that is turned by the angle `α`, up to the third order, about `e`. -/
noncomputable def turnedBy (e : Vec3 ℝ) (α : ℝ) (x : Full) : Full := ⟨move (Utility.deltaQ (.smul α e)).normalized 0 0 x.m, x.ba, x.bg⟩

/-- Conjugation of a quaternion by a unit quaternion. -/
theorem conj_parts (q a : Quat ℝ) (hq : q.sqNorm = 1) : (q.inverse.mul (a.mul q)).w = a.w ∧ (q.inverse.mul (a.mul q)).vec = q.inverse.rotate a.vec := by
  have hq' := hq
  simp only [Quat.sqNorm] at hq'
  rw [Quat.inverse_of_unit q hq]
  refine ⟨?_, ?_⟩
  · simp [Quat.mul]
    linear_combination a.w * hq'
  · apply Vec3.ext <;> simp [Quat.mul, Quat.vec, Quat.rotate] <;> ring_nf
    · linear_combination a.x * hq'
    · linear_combination a.y * hq'
    · linear_combination a.z * hq'

theorem angle_conj (q a : Quat ℝ) (hq : q.sqNorm = 1) : angle (q.inverse.mul (a.mul q)) = q.inverse.rotate (angle a) := by
  obtain ⟨h1, h2⟩ := conj_parts q a hq
  have e : ∀ b : Quat ℝ, angle b = .smul (2 / b.w) b.vec := by
    intro b
    apply Vec3.ext <;> simp [angle, Quat.vec] <;> ring
  rw [e, e, h1, h2, Quat.rotate_smul]

theorem hasDeriv3_line (v : Vec3 ℝ) (k : ℝ) : HasDeriv3 (fun α => Vec3.smul (k * α) v) (.smul k v) 0 := by
  refine ⟨?_, ?_, ?_⟩
  · simpa using ((hasDerivAt_id (0 : ℝ)).const_mul k).mul_const v.x
  · simpa using ((hasDerivAt_id (0 : ℝ)).const_mul k).mul_const v.y
  · simpa using ((hasDerivAt_id (0 : ℝ)).const_mul k).mul_const v.z

theorem hasDeriv3_turn (e v : Vec3 ℝ) : HasDeriv3 (fun α => (Utility.deltaQ (.smul α e)).normalized.rotate v) (e.cross v) 0 := by
  have h := hasDeriv3_rotate (y := fun α => Utility.deltaQ (.smul α e)) (w' := 0) (u := .smul (1 / 2) e) (f := fun _ => v) (d := 0) (hasDerivAt_const _ _)
    ((hasDeriv3_line e (1 / 2)).of_eq fun α => by apply Vec3.ext <;> simp [Utility.deltaQ, Quat.vec] <;> ring)
    (by apply Vec3.ext <;> simp [Utility.deltaQ, Quat.vec]) (by simp [Utility.deltaQ]) (fun _ => deltaQ_pos _) ⟨hasDerivAt_const _ _, hasDerivAt_const _ _, hasDerivAt_const _ _⟩
  have e1 : (0 : Vec3 ℝ) + (Vec3.smul (2 / (Utility.deltaQ (.smul 0 e)).w) (Vec3.smul (1 / 2) e)).cross v = e.cross v := by
    apply Vec3.ext <;> simp [Utility.deltaQ]
  rw [← e1]
  exact h

theorem HasDeriv3.sub_const {f : ℝ → Vec3 ℝ} {d : Vec3 ℝ} (h : HasDeriv3 f d 0) (v : Vec3 ℝ) : HasDeriv3 (fun α => f α + 0 - v) d 0 := by
  refine ⟨?_, ?_, ?_⟩
  · simpa using h.x.sub_const v.x
  · simpa using h.y.sub_const v.y
  · simpa using h.z.sub_const v.z

theorem hasDeriv3_zero (v : Vec3 ℝ) : HasDeriv3 (fun _ => v - v) 0 0 := ⟨hasDerivAt_const _ _, hasDerivAt_const _ _, hasDerivAt_const _ _⟩

/-- C135, what the direction means: `headingErr` is the derivative of the error of the state in the turned world. -/
theorem C135_meaning (x : Full) (hq : x.m.q.sqNorm = 1) (e : Vec3 ℝ) : HasDerivErr (fun α => error x (turnedBy e α x)) (headingErr x.m e) 0 := by
  refine ⟨?_, ?_, ?_, ?_, ?_⟩
  · exact HasDeriv3.sub_const (hasDeriv3_turn e x.m.p) x.m.p
  · exact HasDeriv3.sub_const (hasDeriv3_turn e x.m.v) x.m.v
  · have h := hasDeriv3_line (x.m.q.inverse.rotate e) 1
    have e1 : Vec3.smul 1 (x.m.q.inverse.rotate e) = x.m.q.inverse.rotate e := by apply Vec3.ext <;> simp
    rw [e1] at h
    refine h.of_eq fun α => ?_
    show angle (x.m.q.inverse.mul ((Utility.deltaQ (.smul α e)).normalized.mul x.m.q)) = _
    rw [angle_conj _ _ hq, angle_normalized _ (deltaQ_pos _), ← Quat.rotate_smul]
    congr 1
    apply Vec3.ext <;> simp [angle, Utility.deltaQ] <;> ring
  · exact hasDeriv3_zero _
  · exact hasDeriv3_zero _

variable {T : Type} [TimeOps T] [TimeCast T ℝ]

/-- C135, the exact difference: `F` times the direction of the heading before a step, less the direction of the heading after it. -/
theorem C135_defect (s : PropQueue ℝ T) (hs : Clean s) (g : Vec3 ℝ) (i0 : PropItem ℝ T) (hq : i0.st.q.sqNorm = 1) (a w : Vec3 ℝ) (t : T) (e : Vec3 ℝ) (he : e.cross g = 0) :
    let d : ℝ := dt i0.ts t
    let st' := (s.stepItem g i0 a w t).st
    ((s.stepF i0 a w t).toM 15 15).mulVec (ev (headingErr i0.st e)) - ev (headingErr st' e) =
      ev ⟨.smul (d / 2) (e.cross (i0.st.v - st'.v)), .smul (d / 2) (e.cross (i0.st.q.rotate (a - s.biasA) - st'.q.rotate (a - s.biasA))),
        i0.st.q.inverse.rotate e - .smul d ((midGyro s.biasG i0.gyro w).cross (i0.st.q.inverse.rotate e)) - st'.q.inverse.rotate e, 0, 0⟩ := by
  intro d st'
  rw [(clean_stepF s hs i0 a w t).1, fM_ev]
  have hsub : ∀ x y z : ErrState ℝ, x.p - y.p = z.p → x.v - y.v = z.v → x.theta - y.theta = z.theta → x.ba - y.ba = z.ba → x.bg - y.bg = z.bg → ev x - ev y = ev z := by
    intro x y z h1 h2 h3 h4 h5
    have c := fun (u v w : Vec3 ℝ) (h : u - v = w) => (⟨congrArg Vec3.x h, congrArg Vec3.y h, congrArg Vec3.z h⟩ : (u - v).x = w.x ∧ (u - v).y = w.y ∧ (u - v).z = w.z)
    obtain ⟨a1, a2, a3⟩ := c _ _ _ h1
    obtain ⟨b1, b2, b3⟩ := c _ _ _ h2
    obtain ⟨c1, c2, c3⟩ := c _ _ _ h3
    obtain ⟨d1, d2, d3⟩ := c _ _ _ h4
    obtain ⟨e1, e2, e3⟩ := c _ _ _ h5
    ext i
    show errToVec (fun _ => 0) x i - errToVec (fun _ => 0) y i = errToVec (fun _ => 0) z i
    fin_cases i <;> simpa [errToVec, setSeg3, Vec3.get, indexP, indexV, indexR, indexBA, indexBG]
  have hv : st'.v = i0.st.v + vscale (Vec3.smul (lit (1/2)) (i0.st.q.rotate (i0.accel - s.biasA) + st'.q.rotate (a - s.biasA)) - g) d := rfl
  have hp : st'.p = i0.st.p + vscale (Vec3.smul (lit (1/2)) (i0.st.v + st'.v)) d := rfl
  have gx : e.y * g.z - e.z * g.y = 0 := congrArg Vec3.x he
  have gy : e.z * g.x - e.x * g.z = 0 := congrArg Vec3.y he
  have gz : e.x * g.y - e.y * g.x = 0 := congrArg Vec3.z he
  refine hsub _ _ _ ?_ ?_ ?_ ?_ ?_
  · show e.cross i0.st.p + Vec3.smul d (e.cross i0.st.v) - e.cross st'.p = _
    rw [hp]
    apply Vec3.ext <;> simp [vscale] <;> ring
  · show e.cross i0.st.v - Vec3.smul d (i0.st.q.toMat.mulVec ((midAccel s.biasA i0.accel a).cross (i0.st.q.inverse.rotate e))) - Vec3.smul d (i0.st.q.toMat.mulVec 0) - e.cross st'.v = _
    have e1 : i0.st.q.rotate (i0.st.q.inverse.rotate e) = e := by
      rw [← Quat.rotate_mul _ _ hq (Quat.sqNorm_inverse_of_unit _ hq), Quat.mul_inverse_of_unit _ hq, Quat.rotate_one]
    rw [Quat.toMat_mulVec, Quat.rotate_cross _ hq, e1, Quat.toMat_mulVec]
    have e2 : i0.st.q.rotate 0 = 0 := by apply Vec3.ext <;> simp [Quat.rotate]
    have e3 : i0.st.q.rotate (midAccel s.biasA i0.accel a) = .smul (1 / 2) (i0.st.q.rotate (i0.accel - s.biasA) + i0.st.q.rotate (a - s.biasA)) := by
      rw [← Quat.rotate_add, ← Quat.rotate_smul]
      congr 1
      apply Vec3.ext <;> simp [midAccel] <;> ring
    rw [e2, e3, hv]
    generalize i0.st.q.rotate (i0.accel - s.biasA) = A
    generalize i0.st.q.rotate (a - s.biasA) = B
    generalize st'.q.rotate (a - s.biasA) = C
    apply Vec3.ext <;> simp [vscale]
    · linear_combination d * gx
    · linear_combination d * gy
    · linear_combination d * gz
  · show i0.st.q.inverse.rotate e - Vec3.smul d ((midGyro s.biasG i0.gyro w).cross (i0.st.q.inverse.rotate e)) - Vec3.smul d 0 - st'.q.inverse.rotate e = _
    apply Vec3.ext <;> simp
  · apply Vec3.ext <;> simp [headingErr, fmap]
  · apply Vec3.ext <;> simp [headingErr, fmap]

/-- C135, what holds: with no rotation rate the attitude and velocity components are carried along exactly, and the position component is if and only if the velocity across the axis is unchanged (or no time passes).
Missing: accelerated motion and rotation, where it is false (`C135_accelerating`, `C135_turning`). -/
theorem C135_partial (s : PropQueue ℝ T) (hs : Clean s) (g : Vec3 ℝ) (i0 : PropItem ℝ T) (hq : i0.st.q.sqNorm = 1) (a w : Vec3 ℝ) (t : T) (e : Vec3 ℝ) (he : e.cross g = 0)
    (hw : midGyro s.biasG i0.gyro w = 0) (hd : (dt i0.ts t : ℝ) ≠ 0) :
    ((s.stepF i0 a w t).toM 15 15).mulVec (ev (headingErr i0.st e)) = ev (headingErr (s.stepItem g i0 a w t).st e) ↔ e.cross (s.stepItem g i0 a w t).st.v = e.cross i0.st.v := by
  have h := C135_defect s hs g i0 hq a w t e he
  dsimp only at h
  have hq' : (s.stepItem g i0 a w t).st.q = i0.st.q := by
    show (i0.st.q.mul (Utility.deltaQ (vscale (midGyro s.biasG i0.gyro w) (dt i0.ts t)))).normalized = i0.st.q
    rw [hw]
    have : Utility.deltaQ (vscale (0 : Vec3 ℝ) (dt i0.ts t)) = .one := by apply Quat.ext <;> simp [Utility.deltaQ, vscale, Quat.one]
    rw [this, Quat.mul_one', Quat.normalized_of_unit _ hq]
  rw [hq', hw] at h
  constructor
  · intro hE
    rw [hE, sub_self] at h
    have c : ∀ i : Fin 15, (0 : Fin 15 → ℝ) i = _ := fun i => congrFun h i
    have c0 := c 0
    have c1 := c 1
    have c2 := c 2
    simp [ev, errToVec, setSeg3, Vec3.get, indexP, indexV, indexR, indexBA, indexBG, hd] at c0 c1 c2
    apply Vec3.ext <;> simp <;> linarith
  · intro hE
    have hx : e.cross (i0.st.v - (s.stepItem g i0 a w t).st.v) = 0 := by
      have x1 := congrArg Vec3.x hE
      have x2 := congrArg Vec3.y hE
      have x3 := congrArg Vec3.z hE
      simp at x1 x2 x3
      apply Vec3.ext <;> simp <;> linarith
    rw [hx] at h
    rw [← sub_eq_zero, h]
    ext i
    fin_cases i <;> simp [ev, errToVec, setSeg3, Vec3.get, indexP, indexV, indexR, indexBA, indexBG]

theorem sqNorm_rot (q : Quat ℝ) (hq : q.sqNorm = 1) (v : Vec3 ℝ) : (q.rotate v).sqNorm = v.sqNorm := by
  simp only [Quat.sqNorm] at hq
  simp [Vec3.sqNorm, Quat.rotate, Quat.vec]
  have h2 : q.w ^ 2 = 1 - q.x ^ 2 - q.y ^ 2 - q.z ^ 2 := by linear_combination hq
  ring_nf
  rw [h2]
  ring

/-- C135 is false of every step in which the body turns about anything but the axis of gravity: the attitude component comes out too long. -/
theorem C135_turning (s : PropQueue ℝ T) (hs : Clean s) (g : Vec3 ℝ) (i0 : PropItem ℝ T) (hq : i0.st.q.sqNorm = 1) (a w : Vec3 ℝ) (t : T) (e : Vec3 ℝ) (he : e.cross g = 0)
    (hw : (midGyro s.biasG i0.gyro w).cross (i0.st.q.inverse.rotate e) ≠ 0) (hd : (dt i0.ts t : ℝ) ≠ 0) :
    ((s.stepF i0 a w t).toM 15 15).mulVec (ev (headingErr i0.st e)) ≠ ev (headingErr (s.stepItem g i0 a w t).st e) := by
  intro hE
  have h := C135_defect s hs g i0 hq a w t e he
  dsimp only at h
  rw [hE, sub_self] at h
  have hu : (s.stepItem g i0 a w t).st.q.sqNorm = 1 := by
    show ((i0.st.q.mul (Utility.deltaQ (vscale (midGyro s.biasG i0.gyro w) (dt i0.ts t)))).normalized).sqNorm = 1
    refine Quat.sqNorm_normalized _ ?_
    rw [Quat.sqNorm_mul, hq, one_mul]
    exact deltaQ_pos _
  have n1 := sqNorm_rot _ (Quat.sqNorm_inverse_of_unit _ hq) e
  have n2 := sqNorm_rot _ (Quat.sqNorm_inverse_of_unit _ hu) e
  have c6 := congrFun h 6
  have c7 := congrFun h 7
  have c8 := congrFun h 8
  simp [ev, errToVec, setSeg3, Vec3.get, indexR, indexBA, indexBG] at c6 c7 c8
  generalize (s.stepItem g i0 a w t).st.q.inverse.rotate e = z at *
  generalize i0.st.q.inverse.rotate e = y at *
  generalize midGyro s.biasG i0.gyro w = m at *
  generalize (dt i0.ts t : ℝ) = d at *
  have key : d ^ 2 * (m.cross y).sqNorm = 0 := by
    have zx : z.x = y.x - d * (m.y * y.z - m.z * y.y) := by linarith
    have zy : z.y = y.y - d * (m.z * y.x - m.x * y.z) := by linarith
    have zz : z.z = y.z - d * (m.x * y.y - m.y * y.x) := by linarith
    have : z.sqNorm = y.sqNorm := by rw [n1, n2]
    simp only [Vec3.sqNorm, zx, zy, zz] at this
    simp only [Vec3.sqNorm, Vec3.cross]
    linear_combination this
  have h0 : (m.cross y).sqNorm = 0 := by
    rcases mul_eq_zero.1 key with h | h
    · exact absurd h (pow_ne_zero 2 hd)
    · exact h
  simp only [Vec3.sqNorm] at h0
  refine hw (Vec3.ext ?_ ?_ ?_)
  · exact mul_self_eq_zero.1 (by nlinarith [mul_self_nonneg (m.cross y).x, mul_self_nonneg (m.cross y).y, mul_self_nonneg (m.cross y).z])
  · exact mul_self_eq_zero.1 (by nlinarith [mul_self_nonneg (m.cross y).x, mul_self_nonneg (m.cross y).y, mul_self_nonneg (m.cross y).z])
  · exact mul_self_eq_zero.1 (by nlinarith [mul_self_nonneg (m.cross y).x, mul_self_nonneg (m.cross y).y, mul_self_nonneg (m.cross y).z])

/-- C135 is false of every step without rotation in which the velocity across the axis of gravity changes. -/
theorem C135_accelerating (s : PropQueue ℝ T) (hs : Clean s) (g : Vec3 ℝ) (i0 : PropItem ℝ T) (hq : i0.st.q.sqNorm = 1) (a w : Vec3 ℝ) (t : T) (e : Vec3 ℝ) (he : e.cross g = 0)
    (hw : midGyro s.biasG i0.gyro w = 0) (hd : (dt i0.ts t : ℝ) ≠ 0) (hv : e.cross (s.stepItem g i0 a w t).st.v ≠ e.cross i0.st.v) :
    ((s.stepF i0 a w t).toM 15 15).mulVec (ev (headingErr i0.st e)) ≠ ev (headingErr (s.stepItem g i0 a w t).st e) :=
  fun h => hv ((C135_partial s hs g i0 hq a w t e he hw hd).1 h)

/-- A level body at the origin that moves along the x axis. -/
noncomputable def level (a w : Vec3 ℝ) : PropItem ℝ ℝ := ⟨⟨0, ⟨1, 0, 0⟩, .one⟩, .zero 15 15, .zero 15 6, a, w, 0⟩

/-- Cases: steady motion carries the heading along, speeding up does not, nor does rolling. -/
example : let s : PropQueue ℝ ℝ := PropQueue.init ⟨0, 0, .one⟩
    let g : Vec3 ℝ := ⟨0, 0, 10⟩
    let e : Vec3 ℝ := ⟨0, 0, 1⟩
    ((s.stepF (level g 0) g 0 1).toM 15 15).mulVec (ev (headingErr (level g 0).st e)) = ev (headingErr (s.stepItem g (level g 0) g 0 1).st e) ∧
    ((s.stepF (level ⟨1, 0, 10⟩ 0) ⟨1, 0, 10⟩ 0 1).toM 15 15).mulVec (ev (headingErr (level ⟨1, 0, 10⟩ 0).st e)) ≠ ev (headingErr (s.stepItem g (level ⟨1, 0, 10⟩ 0) ⟨1, 0, 10⟩ 0 1).st e) ∧
    ((s.stepF (level g ⟨2, 0, 0⟩) g ⟨2, 0, 0⟩ 1).toM 15 15).mulVec (ev (headingErr (level g ⟨2, 0, 0⟩).st e)) ≠ ev (headingErr (s.stepItem g (level g ⟨2, 0, 0⟩) g ⟨2, 0, 0⟩ 1).st e) := by
  intro s g e
  have hs : Clean s := ⟨fun _ _ _ _ => rfl, fun _ _ => rfl⟩
  have hq : (Quat.one : Quat ℝ).sqNorm = 1 := by simp [Quat.sqNorm, Quat.one]
  have he : e.cross g = 0 := by apply Vec3.ext <;> simp [e, g]
  have hd : (dt (0 : ℝ) (1 : ℝ) : ℝ) = 1 := by show (1 : ℝ) - 0 = 1; norm_num
  have hd0 : (dt (0 : ℝ) (1 : ℝ) : ℝ) ≠ 0 := by rw [hd]; exact one_ne_zero
  have hw : midGyro s.biasG 0 0 = 0 := by apply Vec3.ext <;> simp [midGyro, s, PropQueue.init]
  have hdq : Utility.deltaQ (vscale (0 : Vec3 ℝ) 1) = .one := by apply Quat.ext <;> simp [Utility.deltaQ, vscale, Quat.one]
  have hv : ∀ a : Vec3 ℝ, (s.stepItem g (level a 0) a 0 1).st.v = ⟨1 + a.x, a.y, a.z - 10⟩ := by
    intro a
    show (⟨1, 0, 0⟩ : Vec3 ℝ) + vscale (Vec3.smul (lit (1/2)) ((Quat.one : Quat ℝ).rotate (a - s.biasA) +
      (((Quat.one : Quat ℝ).mul (Utility.deltaQ (vscale (midGyro s.biasG 0 0) (dt (0 : ℝ) 1)))).normalized).rotate (a - s.biasA)) - g) (dt (0 : ℝ) 1) = _
    rw [hw, hd, hdq, Quat.mul_one', Quat.normalized_of_unit _ hq, Quat.rotate_one]
    apply Vec3.ext <;> simp [vscale, g, s, PropQueue.init] <;> ring
  refine ⟨(C135_partial s hs g (level g 0) hq g 0 1 e he hw hd0).2 ?_, C135_accelerating s hs g (level _ 0) hq _ 0 1 e he hw hd0 ?_,
    C135_turning s hs g (level g ⟨2, 0, 0⟩) hq g ⟨2, 0, 0⟩ 1 e he ?_ hd0⟩
  · rw [hv]; apply Vec3.ext <;> simp [e, g, level]
  · rw [hv]; intro h; have := congrArg Vec3.y h; simp [e, level] at this
  · intro h
    have h := congrArg Vec3.y h
    have hi : (Quat.one : Quat ℝ).inverse = .one := by rw [Quat.inverse_of_unit _ hq]; apply Quat.ext <;> simp [Quat.one]
    simp only [level] at h
    rw [hi, Quat.rotate_one] at h
    simp [midGyro, e, s, PropQueue.init] at h

end Yaw
end Vio

/-
C32, second half: over reals with an absorbing "not a number" the propagation of finite data from unit attitudes stays finite, and computes exactly what it computes over
the reals.  So no division by zero happens anywhere in the queue, in any history.
-/
import Verif.Props.PropagatorNum

namespace Vio

open PropSpec PropQueue PReal

/-- A finite matrix. -/
def Mat3.emb (m : Mat3 ℝ) : Mat3 PReal := ⟨m.r0.emb, m.r1.emb, m.r2.emb⟩
/-- A finite dynamic matrix. -/
def DMat.emb (a : DMat ℝ) : DMat PReal := ⟨a.rows, a.cols, fun i j => .of (a.e i j)⟩
/-- A finite motion state. -/
def Motion.emb (m : Motion ℝ) : Motion PReal := ⟨m.p.emb, m.v.emb, m.q.emb⟩
/-- A finite item. -/
def PropItem.emb (i : PropItem ℝ ℝ) : PropItem PReal PReal := ⟨i.st.emb, i.imuCov.emb, i.imuEx.emb, i.accel.emb, i.gyro.emb, .of i.ts⟩
/-- A finite queue. -/
def PropQueue.emb (s : PropQueue ℝ ℝ) : PropQueue PReal PReal :=
  ⟨s.items.map PropItem.emb, s.exCamCov.emb, s.biasA.emb, s.biasG.emb, s.initState.emb, s.F.emb, s.G.emb, s.Q.emb⟩
/-- A finite event. -/
def POp.emb : POp ℝ ℝ → POp PReal PReal
  | .sample g a w t => .sample g.emb a.emb w.emb (.of t)
  | .reset t thr => .reset (.of t) (.of thr)
  | .reprop g => .reprop g.emb
  | .correct g st c e x ba bg => .correct g.emb st.emb c.emb e.emb x.emb ba.emb bg.emb

theorem Mat3.emb_get (m : Mat3 ℝ) (i j : Nat) : m.emb.get i j = .of (m.get i j) := by
  unfold Mat3.get Mat3.row Vec3.get
  split_ifs <;> rfl
theorem Mat3.emb_one : (Mat3.one : Mat3 PReal) = Mat3.emb .one := rfl
theorem Mat3.emb_smul (k : ℝ) (m : Mat3 ℝ) : Mat3.smul (.of k) m.emb = (Mat3.smul k m).emb := rfl
theorem Mat3.emb_sub (m n : Mat3 ℝ) : m.emb - n.emb = (m - n).emb := rfl
theorem Mat3.emb_neg (m : Mat3 ℝ) : -m.emb = (-m).emb := by
  show (⟨-m.r0.emb, -m.r1.emb, -m.r2.emb⟩ : Mat3 PReal) = _
  simp only [Vec3.emb_neg]
  rfl
theorem Mat3.emb_mul (m n : Mat3 ℝ) : m.emb.mul n.emb = (m.mul n).emb := rfl
theorem Utility.emb_skew (v : Vec3 ℝ) : Utility.skew v.emb = (Utility.skew v).emb := by
  unfold Utility.skew
  simp only [Vec3.emb, of_neg]
  rfl
theorem Quat.emb_toMat (q : Quat ℝ) : q.emb.toMat = q.toMat.emb := rfl

theorem DMat.emb_setBlock3 (a : DMat ℝ) (i j : Nat) (b : Mat3 ℝ) : a.emb.setBlock3 i j b.emb = (a.setBlock3 i j b).emb := by
  unfold DMat.setBlock3 DMat.emb
  simp only [DMat.mk.injEq, true_and]
  funext x y
  split_ifs
  · rw [Mat3.emb_get]
  · rfl
theorem emb_sumTo (n : Nat) (f : Nat → ℝ) : sumTo n (fun k => PReal.of (f k)) = .of (sumTo n f) := by
  induction n with
  | zero => rfl
  | succ n ih => rw [sumTo, sumTo, ih, of_add]
theorem DMat.emb_mulF (a b : DMat ℝ) : a.emb.mulF b.emb = (a.mulF b).emb := by
  unfold DMat.mulF DMat.emb
  simp only [DMat.mk.injEq, true_and]
  funext i j
  rw [← emb_sumTo]
  rfl
theorem DMat.emb_addF (a b : DMat ℝ) : a.emb.addF b.emb = (a.addF b).emb := rfl
theorem DMat.emb_transpose (a : DMat ℝ) : a.emb.transpose = a.transpose.emb := rfl
theorem DMat.emb_zero (r c : Nat) : (DMat.zero r c : DMat PReal) = (DMat.zero r c).emb := rfl
theorem DMat.emb_ident (n : Nat) : (DMat.ident n : DMat PReal) = (DMat.ident n).emb := by
  unfold DMat.ident DMat.emb
  simp only [DMat.mk.injEq, true_and]
  funext i j
  split_ifs <;> rfl

namespace PropQueue

theorem emb_fillF (F : DMat ℝ) (d : ℝ) (q : Quat ℝ) (ma mg : Vec3 ℝ) : fillF F.emb (.of d) q.emb ma.emb mg.emb = (fillF F d q ma mg).emb := by
  unfold fillF
  simp only [Mat3.emb_one, Quat.emb_toMat, Utility.emb_skew, of_neg, Mat3.emb_smul, Mat3.emb_sub, Mat3.emb_neg, Mat3.emb_mul, DMat.emb_setBlock3]

theorem emb_fillG (G : DMat ℝ) (d : ℝ) (q : Quat ℝ) : fillG G.emb (.of d) q.emb = (fillG G d q).emb := by
  unfold fillG
  simp only [Mat3.emb_one, Quat.emb_toMat, of_lit, of_mul, Mat3.emb_smul, DMat.emb_setBlock3]

theorem emb_dt (a b : ℝ) : (dt (PReal.of a) (PReal.of b) : PReal) = .of (dt a b) := rfl

theorem emb_midGyro (b u v : Vec3 ℝ) : midGyro b.emb u.emb v.emb = (midGyro b u v).emb := rfl
theorem emb_midAccel (b u v : Vec3 ℝ) : midAccel b.emb u.emb v.emb = (midAccel b u v).emb := rfl
theorem emb_vscale (v : Vec3 ℝ) (k : ℝ) : vscale v.emb (.of k) = (vscale v k).emb := rfl

theorem emb_nominal (s : PropQueue ℝ ℝ) (g : Vec3 ℝ) (i0 : PropItem ℝ ℝ) (a w : Vec3 ℝ) (t : ℝ) :
    s.emb.nominal g.emb i0.emb a.emb w.emb (.of t) = (s.nominal g i0 a w t).emb := by
  unfold nominal
  have e1 : Utility.deltaQ (vscale (midGyro s.emb.biasG i0.emb.gyro w.emb) (dt i0.emb.ts (PReal.of t))) =
      (Utility.deltaQ (vscale (midGyro s.biasG i0.gyro w) (dt i0.ts t))).emb := by
    rw [← Utility.emb_deltaQ, ← emb_vscale, ← emb_midGyro, ← emb_dt]
    rfl
  have e2 : i0.emb.st.q = i0.st.q.emb := rfl
  simp only [e1, e2, Quat.emb_mul, Quat.emb_normalized]
  generalize (i0.st.q.mul (Utility.deltaQ (vscale (midGyro s.biasG i0.gyro w) (dt i0.ts t)))).normalized = q1
  rfl

theorem emb_stepF (s : PropQueue ℝ ℝ) (i0 : PropItem ℝ ℝ) (a w : Vec3 ℝ) (t : ℝ) : s.emb.stepF i0.emb a.emb w.emb (.of t) = (s.stepF i0 a w t).emb := by
  unfold stepF
  rw [← emb_fillF, ← emb_midAccel, ← emb_midGyro, ← emb_dt]
  rfl
theorem emb_stepG (s : PropQueue ℝ ℝ) (i0 : PropItem ℝ ℝ) (t : ℝ) : s.emb.stepG i0.emb (.of t) = (s.stepG i0 t).emb := by
  unfold stepG
  rw [← emb_fillG, ← emb_dt]
  rfl

theorem emb_stepItem (s : PropQueue ℝ ℝ) (g : Vec3 ℝ) (i0 : PropItem ℝ ℝ) (a w : Vec3 ℝ) (t : ℝ) :
    s.emb.stepItem g.emb i0.emb a.emb w.emb (.of t) = (s.stepItem g i0 a w t).emb := by
  unfold stepItem
  dsimp only
  rw [emb_stepF, emb_stepG, emb_nominal]
  have e1 : i0.emb.imuCov = i0.imuCov.emb := rfl
  have e2 : i0.emb.imuEx = i0.imuEx.emb := rfl
  have e3 : s.emb.Q = s.Q.emb := rfl
  rw [e1, e2, e3, DMat.emb_transpose, DMat.emb_transpose, DMat.emb_mulF, DMat.emb_mulF, DMat.emb_mulF, DMat.emb_mulF, DMat.emb_mulF, DMat.emb_addF]
  rfl

theorem emb_propagate (s : PropQueue ℝ ℝ) (nExt : Nat) (g a w : Vec3 ℝ) (t : ℝ) :
    s.emb.propagate nExt g.emb a.emb w.emb (.of t) = (s.propagate nExt g a w t).emb := by
  unfold propagate
  have e : s.emb.items.getLast? = s.items.getLast?.map PropItem.emb := by simp [emb]
  rw [e]
  cases hl : s.items.getLast? with
  | none => simp only [Option.map_none, DMat.emb_ident, DMat.emb_zero]; rfl
  | some i0 =>
    simp only [Option.map_some, emb_stepItem, emb_stepF, emb_stepG]
    simp [emb]

theorem emb_repropLoop (g : Vec3 ℝ) (s : PropQueue ℝ ℝ) (i0 : PropItem ℝ ℝ) (rest : List (PropItem ℝ ℝ)) :
    repropLoop g.emb s.emb i0.emb (rest.map PropItem.emb) = ((repropLoop g s i0 rest).1.emb, (repropLoop g s i0 rest).2.map PropItem.emb) := by
  induction rest generalizing s i0 with
  | nil => rfl
  | cons i1 rest ih =>
    simp only [List.map_cons, repropLoop]
    have e1 := emb_stepItem s g i0 i1.accel i1.gyro i1.ts
    have e2 := ih { s with F := s.stepF i0 i1.accel i1.gyro i1.ts, G := s.stepG i0 i1.ts } (s.stepItem g i0 i1.accel i1.gyro i1.ts)
    have e3 : ({ s.emb with F := s.emb.stepF i0.emb i1.emb.accel i1.emb.gyro i1.emb.ts, G := s.emb.stepG i0.emb i1.emb.ts } : PropQueue PReal PReal) =
        ({ s with F := s.stepF i0 i1.accel i1.gyro i1.ts, G := s.stepG i0 i1.ts } : PropQueue ℝ ℝ).emb := by
      have k1 : s.emb.stepF i0.emb i1.emb.accel i1.emb.gyro i1.emb.ts = (s.stepF i0 i1.accel i1.gyro i1.ts).emb := emb_stepF s i0 _ _ _
      have k2 : s.emb.stepG i0.emb i1.emb.ts = (s.stepG i0 i1.ts).emb := emb_stepG s i0 _
      rw [k1, k2]
      rfl
    have e4 : s.emb.stepItem g.emb i0.emb i1.emb.accel i1.emb.gyro i1.emb.ts = (s.stepItem g i0 i1.accel i1.gyro i1.ts).emb := e1
    rw [e3, e4, e2]

theorem emb_repropagate (s : PropQueue ℝ ℝ) (g : Vec3 ℝ) : s.emb.repropagate g.emb = (s.repropagate g).emb := by
  unfold repropagate
  cases hl : s.items with
  | nil =>
    have : s.emb.items = [] := by simp [emb, hl]
    simp only [this]
  | cons i0 rest =>
    have : s.emb.items = i0.emb :: rest.map PropItem.emb := by simp [emb, hl]
    simp only [this, emb_repropLoop]
    rfl

theorem emb_resetLoop (t thr : ℝ) (l : List (PropItem ℝ ℝ)) :
    resetLoop (PReal.of t) (PReal.of thr) (l.map PropItem.emb) = (resetLoop t thr l).map PropItem.emb := by
  induction l with
  | nil => rfl
  | cons i l ih =>
    simp only [List.map_cons, resetLoop]
    have : TimeOps.lt (PReal.of thr) (TimeOps.sub (PReal.of t) i.emb.ts) = TimeOps.lt thr (TimeOps.sub t i.ts) := rfl
    rw [this]
    split
    · exact ih
    · rfl

theorem emb_resetOrigin (s : PropQueue ℝ ℝ) (t thr : ℝ) : (s.emb.resetOrigin (.of t) (.of thr)).1 = (s.resetOrigin t thr).1.emb := by
  unfold resetOrigin
  have e1 : s.emb.items = s.items.map PropItem.emb := rfl
  rw [e1, List.isEmpty_map]
  split
  · rfl
  · simp only [emb_resetLoop]
    rfl

end PropQueue

/-- Propagation of finite data is finite and equal to real arithmetic, through all histories; unit attitudes are not even needed. -/
theorem C32_finite (nExt : Nat) (s : PropQueue ℝ ℝ) (ops : List (POp ℝ ℝ)) : run nExt s.emb (ops.map POp.emb) = (run nExt s ops).emb := by
  induction ops generalizing s with
  | nil => rfl
  | cons op ops ih =>
    have : step nExt s.emb op.emb = (step nExt s op).emb := by
      cases op with
      | sample g a w t => exact emb_propagate s nExt g a w t
      | reset t thr => exact emb_resetOrigin s t thr
      | reprop g => exact emb_repropagate s g
      | correct g st c e x ba bg =>
        simp only [POp.emb, step]
        rw [← emb_repropagate]
        congr 1
        unfold correct
        cases hl : s.items with
        | nil =>
          have : s.emb.items = [] := by simp [PropQueue.emb, hl]
          simp only [this]
        | cons i0 rest =>
          have : s.emb.items = i0.emb :: rest.map PropItem.emb := by simp [PropQueue.emb, hl]
          simp only [this]
          rfl
    show run nExt (step nExt s.emb op.emb) (ops.map POp.emb) = (run nExt (step nExt s op) ops).emb
    rw [this]
    exact ih _

end Vio

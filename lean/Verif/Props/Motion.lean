/-
C87, C88: the nominal propagation is exact for uniformly accelerated motion, and commutes with the changes of world frame that keep gravity.
-/
import Verif.Props.PropagatorNum
import Verif.Props.Reckon
import Verif.Lemmas.ErrMap

set_option linter.unusedSectionVars false

namespace Vio
open PropSpec PropQueue
namespace PropQueue

variable {T : Type} [TimeOps T] [TimeCast T ℝ]

/-! ### C87 -/

theorem nominal_uniform (s : PropQueue ℝ T) (g a : Vec3 ℝ) (i0 : PropItem ℝ T) (t : T) (h : i0.st.q.sqNorm = 1)
    (ha : i0.accel = restAccel i0.st.q (g + a) s.biasA) (hg : i0.gyro = s.biasG) :
    s.nominal g i0 (restAccel i0.st.q (g + a) s.biasA) s.biasG t =
      ⟨i0.st.p + Vec3.smul (dt i0.ts t) i0.st.v + Vec3.smul (1 / 2 * dt i0.ts t ^ 2) a, i0.st.v + Vec3.smul (dt i0.ts t) a, i0.st.q⟩ := by
  have hdq : Utility.deltaQ (vscale (midGyro s.biasG i0.gyro s.biasG) (dt i0.ts t)) = (Quat.one : Quat ℝ) := by
    rw [hg]
    have : midGyro s.biasG s.biasG s.biasG = 0 := by
      unfold midGyro; apply Vec3.ext <;> simp <;> ring
    rw [this]
    apply Quat.ext <;> simp [Utility.deltaQ, vscale, Quat.one]
  unfold nominal
  simp only [hdq, Quat.mul_one', Quat.normalized_of_unit _ h, ha, rotate_restAccel _ h]
  congr 1 <;> apply Vec3.ext <;> simp only [vscale, Vec3.add_x, Vec3.add_y, Vec3.add_z, Vec3.sub_x, Vec3.sub_y, Vec3.sub_z, Vec3.smul_x, Vec3.smul_y, Vec3.smul_z,
      ScalarFn.lit_real] <;> push_cast <;> ring

/-- C87.  A body that does not turn and whose acceleration in the world frame is constant: after any number of samples, at any times and with any biases, position and velocity are exactly those
of the equations of motion. -/
theorem C87_uniform (nExt : Nat) (s : PropQueue ℝ T) (g a : Vec3 ℝ) (i0 : PropItem ℝ T) (hl : s.items.getLast? = some i0) (h : i0.st.q.sqNorm = 1)
    (ha : i0.accel = restAccel i0.st.q (g + a) s.biasA) (hg : i0.gyro = s.biasG) (ts : List T) :
    ∃ it, (ts.foldl (fun s t => s.propagate nExt g (restAccel i0.st.q (g + a) s.biasA) s.biasG t) s).items.getLast? = some it ∧
      it.st.q = i0.st.q ∧ it.st.v = i0.st.v + Vec3.smul (elapsed i0.ts ts) a ∧
      it.st.p = i0.st.p + Vec3.smul (elapsed i0.ts ts) i0.st.v + Vec3.smul (1 / 2 * elapsed i0.ts ts ^ 2) a := by
  induction ts generalizing s i0 with
  | nil => exact ⟨i0, hl, rfl, by apply Vec3.ext <;> simp [elapsed], by apply Vec3.ext <;> simp [elapsed]⟩
  | cons t ts ih =>
    rw [List.foldl_cons]
    have e : (s.propagate nExt g (restAccel i0.st.q (g + a) s.biasA) s.biasG t).items.getLast? = some (s.stepItem g i0 (restAccel i0.st.q (g + a) s.biasA) s.biasG t) := by
      simp [propagate, hl]
    have eb : (s.propagate nExt g (restAccel i0.st.q (g + a) s.biasA) s.biasG t).biasA = s.biasA ∧
        (s.propagate nExt g (restAccel i0.st.q (g + a) s.biasA) s.biasG t).biasG = s.biasG := by simp [propagate, hl]
    have en := nominal_uniform s g a i0 t h ha hg
    change (s.stepItem g i0 (restAccel i0.st.q (g + a) s.biasA) s.biasG t).st = _ at en
    obtain ⟨it, h1, h2, h3, h4⟩ := ih (s.propagate nExt g (restAccel i0.st.q (g + a) s.biasA) s.biasG t) _ e (by rw [en]; exact h)
      (by rw [en, eb.1]; rfl) (by rw [eb.2]; rfl)
    rw [en] at h1 h2 h3 h4
    have ht : (s.stepItem g i0 (restAccel i0.st.q (g + a) s.biasA) s.biasG t).ts = t := rfl
    rw [ht] at h3 h4
    refine ⟨it, h1, h2, ?_, ?_⟩
    · rw [h3]
      apply Vec3.ext <;> simp [elapsed, dt] <;> ring
    · rw [h4]
      apply Vec3.ext <;> simp [elapsed, dt] <;> ring

/-- C87 from an empty queue, in which the first sample only places the initial state. -/
theorem C87_from_empty (nExt : Nat) (s : PropQueue ℝ T) (g a : Vec3 ℝ) (hl : s.items = []) (h : s.initState.q.sqNorm = 1) (t : T) (ts : List T) :
    ∃ it, (ts.foldl (fun s' t => s'.propagate nExt g (restAccel s.initState.q (g + a) s'.biasA) s'.biasG t)
        (s.propagate nExt g (restAccel s.initState.q (g + a) s.biasA) s.biasG t)).items.getLast? = some it ∧
      it.st.q = s.initState.q ∧ it.st.v = s.initState.v + Vec3.smul (elapsed t ts) a ∧
      it.st.p = s.initState.p + Vec3.smul (elapsed t ts) s.initState.v + Vec3.smul (1 / 2 * elapsed t ts ^ 2) a := by
  let i0 : PropItem ℝ T := ⟨s.initState, .zero imuStateSize imuStateSize, .zero imuStateSize (nExt * 6 + 6), restAccel s.initState.q (g + a) s.biasA, s.biasG, t⟩
  have e : (s.propagate nExt g (restAccel s.initState.q (g + a) s.biasA) s.biasG t).items.getLast? = some i0 := by simp [propagate, hl, i0]
  have eb : (s.propagate nExt g (restAccel s.initState.q (g + a) s.biasA) s.biasG t).biasA = s.biasA ∧
    (s.propagate nExt g (restAccel s.initState.q (g + a) s.biasA) s.biasG t).biasG = s.biasG := by simp [propagate, hl]
  exact C87_uniform nExt _ g a i0 e h (by rw [eb.1]) (by rw [eb.2]) ts

/-- C87: falling from rest for two steps of different length. -/
example : ∃ it, ((PropQueue.init ⟨0, 0, .one⟩ : PropQueue ℝ ℝ).propagate 1 ⟨0, 0, 10⟩ (restAccel .one (⟨0, 0, 10⟩ + ⟨0, 0, -10⟩) 0) 0 0 |>.propagate 1 ⟨0, 0, 10⟩
      (restAccel .one (⟨0, 0, 10⟩ + ⟨0, 0, -10⟩) 0) 0 1 |>.propagate 1 ⟨0, 0, 10⟩ (restAccel .one (⟨0, 0, 10⟩ + ⟨0, 0, -10⟩) 0) 0 3).items.getLast? = some it ∧
    it.st.v = ⟨0, 0, -30⟩ ∧ it.st.p = ⟨0, 0, -45⟩ := by
  obtain ⟨it, h1, -, h2, h3⟩ := C87_from_empty 1 (PropQueue.init ⟨0, 0, .one⟩ : PropQueue ℝ ℝ) ⟨0, 0, 10⟩ ⟨0, 0, -10⟩ rfl (by simp [PropQueue.init, Quat.one, Quat.sqNorm]) 0 [1, 3]
  refine ⟨it, h1, ?_, ?_⟩
  · rw [h2]; apply Vec3.ext <;> simp [PropQueue.init, elapsed, TimeOps.sub] <;> norm_num
  · rw [h3]; apply Vec3.ext <;> simp [PropQueue.init, elapsed, TimeOps.sub] <;> norm_num

end PropQueue

/-! ### C88 -/

namespace Reckon

variable {T : Type} [TimeOps T] [TimeCast T ℝ]

/-- A change of world frame: turn by `r`, shift by `c`, and let the origin move with velocity `u`. -/
noncomputable def move (r : Quat ℝ) (c u : Vec3 ℝ) (m : Motion ℝ) : Motion ℝ := ⟨r.rotate m.p + c, r.rotate m.v + u, r.mul m.q⟩

/-- The time from the first sample to the last. -/
noncomputable def span : Sample ℝ T → List (Sample ℝ T) → ℝ
  | _, [] => 0
  | s0, s1 :: rest => gap s0 s1 + span s1 rest

theorem rotate_during (r : Quat ℝ) (v : Vec3 ℝ) (d : ℝ) : r.rotate (during v d) = during (r.rotate v) d := by
  have h : ∀ v : Vec3 ℝ, during v d = Vec3.smul d v := fun v => by apply Vec3.ext <;> simp [during, mul_comm]
  rw [h, h, Quat.rotate_smul]

theorem rotate_half (r : Quat ℝ) (v : Vec3 ℝ) : r.rotate (half v) = half (r.rotate v) := Quat.rotate_smul r _ v

theorem step_unit (g ba bg : Vec3 ℝ) (m : Motion ℝ) (s0 s1 : Sample ℝ T) (h : m.q.sqNorm = 1) : (step g ba bg m s0 s1).q.sqNorm = 1 := by
  refine Quat.sqNorm_normalized _ ?_
  rw [Quat.sqNorm_mul, h, one_mul]
  exact lt_of_lt_of_le one_pos (Quat.sqNorm_deltaQ_pos _)

theorem step_move (r : Quat ℝ) (hr : r.sqNorm = 1) (c u g ba bg : Vec3 ℝ) (hg : r.rotate g = g) (m : Motion ℝ) (hm : m.q.sqNorm = 1) (s0 s1 : Sample ℝ T) :
    step g ba bg (move r c u m) s0 s1 = move r (c + during u (gap s0 s1)) u (step g ba bg m s0 s1) := by
  have hu := step_unit g ba bg m s0 s1 hm
  have hq : (step g ba bg (move r c u m) s0 s1).q = r.mul (step g ba bg m s0 s1).q := by
    show (((r.mul m.q).mul _).normalized) = r.mul (Quat.normalized _)
    rw [Quat.mul_assoc']
    refine _root_.Vio.unit_mul_normalized r _ hr ?_
    rw [Quat.sqNorm_mul, hm, one_mul]
    exact lt_of_lt_of_le one_pos (Quat.sqNorm_deltaQ_pos _)
  have hv : (step g ba bg (move r c u m) s0 s1).v = r.rotate (step g ba bg m s0 s1).v + u := by
    show (r.rotate m.v + u) + during (half ((r.mul m.q).rotate (s0.1 - ba) + (step g ba bg (move r c u m) s0 s1).q.rotate (s1.1 - ba)) - g) (gap s0 s1) =
      r.rotate (m.v + during (half (m.q.rotate (s0.1 - ba) + (step g ba bg m s0 s1).q.rotate (s1.1 - ba)) - g) (gap s0 s1)) + u
    rw [hq, Quat.rotate_mul r _ hr hm, Quat.rotate_mul r _ hr hu, ← Quat.rotate_add, ← rotate_half, Quat.rotate_add r m.v, rotate_during, Quat.rotate_sub r (half _), hg]
    apply Vec3.ext <;> simp <;> ring
  have hp : (step g ba bg (move r c u m) s0 s1).p = r.rotate (step g ba bg m s0 s1).p + (c + during u (gap s0 s1)) := by
    show (r.rotate m.p + c) + during (half ((r.rotate m.v + u) + (step g ba bg (move r c u m) s0 s1).v)) (gap s0 s1) =
      r.rotate (m.p + during (half (m.v + (step g ba bg m s0 s1).v)) (gap s0 s1)) + (c + during u (gap s0 s1))
    rw [hv, Quat.rotate_add r m.p, rotate_during, rotate_half, Quat.rotate_add]
    apply Vec3.ext <;> simp [during, half] <;> ring
  show (⟨_, _, _⟩ : Motion ℝ) = ⟨_, _, _⟩
  congr 1

/-- C88 for dead reckoning: turning the world frame about gravity, shifting it, or letting it move with constant velocity changes the result of any sequence of samples in the same way. -/
theorem C88_along (r : Quat ℝ) (hr : r.sqNorm = 1) (u g ba bg : Vec3 ℝ) (hg : r.rotate g = g) (rest : List (Sample ℝ T)) : ∀ (c : Vec3 ℝ) (m : Motion ℝ) (s0 : Sample ℝ T), m.q.sqNorm = 1 →
    along g ba bg (move r c u m) s0 rest = move r (c + during u (span s0 rest)) u (along g ba bg m s0 rest) := by
  induction rest with
  | nil =>
    intro c m s0 _
    show move r c u m = move r (c + during u 0) u m
    have : c + during u 0 = c := by apply Vec3.ext <;> simp [during]
    rw [this]
  | cons s1 rest ih =>
    intro c m s0 hm
    show along g ba bg (step g ba bg (move r c u m) s0 s1) s1 rest = move r _ u (along g ba bg (step g ba bg m s0 s1) s1 rest)
    rw [step_move r hr c u g ba bg hg m hm, ih _ _ _ (step_unit g ba bg m s0 s1 hm)]
    congr 1
    apply Vec3.ext <;> simp [during, span] <;> ring

end Reckon

/-! ### C88, the whole queue -/

section Queue
open Matrix Reckon
variable {T : Type} [TimeOps T] [TimeCast T ℝ]

/-- An item in the turned and shifted world: same sample, moved state, covariance turned in position and velocity; `N n` is the corresponding change of the `n` pose components. -/
structure ItemMoved (r : Quat ℝ) (c : Vec3 ℝ) (N : ∀ n, Matrix (Fin n) (Fin n) ℝ) (i i' : PropItem ℝ T) : Prop where
  st : i'.st = move r c 0 i.st
  unit : i.st.q.sqNorm = 1
  accel : i'.accel = i.accel
  gyro : i'.gyro = i.gyro
  ts : i'.ts = i.ts
  cols : i.imuCov.cols = 15
  cols' : i'.imuCov.cols = 15
  cov : i'.imuCov.toM 15 15 = turnM r * i.imuCov.toM 15 15 * (turnM r)ᵀ
  exCols : i'.imuEx.cols = i.imuEx.cols
  ex : i'.imuEx.toM 15 i.imuEx.cols = turnM r * i.imuEx.toM 15 i.imuEx.cols * (N i.imuEx.cols)ᵀ

/-- Two covariances of the poses that belong to each other. -/
structure PoseCovMoved (N : ∀ n, Matrix (Fin n) (Fin n) ℝ) (x x' : DMat ℝ) : Prop where
  rows : x'.rows = x.rows
  cov : x'.toM x.rows x.rows = N x.rows * x.toM x.rows x.rows * (N x.rows)ᵀ

/-- Two queues that belong to each other. -/
structure QueueMoved (r : Quat ℝ) (c : Vec3 ℝ) (N : ∀ n, Matrix (Fin n) (Fin n) ℝ) (s s' : PropQueue ℝ T) : Prop where
  items : List.Forall₂ (ItemMoved r c N) s.items s'.items
  biasA : s'.biasA = s.biasA
  biasG : s'.biasG = s.biasG
  init : s'.initState = move r c 0 s.initState
  unit : s.initState.q.sqNorm = 1
  noise : s'.Q = s.Q
  noiseCols : s.Q.cols = 12
  exCam : PoseCovMoved N s.exCamCov s'.exCamCov
  clean : Clean s
  clean' : Clean s'

/-- Two events that belong to each other.  A correction may be any, as long as both worlds get the same one. -/
inductive OpMoved (r : Quat ℝ) (c : Vec3 ℝ) (N : ∀ n, Matrix (Fin n) (Fin n) ℝ) : POp ℝ T → POp ℝ T → Prop
  | sample (g a w : Vec3 ℝ) (t : T) (hg : r.rotate g = g) : OpMoved r c N (.sample g a w t) (.sample g a w t)
  | reset (t thr : T) : OpMoved r c N (.reset t thr) (.reset t thr)
  | reprop (g : Vec3 ℝ) (hg : r.rotate g = g) : OpMoved r c N (.reprop g) (.reprop g)
  | correct (g : Vec3 ℝ) (hg : r.rotate g = g) (st st' : Motion ℝ) (p p' e e' x x' : DMat ℝ) (ba bg : Vec3 ℝ)
      (hi : ∀ a w t, ItemMoved r c N (⟨st, p, e, a, w, t⟩ : PropItem ℝ T) ⟨st', p', e', a, w, t⟩) (hx : PoseCovMoved N x x') :
      OpMoved r c N (.correct g st p e x ba bg) (.correct g st' p' e' x' ba bg)

theorem clean_stepF (s : PropQueue ℝ T) (h : Clean s) (i : PropItem ℝ T) (a w : Vec3 ℝ) (t : T) :
    (s.stepF i a w t).toM 15 15 = fM (dt i.ts t) i.st.q.toMat (midAccel s.biasA i.accel a) (midGyro s.biasG i.gyro w) ∧ (s.stepF i a w t).cols = 15 := by
  unfold stepF
  rw [h.1]
  refine ⟨?_, rfl⟩
  ext x y
  exact fillF_ident _ _ _ _ _ _ x.2 y.2

theorem clean_stepG (s : PropQueue ℝ T) (h : Clean s) (i : PropItem ℝ T) (t : T) :
    (s.stepG i t).toM 15 12 = gM (dt i.ts t) i.st.q.toMat ∧ (s.stepG i t).cols = 12 := by
  unfold stepG
  rw [h.2]
  refine ⟨?_, rfl⟩
  ext x y
  exact fillG_zero _ _ _ _ x.2 y.2

theorem clean_rows (s : PropQueue ℝ T) (h : Clean s) (i : PropItem ℝ T) (a w : Vec3 ℝ) (t : T) : (s.stepF i a w t).rows = 15 := by
  unfold stepF
  rw [h.1]; rfl

/-- One step. -/
theorem stepItem_moved (r : Quat ℝ) (hr : r.sqNorm = 1) (c : Vec3 ℝ) (N : ∀ n, Matrix (Fin n) (Fin n) ℝ) (s s' : PropQueue ℝ T) (hs : Clean s) (hs' : Clean s') (ha : s'.biasA = s.biasA)
    (hg : s'.biasG = s.biasG) (hQ : s'.Q = s.Q) (hc : s.Q.cols = 12) (g : Vec3 ℝ) (hgr : r.rotate g = g) (i i' : PropItem ℝ T) (hi : ItemMoved r c N i i') (a w : Vec3 ℝ) (t : T) :
    ItemMoved r c N (s.stepItem g i a w t) (s'.stepItem g i' a w t) := by
  have hst : ∀ (s : PropQueue ℝ T) (i : PropItem ℝ T), (s.stepItem g i a w t).st = Reckon.step g s.biasA s.biasG i.st (i.accel, i.gyro, i.ts) (a, w, t) := fun _ _ => rfl
  have hq' : i'.st.q = r.mul i.st.q := by rw [hi.st]; rfl
  obtain ⟨f1, f2⟩ := clean_stepF s hs i a w t
  obtain ⟨f1', f2'⟩ := clean_stepF s' hs' i' a w t
  obtain ⟨g1, g2⟩ := clean_stepG s hs i t
  obtain ⟨g1', g2'⟩ := clean_stepG s' hs' i' t
  rw [hq', ha, hg, hi.accel, hi.gyro, hi.ts] at f1'
  rw [hq', hi.ts, gM_turn r _ hr hi.unit, ← g1] at g1'
  have hF := fM_turn r i.st.q hr hi.unit (dt i.ts t) (midAccel s.biasA i.accel a) (midGyro s.biasG i.gyro w)
  rw [← f1, ← f1'] at hF
  have e1 : ∀ (s : PropQueue ℝ T) (i : PropItem ℝ T), i.imuCov.cols = 15 → (s.stepF i a w t).cols = 15 → (s.stepG i t).cols = 12 → s.Q.cols = 12 → (s.stepItem g i a w t).imuCov.toM 15 15 =
      (s.stepF i a w t).toM 15 15 * i.imuCov.toM 15 15 * ((s.stepF i a w t).toM 15 15)ᵀ + (s.stepG i t).toM 15 12 * s.Q.toM 12 12 * ((s.stepG i t).toM 15 12)ᵀ := by
    intro s i h1 h2 h3 h4
    simp only [stepItem, DMat.toM_addF]
    rw [DMat.toM_mulF _ _ 15 15 15 (by exact h1), DMat.toM_mulF _ _ 15 15 15 h2, DMat.toM_transpose,
      DMat.toM_mulF _ _ 15 12 15 (by exact h4), DMat.toM_mulF _ _ 15 12 12 h3, DMat.toM_transpose]
  have e2 : ∀ (s : PropQueue ℝ T) (i : PropItem ℝ T) (n : Nat), (s.stepF i a w t).cols = 15 → (s.stepItem g i a w t).imuEx.toM 15 n = (s.stepF i a w t).toM 15 15 * i.imuEx.toM 15 n := by
    intro s i n h2
    simp only [stepItem]
    rw [DMat.toM_mulF _ _ 15 15 _ h2]
  have hcols : (s.stepItem g i a w t).imuEx.cols = i.imuEx.cols := rfl
  have hcols' : (s'.stepItem g i' a w t).imuEx.cols = i'.imuEx.cols := rfl
  refine ⟨?_, ?_, rfl, rfl, rfl, clean_rows s hs i a w t, clean_rows s' hs' i' a w t, ?_, ?_, ?_⟩
  · rw [hst, hst, hi.st, hi.accel, hi.gyro, hi.ts, ha, hg, step_move r hr c 0 g _ _ hgr _ hi.unit]
    congr 1
    apply Vec3.ext <;> simp [during]
  · rw [hst]; exact Reckon.step_unit _ _ _ _ _ _ hi.unit
  · rw [e1 s i hi.cols f2 g2 hc, e1 s' i' hi.cols' f2' g2' (by rw [hQ]; exact hc), hi.cov, hQ, g1']
    have h3 : (turnM r)ᵀ * ((s'.stepF i' a w t).toM 15 15)ᵀ = ((s.stepF i a w t).toM 15 15)ᵀ * (turnM r)ᵀ := by rw [← Matrix.transpose_mul, ← Matrix.transpose_mul, hF]
    rw [Matrix.mul_add, Matrix.add_mul, Matrix.transpose_mul]
    congr 1
    · calc _ = ((s'.stepF i' a w t).toM 15 15 * turnM r) * i.imuCov.toM 15 15 * ((turnM r)ᵀ * ((s'.stepF i' a w t).toM 15 15)ᵀ) := by simp only [Matrix.mul_assoc]
        _ = _ := by rw [hF, h3]; simp only [Matrix.mul_assoc]
    · simp only [Matrix.mul_assoc]
  · rw [hcols, hcols', hi.exCols]
  · rw [hcols, e2 s i _ f2, e2 s' i' _ f2', hi.ex, ← Matrix.mul_assoc, ← Matrix.mul_assoc, hF]
    simp only [Matrix.mul_assoc]

theorem repropLoop_moved (r : Quat ℝ) (hr : r.sqNorm = 1) (c : Vec3 ℝ) (N : ∀ n, Matrix (Fin n) (Fin n) ℝ) (g : Vec3 ℝ) (hgr : r.rotate g = g) (rest : List (PropItem ℝ T)) :
    ∀ (rest' : List (PropItem ℝ T)) (s s' : PropQueue ℝ T) (i i' : PropItem ℝ T), Clean s → Clean s' → s'.biasA = s.biasA → s'.biasG = s.biasG → s'.Q = s.Q → s.Q.cols = 12 →
      ItemMoved r c N i i' → List.Forall₂ (ItemMoved r c N) rest rest' → List.Forall₂ (ItemMoved r c N) (repropLoop g s i rest).2 (repropLoop g s' i' rest').2 := by
  induction rest with
  | nil => intro rest' s s' i i' _ _ _ _ _ _ _ h; cases h; exact .nil
  | cons j rest ih =>
    intro rest' s s' i i' hs hs' ha hg hQ hc hi h
    cases h with
    | cons hj hrest =>
      rename_i j' rest'
      have hk := stepItem_moved r hr c N s s' hs hs' ha hg hQ hc g hgr i i' hi j.accel j.gyro j.ts
      rw [repropLoop, repropLoop, hj.accel, hj.gyro, hj.ts]
      exact .cons hk (ih rest' _ _ _ _ (clean_fill s _ hs _ _ _ _ _ _ rfl rfl) (clean_fill s' _ hs' _ _ _ _ _ _ rfl rfl) ha hg hQ hc hk hrest)

theorem repropagate_moved (r : Quat ℝ) (hr : r.sqNorm = 1) (c : Vec3 ℝ) (N : ∀ n, Matrix (Fin n) (Fin n) ℝ) (g : Vec3 ℝ) (hgr : r.rotate g = g) (s s' : PropQueue ℝ T)
    (h : QueueMoved r c N s s') : QueueMoved r c N (s.repropagate g) (s'.repropagate g) := by
  have hcl : Clean (s.repropagate g) ∧ Clean (s'.repropagate g) := ⟨clean_step 0 s (.reprop g) h.clean, clean_step 0 s' (.reprop g) h.clean'⟩
  obtain ⟨k1, k2, k3, k5, k4⟩ := C36_frame s g
  obtain ⟨k1', k2', k3', k5', k4'⟩ := C36_frame s' g
  refine ⟨?_, by rw [k2, k2', h.biasA], by rw [k3, k3', h.biasG], by rw [k5, k5', h.init], by rw [k5]; exact h.unit, by rw [k4, k4', h.noise], by rw [k4]; exact h.noiseCols,
    by rw [k1, k1']; exact h.exCam, hcl.1, hcl.2⟩
  have hi := h.items
  cases hl : s.items with
  | nil =>
    rw [hl] at hi
    have hl' : s'.items = [] := by cases h' : s'.items with
      | nil => rfl
      | cons a b => rw [h'] at hi; cases hi
    simp [repropagate, hl, hl']
  | cons i rest =>
    rw [hl] at hi
    cases hl' : s'.items with
    | nil => rw [hl'] at hi; cases hi
    | cons i' rest' =>
      rw [hl'] at hi
      cases hi with
      | cons a b =>
        simp only [repropagate, hl, hl']
        exact .cons a (repropLoop_moved r hr c N g hgr _ _ _ _ _ _ h.clean h.clean' h.biasA h.biasG h.noise h.noiseCols a b)

theorem resetLoop_moved (r : Quat ℝ) (c : Vec3 ℝ) (N : ∀ n, Matrix (Fin n) (Fin n) ℝ) (t thr : T) (l l' : List (PropItem ℝ T)) (h : List.Forall₂ (ItemMoved r c N) l l') :
    List.Forall₂ (ItemMoved r c N) (resetLoop t thr l) (resetLoop t thr l') := by
  induction h with
  | nil => exact .nil
  | cons a b ih =>
    rw [resetLoop, resetLoop, a.ts]
    split
    · exact ih
    · exact .cons a b

theorem zero_moved (m n : Nat) (A : Matrix (Fin m) (Fin m) ℝ) (B : Matrix (Fin n) (Fin n) ℝ) : (DMat.zero m n : DMat ℝ).toM m n = A * (DMat.zero m n : DMat ℝ).toM m n * B := by
  rw [DMat.toM_zero, Matrix.mul_zero, Matrix.zero_mul]

theorem forall₂_last {α β : Type} {R : α → β → Prop} {l : List α} {l' : List β} (h : List.Forall₂ R l l') : ∀ a, l.getLast? = some a → ∃ b, l'.getLast? = some b ∧ R a b := by
  induction h with
  | nil => intro a h; cases h
  | cons hr hf ih =>
    intro a ha
    cases hf with
    | nil => cases ha; exact ⟨_, rfl, hr⟩
    | cons h1 h2 =>
      rw [List.getLast?_cons_cons] at ha
      obtain ⟨b, hb, hab⟩ := ih a ha
      exact ⟨b, by rw [List.getLast?_cons_cons]; exact hb, hab⟩

theorem step_moved (r : Quat ℝ) (hr : r.sqNorm = 1) (c : Vec3 ℝ) (N : ∀ n, Matrix (Fin n) (Fin n) ℝ) (nExt : Nat) (op op' : POp ℝ T) (ho : OpMoved r c N op op') (s s' : PropQueue ℝ T)
    (h : QueueMoved r c N s s') : QueueMoved r c N (PropSpec.step nExt s op) (PropSpec.step nExt s' op') := by
  have hc := clean_step nExt s op h.clean
  have hc' := clean_step nExt s' op' h.clean'
  cases ho with
  | sample g a w t hg =>
    rcases List.eq_nil_or_concat s.items with hl | ⟨l, i, hl⟩
    · have hl' : s'.items = [] := by
        have := h.items.length_eq
        rw [hl] at this
        exact List.length_eq_zero_iff.1 this.symm
      refine ⟨?_, ?_, ?_, ?_, ?_, ?_, ?_, ?_, hc, hc'⟩ <;> simp only [PropSpec.step, propagate, hl, hl', List.getLast?_nil]
      · refine .cons ⟨h.init, h.unit, rfl, rfl, rfl, rfl, rfl, ?_, rfl, ?_⟩ .nil
        · exact zero_moved _ _ _ _
        · exact zero_moved _ _ _ _
      · exact h.biasA
      · exact h.biasG
      · exact h.init
      · exact h.unit
      · exact h.noise
      · exact h.noiseCols
      · exact ⟨rfl, zero_moved _ _ _ _⟩
    · rw [List.concat_eq_append] at hl
      have g1 : s.items.getLast? = some i := by rw [hl]; simp
      obtain ⟨i', g2, hi'⟩ := forall₂_last h.items i g1
      · refine ⟨?_, ?_, ?_, ?_, ?_, ?_, ?_, ?_, hc, hc'⟩ <;> simp only [PropSpec.step, propagate, g1, g2]
        · exact List.rel_append h.items (.cons (stepItem_moved r hr c N s s' h.clean h.clean' h.biasA h.biasG h.noise h.noiseCols g hg i i' hi' a w t) .nil)
        · exact h.biasA
        · exact h.biasG
        · exact h.init
        · exact h.unit
        · exact h.noise
        · exact h.noiseCols
        · exact h.exCam
  | reset t thr =>
    obtain ⟨old, h1, -, -, -, h2⟩ := C37_reset s t thr
    obtain ⟨old', h1', -, -, -, h2'⟩ := C37_reset s' t thr
    have e : ∀ s : PropQueue ℝ T, (s.resetOrigin t thr).1.items = resetLoop t thr s.items := by
      intro s
      unfold resetOrigin
      split
      · next he => rw [List.isEmpty_iff.1 he]; rfl
      · rfl
    simp only [PropSpec.step] at hc hc' ⊢
    have hit : List.Forall₂ (ItemMoved r c N) (s.resetOrigin t thr).1.items (s'.resetOrigin t thr).1.items := by rw [e, e]; exact resetLoop_moved r c N t thr _ _ h.items
    refine ⟨hit, ?_, ?_, ?_, ?_, ?_, ?_, ?_, hc, hc'⟩ <;> rw [h2] <;> (try rw [h2']) <;> dsimp only
    · exact h.biasA
    · exact h.biasG
    · exact h.init
    · exact h.unit
    · exact h.noise
    · exact h.noiseCols
    · exact h.exCam
  | reprop g hg => exact repropagate_moved r hr c N g hg s s' h
  | correct g hg st st' p p' e e' x x' ba bg hi hx =>
    refine repropagate_moved r hr c N g hg _ _ ?_
    have hit := h.items
    cases hl : s.items with
    | nil =>
      rw [hl] at hit
      have hl' : s'.items = [] := by cases h' : s'.items with
        | nil => rfl
        | cons a b => rw [h'] at hit; cases hit
      have e1 : PropSpec.correct s st p e x ba bg = s := by simp [PropSpec.correct, hl]
      have e2 : PropSpec.correct s' st' p' e' x' ba bg = s' := by simp [PropSpec.correct, hl']
      rw [e1, e2]
      exact h
    | cons i rest =>
      rw [hl] at hit
      cases hl' : s'.items with
      | nil => rw [hl'] at hit; cases hit
      | cons i' rest' =>
        rw [hl'] at hit
        cases hit with
        | cons a b =>
          simp only [PropSpec.correct, hl, hl']
          refine ⟨.cons ?_ b, rfl, rfl, h.init, h.unit, h.noise, h.noiseCols, hx, h.clean, h.clean'⟩
          have := hi i.accel i.gyro i.ts
          exact ⟨this.st, this.unit, a.accel, a.gyro, a.ts, this.cols, this.cols', this.cov, this.exCols, this.ex⟩

/-- C88.  All histories of the propagator: in a world that is turned about gravity and shifted, every queued state is the turned and shifted one, and its covariance is that of the turned error. -/
theorem C88_queue (r : Quat ℝ) (hr : r.sqNorm = 1) (c : Vec3 ℝ) (N : ∀ n, Matrix (Fin n) (Fin n) ℝ) (nExt : Nat) (ops ops' : List (POp ℝ T)) (ho : List.Forall₂ (OpMoved r c N) ops ops') :
    ∀ s s' : PropQueue ℝ T, QueueMoved r c N s s' → QueueMoved r c N (run nExt s ops) (run nExt s' ops') := by
  induction ho with
  | nil => exact fun _ _ h => h
  | cons a _ ih => exact fun s s' h => ih _ _ (step_moved r hr c N nExt _ _ a s s' h)

/-- C88 from the start: a fresh queue with configured noise. -/
theorem C88_from_start (r : Quat ℝ) (hr : r.sqNorm = 1) (c : Vec3 ℝ) (N : ∀ n, Matrix (Fin n) (Fin n) ℝ) (nExt : Nat) (st : Motion ℝ) (hst : st.q.sqNorm = 1) (na ng nwa nwg : ℝ)
    (ops ops' : List (POp ℝ T)) (ho : List.Forall₂ (OpMoved r c N) ops ops') :
    QueueMoved r c N (run nExt { (PropQueue.init st : PropQueue ℝ T) with Q := noiseMatrix na ng nwa nwg } ops)
      (run nExt { (PropQueue.init (move r c 0 st) : PropQueue ℝ T) with Q := noiseMatrix na ng nwa nwg } ops') :=
  C88_queue r hr c N nExt ops ops' ho _ _ ⟨.nil, rfl, rfl, rfl, hst, rfl, rfl, ⟨rfl, zero_moved _ _ _ _⟩, ⟨fun _ _ _ _ => rfl, fun _ _ => rfl⟩, ⟨fun _ _ _ _ => rfl, fun _ _ => rfl⟩⟩

/-- C88: a quarter turn about gravity and a shift; a sample, a correction and another sample. -/
example : ∃ (ops ops' : List (POp ℝ ℝ)) (r : Quat ℝ), r.rotate ⟨1, 0, 0⟩ = ⟨0, 1, 0⟩ ∧ ops.length = 3 ∧
    QueueMoved r ⟨1, 2, 3⟩ (fun _ => 1) (run 1 { (PropQueue.init ⟨0, 0, .one⟩ : PropQueue ℝ ℝ) with Q := noiseMatrix 1 1 1 1 } ops)
      (run 1 { (PropQueue.init (move r ⟨1, 2, 3⟩ 0 ⟨0, 0, .one⟩) : PropQueue ℝ ℝ) with Q := noiseMatrix 1 1 1 1 } ops') := by
  have h2 : Real.sqrt 2 * Real.sqrt 2 = 2 := Real.mul_self_sqrt (by norm_num)
  let r : Quat ℝ := ⟨Real.sqrt 2 / 2, 0, 0, Real.sqrt 2 / 2⟩
  have hr : r.sqNorm = 1 := by
    show Real.sqrt 2 / 2 * (Real.sqrt 2 / 2) + 0 * 0 + 0 * 0 + Real.sqrt 2 / 2 * (Real.sqrt 2 / 2) = 1
    linear_combination (1 / 2) * h2
  have hg : r.rotate ⟨0, 0, 10⟩ = ⟨0, 0, 10⟩ := by
    apply Vec3.ext <;> simp [r, Quat.rotate, Quat.vec]
  let st : Motion ℝ := ⟨⟨1, 0, 0⟩, ⟨0, 1, 0⟩, .one⟩
  refine ⟨[.sample ⟨0, 0, 10⟩ ⟨1, 0, 10⟩ ⟨0, 1, 0⟩ 0, .correct ⟨0, 0, 10⟩ st (.zero 15 15) (.zero 15 12) (.zero 12 12) 0 0, .sample ⟨0, 0, 10⟩ ⟨1, 0, 10⟩ ⟨0, 1, 0⟩ 1],
    [.sample ⟨0, 0, 10⟩ ⟨1, 0, 10⟩ ⟨0, 1, 0⟩ 0, .correct ⟨0, 0, 10⟩ (move r ⟨1, 2, 3⟩ 0 st) (.zero 15 15) (.zero 15 12) (.zero 12 12) 0 0, .sample ⟨0, 0, 10⟩ ⟨1, 0, 10⟩ ⟨0, 1, 0⟩ 1],
    r, ?_, rfl, C88_from_start r hr ⟨1, 2, 3⟩ _ 1 _ (by simp [Quat.one, Quat.sqNorm]) 1 1 1 1 _ _ ?_⟩
  · apply Vec3.ext <;> simp [r, Quat.rotate, Quat.vec] <;> first | linear_combination (1 / 2) * h2 | linear_combination (-1 / 2) * h2
  · refine .cons (.sample _ _ _ _ hg) (.cons (.correct _ hg _ _ _ _ _ _ _ _ _ _ (fun a w t => ?_) ?_) (.cons (.sample _ _ _ _ hg) .nil))
    · exact ⟨rfl, by simp [st, Quat.one, Quat.sqNorm], rfl, rfl, rfl, rfl, rfl, zero_moved _ _ _ _, rfl, zero_moved _ _ _ _⟩
    · exact ⟨rfl, zero_moved _ _ _ _⟩

end Queue
end Vio

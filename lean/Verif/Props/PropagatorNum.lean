/-
Properties C31 - C34: numeric properties of the propagation queue, in exact arithmetic.
-/
import Verif.Props.Propagator
import Mathlib.Data.Matrix.ColumnRowPartitioned

set_option linter.unusedSectionVars false

namespace Vio

open PropSpec PropQueue

variable {T : Type} [TimeOps T] [TimeCast T ℝ]

/-! ### Invariants of all items -/

theorem repropLoop_inv (I : PropQueue ℝ T → Prop) (P : PropItem ℝ T → Prop) (g : Vec3 ℝ)
    (hI : ∀ s F G d q ma mg d' q', I s → F = fillF s.F d q ma mg → G = fillG s.G d' q' → I { s with F := F, G := G })
    (hP : ∀ s i0 a w t, I s → P i0 → P (s.stepItem g i0 a w t)) (s : PropQueue ℝ T) (i0 : PropItem ℝ T) (rest : List (PropItem ℝ T))
    (hs : I s) (h0 : P i0) : I (repropLoop g s i0 rest).1 ∧ ∀ i ∈ (repropLoop g s i0 rest).2, P i := by
  induction rest generalizing s i0 with
  | nil => exact ⟨hs, by simp [repropLoop]⟩
  | cons i1 rest ih =>
    have h1 := hP s i0 i1.accel i1.gyro i1.ts hs h0
    obtain ⟨k1, k2⟩ := ih { s with F := s.stepF i0 i1.accel i1.gyro i1.ts, G := s.stepG i0 i1.ts } _
      (hI s _ _ _ _ _ _ _ _ hs rfl rfl) h1
    refine ⟨k1, ?_⟩
    simp only [repropLoop]
    intro i hi
    rcases List.mem_cons.1 hi with rfl | hi
    · exact h1
    · exact k2 i hi

/-! ### C32: unit quaternions -/

theorem stepItem_unit (s : PropQueue ℝ T) (g : Vec3 ℝ) (i0 : PropItem ℝ T) (a w : Vec3 ℝ) (t : T) (h : i0.st.q.sqNorm = 1) :
    (s.stepItem g i0 a w t).st.q.sqNorm = 1 := by
  apply Quat.sqNorm_normalized
  rw [Quat.sqNorm_mul, h, one_mul]
  exact lt_of_lt_of_le one_pos (Quat.sqNorm_deltaQ_pos _)

/-- The initial state and every correction carry a unit attitude. -/
def UnitHist (ops : List (POp ℝ T)) : Prop :=
  ∀ op ∈ ops, ∀ g st c e x ba bg, op = .correct g st c e x ba bg → st.q.sqNorm = 1

theorem step_unit (nExt : Nat) (s : PropQueue ℝ T) (op : POp ℝ T) (hop : ∀ g st c e x ba bg, op = .correct g st c e x ba bg → st.q.sqNorm = 1)
    (hi : s.initState.q.sqNorm = 1) (h : ∀ i ∈ s.items, i.st.q.sqNorm = 1) :
    (step nExt s op).initState.q.sqNorm = 1 ∧ ∀ i ∈ (step nExt s op).items, i.st.q.sqNorm = 1 := by
  have rep : ∀ (s : PropQueue ℝ T) (g : Vec3 ℝ), s.initState.q.sqNorm = 1 → (∀ i ∈ s.items, i.st.q.sqNorm = 1) →
      (s.repropagate g).initState.q.sqNorm = 1 ∧ ∀ i ∈ (s.repropagate g).items, i.st.q.sqNorm = 1 := by
    intro s g hi h
    unfold repropagate
    cases hl : s.items with
    | nil => exact ⟨hi, by simp [hl]⟩
    | cons i0 rest =>
      have h0 := h i0 (by simp [hl])
      obtain ⟨k1, k2⟩ := repropLoop_inv (fun s => s.initState.q.sqNorm = 1) (fun i => i.st.q.sqNorm = 1) g
        (fun _ _ _ _ _ _ _ _ _ h _ _ => h) (fun s i0 a w t _ h => stepItem_unit s g i0 a w t h) s i0 rest hi h0
      refine ⟨k1, ?_⟩
      intro i hi
      rcases List.mem_cons.1 hi with rfl | hi
      · exact h0
      · exact k2 i hi
  cases op with
  | sample g a w t =>
    simp only [step, propagate]
    cases hl : s.items.getLast? with
    | none => exact ⟨hi, by simpa using hi⟩
    | some i0 =>
      refine ⟨hi, ?_⟩
      intro i hm
      rcases List.mem_append.1 hm with hm | hm
      · exact h i hm
      · rw [List.mem_singleton.1 hm]
        exact stepItem_unit s g i0 a w t (h i0 (List.mem_of_getLast? hl))
  | reset t thr =>
    obtain ⟨old, h1, -, -, -, h2⟩ := C37_reset s t thr
    simp only [step]
    rw [h2]
    refine ⟨hi, fun i hm => h i ?_⟩
    rw [h1]
    exact List.mem_append_right _ hm
  | reprop g => exact rep s g hi h
  | correct g st c e x ba bg =>
    apply rep
    · unfold correct; split <;> exact hi
    · unfold correct
      split
      · exact h
      · next i rest hl =>
        intro j hj
        rcases List.mem_cons.1 hj with rfl | hj
        · exact hop g st c e x ba bg rfl
        · exact h j (by rw [hl]; exact List.mem_cons_of_mem _ hj)

/-- All items of all histories have unit attitudes. -/
theorem C32_unit (nExt : Nat) (s : PropQueue ℝ T) (ops : List (POp ℝ T)) (hops : UnitHist ops) (hi : s.initState.q.sqNorm = 1)
    (h : ∀ i ∈ s.items, i.st.q.sqNorm = 1) : ∀ i ∈ (run nExt s ops).items, i.st.q.sqNorm = 1 := by
  suffices ∀ i ∈ (run nExt s ops).items, i.st.q.sqNorm = 1 ∧ True from fun i hi => (this i hi).1
  induction ops generalizing s with
  | nil => exact fun i hm => ⟨h i hm, trivial⟩
  | cons op ops ih =>
    obtain ⟨h1, h2⟩ := step_unit nExt s op (hops op (by simp)) hi h
    exact ih (step nExt s op) (fun o ho => hops o (List.mem_cons_of_mem _ ho)) h1 h2

/-- The normalisation of a step divides by a number that is at least one. -/
theorem C32_no_division_by_zero (s : PropQueue ℝ T) (i0 : PropItem ℝ T) (w : Vec3 ℝ) (t : T) (h : i0.st.q.sqNorm = 1) :
    1 ≤ ScalarFn.sqrt (i0.st.q.mul (Utility.deltaQ (vscale (midGyro s.biasG i0.gyro w) (dt i0.ts t)))).sqNorm := by
  rw [Quat.sqNorm_mul, h, one_mul, ScalarFn.sqrt_real]
  rw [Real.one_le_sqrt]
  exact Quat.sqNorm_deltaQ_pos _

/-! ### C33: no motion without force -/

/-- What an accelerometer at rest measures in attitude `q`. -/
noncomputable def restAccel (q : Quat ℝ) (g ba : Vec3 ℝ) : Vec3 ℝ := q.inverse.rotate g + ba

theorem rotate_restAccel (q : Quat ℝ) (h : q.sqNorm = 1) (g ba : Vec3 ℝ) : q.rotate (restAccel q g ba - ba) = g := by
  have : restAccel q g ba - ba = q.inverse.rotate g := by unfold restAccel; apply Vec3.ext <;> simp
  rw [this, ← Quat.rotate_mul _ _ h (Quat.sqNorm_inverse_of_unit _ h), Quat.mul_inverse_of_unit _ h, Quat.rotate_one]

theorem nominal_rest (s : PropQueue ℝ T) (g : Vec3 ℝ) (i0 : PropItem ℝ T) (t : T) (h : i0.st.q.sqNorm = 1)
    (ha : i0.accel = restAccel i0.st.q g s.biasA) (hg : i0.gyro = s.biasG) :
    s.nominal g i0 (restAccel i0.st.q g s.biasA) s.biasG t = ⟨i0.st.p + Vec3.smul (dt i0.ts t) i0.st.v, i0.st.v, i0.st.q⟩ := by
  have hdq : Utility.deltaQ (vscale (midGyro s.biasG i0.gyro s.biasG) (dt i0.ts t)) = (Quat.one : Quat ℝ) := by
    rw [hg]
    have : midGyro s.biasG s.biasG s.biasG = 0 := by
      unfold midGyro; apply Vec3.ext <;> simp <;> ring
    rw [this]
    apply Quat.ext <;> simp [Utility.deltaQ, vscale, Quat.one]
  unfold nominal
  simp only [hdq, Quat.mul_one', Quat.normalized_of_unit _ h, ha, rotate_restAccel _ h]
  congr 1
  · apply Vec3.ext <;> simp [vscale] <;> ring
  · apply Vec3.ext <;> simp only [vscale, Vec3.add_x, Vec3.add_y, Vec3.add_z, Vec3.sub_x, Vec3.sub_y, Vec3.sub_z, Vec3.smul_x, Vec3.smul_y, Vec3.smul_z,
      ScalarFn.lit_real] <;> push_cast <;> ring

/-- At rest, or in uniform motion, for any number of samples at any times: attitude and velocity stay, the position moves on with the velocity. -/
theorem C33_stationary (nExt : Nat) (s : PropQueue ℝ T) (g : Vec3 ℝ) (i0 : PropItem ℝ T) (hl : s.items.getLast? = some i0) (h : i0.st.q.sqNorm = 1)
    (ha : i0.accel = restAccel i0.st.q g s.biasA) (hg : i0.gyro = s.biasG) (ts : List T) :
    ∃ it, (ts.foldl (fun s t => s.propagate nExt g (restAccel i0.st.q g s.biasA) s.biasG t) s).items.getLast? = some it ∧
      it.st.q = i0.st.q ∧ it.st.v = i0.st.v ∧ it.st.p = i0.st.p + Vec3.smul (elapsed i0.ts ts) i0.st.v := by
  induction ts generalizing s i0 with
  | nil => exact ⟨i0, hl, rfl, rfl, by apply Vec3.ext <;> simp [elapsed]⟩
  | cons t ts ih =>
    rw [List.foldl_cons]
    have e : (s.propagate nExt g (restAccel i0.st.q g s.biasA) s.biasG t).items.getLast? = some (s.stepItem g i0 (restAccel i0.st.q g s.biasA) s.biasG t) := by
      simp [propagate, hl]
    have eb : (s.propagate nExt g (restAccel i0.st.q g s.biasA) s.biasG t).biasA = s.biasA ∧
        (s.propagate nExt g (restAccel i0.st.q g s.biasA) s.biasG t).biasG = s.biasG := by simp [propagate, hl]
    have en : (s.stepItem g i0 (restAccel i0.st.q g s.biasA) s.biasG t).st = ⟨i0.st.p + Vec3.smul (dt i0.ts t) i0.st.v, i0.st.v, i0.st.q⟩ :=
      nominal_rest s g i0 t h ha hg
    obtain ⟨it, h1, h2, h3, h4⟩ := ih (s.propagate nExt g (restAccel i0.st.q g s.biasA) s.biasG t) _ e (by rw [en]; exact h)
      (by rw [en, eb.1]; rfl) (by rw [eb.2]; rfl)
    rw [en] at h1 h2 h3 h4
    refine ⟨it, h1, h2, h3, ?_⟩
    rw [h4]
    have ht : (s.stepItem g i0 (restAccel i0.st.q g s.biasA) s.biasG t).ts = t := rfl
    rw [ht]
    apply Vec3.ext <;> simp [elapsed, dt] <;> ring

/-- With zero velocity nothing moves, also when the queue starts empty. -/
theorem C33_at_rest_from_empty (nExt : Nat) (s : PropQueue ℝ T) (g : Vec3 ℝ) (hl : s.items = []) (h : s.initState.q.sqNorm = 1) (hv : s.initState.v = 0)
    (t : T) (ts : List T) :
    ∃ it, ((t :: ts).foldl (fun s' t => s'.propagate nExt g (restAccel s.initState.q g s.biasA) s.biasG t) s).items.getLast? = some it ∧
      it.st.q = s.initState.q ∧ it.st.v = 0 ∧ it.st.p = s.initState.p := by
  rw [List.foldl_cons]
  let i0 : PropItem ℝ T := ⟨s.initState, .zero imuStateSize imuStateSize, .zero imuStateSize (nExt * 6 + 6), restAccel s.initState.q g s.biasA, s.biasG, t⟩
  have e : (s.propagate nExt g (restAccel s.initState.q g s.biasA) s.biasG t).items.getLast? = some i0 := by simp [propagate, hl, i0]
  have eb : (s.propagate nExt g (restAccel s.initState.q g s.biasA) s.biasG t).biasA = s.biasA ∧
    (s.propagate nExt g (restAccel s.initState.q g s.biasA) s.biasG t).biasG = s.biasG := by simp [propagate, hl]
  obtain ⟨it, h1, h2, h3, h4⟩ := C33_stationary nExt (s.propagate nExt g (restAccel s.initState.q g s.biasA) s.biasG t) g i0 e h (by rw [eb.1]) (by rw [eb.2]) ts
  have hb : ∀ (ts : List T) (s1 : PropQueue ℝ T), s1.biasA = s.biasA → s1.biasG = s.biasG →
      ts.foldl (fun s' t => s'.propagate nExt g (restAccel s.initState.q g s.biasA) s.biasG t) s1 =
      ts.foldl (fun s' t => s'.propagate nExt g (restAccel s.initState.q g s'.biasA) s'.biasG t) s1 := by
    intro ts
    induction ts with
    | nil => intros; rfl
    | cons t ts ih =>
      intro s1 ha hg
      rw [List.foldl_cons, List.foldl_cons, ha, hg]
      apply ih <;> unfold propagate <;> split <;> assumption
  rw [hb ts _ eb.1 eb.2]
  refine ⟨it, h1, h2, h3.trans hv, h4.trans ?_⟩
  show s.initState.p + Vec3.smul _ s.initState.v = _
  rw [hv]
  apply Vec3.ext <;> simp

/-! ### C34: the joint covariance -/

/-- Joint covariance of the IMU state and the extrinsics and poses. -/
def jointCov (it : PropItem ℝ T) (X : DMat ℝ) (m : Nat) : Matrix (Fin 15 ⊕ Fin m) (Fin 15 ⊕ Fin m) ℝ :=
  Matrix.fromBlocks (it.imuCov.toM 15 15) (it.imuEx.toM 15 m) (it.imuEx.toM 15 m).transpose (X.toM m m)

/-- The item is of the expected sizes and its joint covariance is symmetric and positive semidefinite. -/
structure JointPSD (X : DMat ℝ) (it : PropItem ℝ T) : Prop where
  rows : it.imuCov.rows = 15
  cols : it.imuCov.cols = 15
  exRows : it.imuEx.rows = 15
  exCols : it.imuEx.cols = X.rows
  psd : (jointCov it X X.rows).PosSemidef

/-- Noise and buffers are of the expected sizes and the noise is positive semidefinite. -/
structure NoiseOk (s : PropQueue ℝ T) : Prop where
  fr : s.F.rows = 15
  fc : s.F.cols = 15
  gr : s.G.rows = 15
  gc : s.G.cols = 12
  qc : s.Q.cols = 12
  psd : (s.Q.toM 12 12).PosSemidef

theorem noiseOk_fill (s : PropQueue ℝ T) (F G : DMat ℝ) (d : ℝ) (q : Quat ℝ) (ma mg : Vec3 ℝ) (d' : ℝ) (q' : Quat ℝ) (h : NoiseOk s)
    (hF : F = fillF s.F d q ma mg) (hG : G = fillG s.G d' q') : NoiseOk { s with F := F, G := G } := by
  subst hF hG
  exact ⟨h.fr, h.fc, h.gr, h.gc, h.qc, h.psd⟩

/-- Non-negative parameters give a positive semidefinite noise matrix. -/
theorem noiseMatrix_psd (na ng nwa nwg : ℝ) (h1 : 0 ≤ na) (h2 : 0 ≤ ng) (h3 : 0 ≤ nwa) (h4 : 0 ≤ nwg) :
    ((noiseMatrix na ng nwa nwg).toM 12 12).PosSemidef := by
  have : (noiseMatrix na ng nwa nwg).toM 12 12 = Matrix.diagonal (fun i : Fin 12 => if i.val < 3 then na else if i.val < 6 then ng else if i.val < 9 then nwa else nwg) := by
    ext i j
    simp only [DMat.toM, noiseMatrix, Matrix.diagonal_apply, Fin.ext_iff, one_mul]
  rw [this]
  apply Matrix.PosSemidef.diagonal
  intro i
  simp only [Pi.zero_apply]
  split_ifs <;> assumption

theorem stepItem_psd (s : PropQueue ℝ T) (hs : NoiseOk s) (g : Vec3 ℝ) (X : DMat ℝ) (i0 : PropItem ℝ T) (a w : Vec3 ℝ) (t : T) (h : JointPSD X i0) :
    JointPSD X (s.stepItem g i0 a w t) := by
  refine ⟨hs.fr, hs.fr, hs.fr, h.exCols, ?_⟩
  have hFc : (s.stepF i0 a w t).cols = 15 := hs.fc
  have hGc : (s.stepG i0 t).cols = 12 := hs.gc
  generalize hF : (s.stepF i0 a w t).toM 15 15 = F
  generalize hG : (s.stepG i0 t).toM 15 12 = G
  let A : Matrix (Fin 15 ⊕ Fin X.rows) (Fin 15 ⊕ Fin X.rows) ℝ := Matrix.fromBlocks F 0 0 1
  let B : Matrix (Fin 15 ⊕ Fin X.rows) (Fin 12) ℝ := Matrix.fromRows G 0
  have e : jointCov (s.stepItem g i0 a w t) X X.rows = A * jointCov i0 X X.rows * A.conjTranspose + B * s.Q.toM 12 12 * B.conjTranspose := by
    have e1 : (s.stepItem g i0 a w t).imuCov.toM 15 15 = F * i0.imuCov.toM 15 15 * F.transpose + G * s.Q.toM 12 12 * G.transpose := by
      simp only [stepItem, DMat.toM_addF]
      rw [DMat.toM_mulF _ _ 15 15 15 (by exact h.cols), DMat.toM_mulF _ _ 15 15 15 hFc, DMat.toM_transpose,
        DMat.toM_mulF _ _ 15 12 15 (by exact hs.qc), DMat.toM_mulF _ _ 15 12 12 hGc, DMat.toM_transpose, hF, hG]
    have e2 : (s.stepItem g i0 a w t).imuEx.toM 15 X.rows = F * i0.imuEx.toM 15 X.rows := by
      simp only [stepItem]
      rw [DMat.toM_mulF _ _ 15 15 _ hFc, hF]
    unfold jointCov
    rw [e1, e2]
    simp only [A, B, Matrix.conjTranspose_eq_transpose_of_trivial, Matrix.fromBlocks_transpose, Matrix.transpose_fromRows, Matrix.fromBlocks_multiply,
      Matrix.fromRows_mul, Matrix.mul_fromCols]
    simp only [Matrix.fromCols_fromRows_eq_fromBlocks, Matrix.fromBlocks_add, Matrix.transpose_mul, Matrix.transpose_zero, Matrix.transpose_one, Matrix.zero_mul,
      Matrix.mul_zero, Matrix.one_mul, Matrix.mul_one, add_zero, zero_add]
  rw [e]
  exact (h.psd.mul_mul_conjTranspose_same A).add (hs.psd.mul_mul_conjTranspose_same B)

/-- Every correction in the history puts in a positive semidefinite joint covariance. -/
def PsdHist (ops : List (POp ℝ T)) : Prop :=
  ∀ op ∈ ops, ∀ g st c e x ba bg, op = .correct g st c e x ba bg → ∀ a w (t : T), JointPSD x ⟨st, c, e, a, w, t⟩

theorem rep_psd (s : PropQueue ℝ T) (g : Vec3 ℝ) (hn : NoiseOk s) (i0 : PropItem ℝ T) (rest : List (PropItem ℝ T)) (hl : s.items = i0 :: rest)
    (h : JointPSD s.exCamCov i0) :
    NoiseOk (s.repropagate g) ∧ (s.repropagate g).exCamCov = s.exCamCov ∧ ∀ i ∈ (s.repropagate g).items, JointPSD s.exCamCov i := by
  obtain ⟨k1, k2⟩ := repropLoop_inv NoiseOk (JointPSD s.exCamCov) g noiseOk_fill (fun s i0 a w t hs h => stepItem_psd s hs g _ i0 a w t h) s i0 rest hn h
  have e : s.repropagate g = { (repropLoop g s i0 rest).1 with items := i0 :: (repropLoop g s i0 rest).2 } := by simp [repropagate, hl]
  refine ⟨?_, (C36_frame s g).1, ?_⟩
  · rw [e]; exact ⟨k1.fr, k1.fc, k1.gr, k1.gc, k1.qc, k1.psd⟩
  · rw [e]
    intro i hi
    rcases List.mem_cons.1 hi with rfl | hi
    · exact h
    · exact k2 i hi

theorem step_psd (nExt : Nat) (s : PropQueue ℝ T) (op : POp ℝ T)
    (hop : ∀ g st c e x ba bg, op = .correct g st c e x ba bg → ∀ a w (t : T), JointPSD x ⟨st, c, e, a, w, t⟩)
    (hn : NoiseOk s) (h : ∀ i ∈ s.items, JointPSD s.exCamCov i) :
    NoiseOk (step nExt s op) ∧ ∀ i ∈ (step nExt s op).items, JointPSD (step nExt s op).exCamCov i := by
  cases op with
  | sample g a w t =>
    simp only [step, propagate]
    cases hl : s.items.getLast? with
    | none =>
      refine ⟨⟨rfl, rfl, rfl, rfl, hn.qc, hn.psd⟩, ?_⟩
      intro i hi
      rw [List.mem_singleton.1 hi]
      refine ⟨rfl, rfl, rfl, rfl, ?_⟩
      have : jointCov (⟨s.initState, .zero imuStateSize imuStateSize, .zero imuStateSize (nExt * 6 + 6), a, w, t⟩ : PropItem ℝ T)
          (.zero (nExt * 6 + 6) (nExt * 6 + 6)) (nExt * 6 + 6) = 0 := by
        unfold jointCov
        simp only [DMat.toM_zero, Matrix.transpose_zero]
        exact Matrix.fromBlocks_zero
      exact this ▸ Matrix.PosSemidef.zero
    | some i0 =>
      refine ⟨⟨hn.fr, hn.fc, hn.gr, hn.gc, hn.qc, hn.psd⟩, ?_⟩
      intro i hm
      rcases List.mem_append.1 hm with hm | hm
      · exact h i hm
      · rw [List.mem_singleton.1 hm]
        exact stepItem_psd s hn g _ i0 a w t (h i0 (List.mem_of_getLast? hl))
  | reset t thr =>
    obtain ⟨old, h1, -, -, -, h2⟩ := C37_reset s t thr
    simp only [step]
    rw [h2]
    refine ⟨⟨hn.fr, hn.fc, hn.gr, hn.gc, hn.qc, hn.psd⟩, fun i hm => h i ?_⟩
    rw [h1]
    exact List.mem_append_right _ hm
  | reprop g =>
    simp only [step]
    cases hl : s.items with
    | nil => simp only [repropagate, hl]; exact ⟨hn, by simp⟩
    | cons i0 rest =>
      obtain ⟨k1, k2, k3⟩ := rep_psd s g hn i0 rest hl (h i0 (by simp [hl]))
      exact ⟨k1, by rw [k2]; exact k3⟩
  | correct g st c e x ba bg =>
    simp only [step]
    cases hl : s.items with
    | nil => simp only [correct, repropagate, hl]; exact ⟨hn, by simp⟩
    | cons i0 rest =>
      have e1 : correct s st c e x ba bg = { s with items := { i0 with st := st, imuCov := c, imuEx := e } :: rest, exCamCov := x, biasA := ba, biasG := bg } := by
        simp [correct, hl]
      rw [e1]
      have hn' : NoiseOk { s with items := { i0 with st := st, imuCov := c, imuEx := e } :: rest, exCamCov := x, biasA := ba, biasG := bg } :=
        ⟨hn.fr, hn.fc, hn.gr, hn.gc, hn.qc, hn.psd⟩
      obtain ⟨k1, k2, k3⟩ := rep_psd _ g hn' _ rest rfl (hop g st c e x ba bg rfl i0.accel i0.gyro i0.ts)
      exact ⟨k1, by rw [k2]; exact k3⟩

/-- Through all histories every item keeps a symmetric positive semidefinite joint covariance. -/
theorem C34_joint_psd (nExt : Nat) (s : PropQueue ℝ T) (ops : List (POp ℝ T)) (hops : PsdHist ops) (hn : NoiseOk s)
    (h : ∀ i ∈ s.items, JointPSD s.exCamCov i) : ∀ i ∈ (run nExt s ops).items, JointPSD (run nExt s ops).exCamCov i := by
  induction ops generalizing s with
  | nil => exact h
  | cons op ops ih =>
    obtain ⟨h1, h2⟩ := step_psd nExt s op (hops op (by simp)) hn h
    exact ih (step nExt s op) (fun o ho => hops o (List.mem_cons_of_mem _ ho)) h1 h2

/-- In particular from a fresh queue with configured non-negative noise. -/
theorem C34_from_start (nExt : Nat) (st : Motion ℝ) (na ng nwa nwg : ℝ) (h1 : 0 ≤ na) (h2 : 0 ≤ ng) (h3 : 0 ≤ nwa) (h4 : 0 ≤ nwg)
    (ops : List (POp ℝ T)) (hops : PsdHist ops) :
    let s := run nExt { (init st : PropQueue ℝ T) with Q := noiseMatrix na ng nwa nwg } ops
    ∀ i ∈ s.items, JointPSD s.exCamCov i :=
  C34_joint_psd nExt _ ops hops ⟨rfl, rfl, rfl, rfl, rfl, noiseMatrix_psd na ng nwa nwg h1 h2 h3 h4⟩ (by simp [init])

/-! ### C31: directions of rotation -/

/-- Conjugate quaternion: the inverse rotation of a unit quaternion. -/
def conjQ (q : Quat ℝ) : Quat ℝ := ⟨q.w, -q.x, -q.y, -q.z⟩

theorem normalized_conj (q : Quat ℝ) : (conjQ q).normalized = conjQ q.normalized := by
  have e : (conjQ q).sqNorm = q.sqNorm := by simp only [conjQ, Quat.sqNorm]; ring
  unfold Quat.normalized
  simp only [e]
  split <;> apply Quat.ext <;> simp [conjQ, neg_div]

theorem unit_mul_normalized (p q : Quat ℝ) (hp : p.sqNorm = 1) (hq : 0 < q.sqNorm) : (p.mul q).normalized = p.mul q.normalized := by
  rw [Quat.normalized_of_pos _ hq, Quat.normalized_of_pos _ (by rw [Quat.sqNorm_mul, hp, one_mul]; exact hq), Quat.sqNorm_mul, hp, one_mul]
  apply Quat.ext <;> simp only [Quat.mul] <;> ring

theorem deltaQ_neg (v : Vec3 ℝ) : Utility.deltaQ (-v) = conjQ (Utility.deltaQ v) := by
  apply Quat.ext <;> simp [Utility.deltaQ, conjQ, neg_div]

/-- C31 is false.  From the same attitude, with the same gyroscope samples and bias, and an accelerometer that agrees with gravity (no correction), the propagator turns the
attitude by some rotation `d` and the attitude estimator by the inverse of `d`. -/
theorem C31_opposite_directions (s : PropQueue ℝ ℝ) (att : Att ℝ ℝ) (g : Vec3 ℝ) (i0 : PropItem ℝ ℝ) (j0 : AttItem ℝ ℝ) (a1 a2 w : Vec3 ℝ) (t : ℝ)
    (hq : i0.st.q = j0.q) (hu : j0.q.sqNorm = 1) (hts : i0.ts = j0.ts) (hw : j0.gyro = i0.gyro - s.biasG)
    (herr : Att.gravErr g j0.q a2 = 0) (hint : att.errInt = 0) :
    ∃ d : Quat ℝ, d.sqNorm = 1 ∧ (s.nominal g i0 a1 w t).q = j0.q.mul d ∧ (att.stepQuat g j0 a2 (w - s.biasG) t).1 = j0.q.mul (conjQ d) ∧
      d = (Utility.deltaQ (vscale (midGyro s.biasG i0.gyro w) (t - i0.ts))).normalized := by
  have hp : ∀ v, 0 < (Utility.deltaQ v : Quat ℝ).sqNorm := fun v => lt_of_lt_of_le one_pos (Quat.sqNorm_deltaQ_pos v)
  refine ⟨_, Quat.sqNorm_normalized _ (hp _), ?_, ?_, rfl⟩
  · unfold nominal
    simp only [hq]
    rw [unit_mul_normalized _ _ hu (hp _)]
    rfl
  · unfold Att.stepQuat
    simp only [herr, hint]
    rw [unit_mul_normalized _ _ hu (hp _), ← normalized_conj, ← deltaQ_neg]
    congr 3
    rw [hw, ← hts]
    apply Vec3.ext <;> simp [vscale, midGyro, TimeCast.toK, TimeOps.sub] <;> (left; ring)

/-- The two agree only when there is no rotation at all. -/
theorem C31_agree_partial (d q : Quat ℝ) (hq : q.sqNorm = 1) (v : Vec3 ℝ) (hd : d = (Utility.deltaQ v).normalized) : q.mul d = q.mul (conjQ d) ↔ v = 0 := by
  have hp : 0 < (Utility.deltaQ v : Quat ℝ).sqNorm := lt_of_lt_of_le one_pos (Quat.sqNorm_deltaQ_pos v)
  have hs := Real.sqrt_pos.2 hp
  constructor
  · intro h
    have h' : d = conjQ d := by
      have := congrArg (Quat.mul q.inverse) h
      rwa [← Quat.mul_assoc', ← Quat.mul_assoc', Quat.inverse_mul_of_unit _ hq, Quat.one_mul', Quat.one_mul'] at this
    rw [hd, Quat.normalized_of_pos _ hp] at h'
    have hx := congrArg Quat.x h'
    have hy := congrArg Quat.y h'
    have hz := congrArg Quat.z h'
    simp only [conjQ, Utility.deltaQ, Vec3.sdiv_x, Vec3.sdiv_y, Vec3.sdiv_z] at hx hy hz
    have key : ∀ a b : ℝ, 0 < b → a / lit 2 / b = -(a / lit 2 / b) → a = 0 := by
      intro a b hb h
      have : a / lit 2 / b = 0 := by linarith
      rcases div_eq_zero_iff.1 this with h | h
      · rcases div_eq_zero_iff.1 h with h | h
        · exact h
        · simp at h
      · exact absurd h hb.ne'
    apply Vec3.ext
    · exact key _ _ hs hx
    · exact key _ _ hs hy
    · exact key _ _ hs hz
  · rintro rfl
    have : d = conjQ d := by
      rw [hd, ← normalized_conj, ← deltaQ_neg]
      congr 2
      apply Vec3.ext <;> simp
    rw [← this]

/-- Hypotheses of C31 - C34 are met: a device at rest on a table, gravity along z. -/
example : (Att.gravErr ⟨0, 0, 1⟩ (Quat.one : Quat ℝ) ⟨0, 0, 1⟩ = 0) ∧ (Quat.one : Quat ℝ).sqNorm = 1 ∧
    restAccel (Quat.one : Quat ℝ) ⟨0, 0, 1⟩ 0 = ⟨0, 0, 1⟩ := by
  have h1 : (Quat.one : Quat ℝ).sqNorm = 1 := by simp [Quat.one, Quat.sqNorm]
  have h2 : (Quat.one : Quat ℝ).inverse = Quat.one := by rw [Quat.inverse_of_unit _ h1]; simp [Quat.one]
  refine ⟨?_, h1, ?_⟩
  · unfold Att.gravErr
    rw [h2, Quat.rotate_one]
    apply Vec3.ext <;> simp [Vec3.cross]
  · unfold restAccel
    rw [h2, Quat.rotate_one]
    apply Vec3.ext <;> simp

/-- A history with samples, a correction and a reset that meets `UnitHist` and `PsdHist`. -/
example : UnitHist ([.sample 0 0 0 1, .correct 0 ⟨0, 0, Quat.one⟩ (.zero 15 15) (.zero 15 12) (.zero 12 12) 0 0, .sample 0 0 0 2, .reset 2 1] : List (POp ℝ ℝ)) ∧
    PsdHist ([.sample 0 0 0 1, .correct 0 ⟨0, 0, Quat.one⟩ (.zero 15 15) (.zero 15 12) (.zero 12 12) 0 0, .sample 0 0 0 2, .reset 2 1] : List (POp ℝ ℝ)) := by
  constructor
  · intro op hop g st c e x ba bg he
    subst he
    simp at hop
    obtain ⟨-, rfl, -⟩ := hop
    simp [Quat.one, Quat.sqNorm]
  · intro op hop g st c e x ba bg he a w t
    subst he
    simp at hop
    obtain ⟨-, rfl, rfl, rfl, rfl, -⟩ := hop
    refine ⟨rfl, rfl, rfl, rfl, ?_⟩
    have : jointCov (⟨⟨0, 0, Quat.one⟩, .zero 15 15, .zero 15 12, a, w, t⟩ : PropItem ℝ ℝ) (.zero 12 12) 12 = 0 := by
      unfold jointCov
      simp only [DMat.toM_zero, Matrix.transpose_zero]
      exact Matrix.fromBlocks_zero
    exact this ▸ Matrix.PosSemidef.zero

end Vio

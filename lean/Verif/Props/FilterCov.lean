/-
C75: the covariance of the running filter, in exact arithmetic, over all histories of calls.
-/
import Verif.Props.Kalman
import Verif.Props.PropagatorNum
import Verif.Props.Restart

set_option linter.unusedSectionVars false

namespace Vio
open Spec WinSpec AttSpec Update

variable {T : Type} [TimeOps T] [TimeCast T ℝ]

/-- Sizes and positive semidefiniteness of everything queued: noise, camera covariance, joint covariance of every state. -/
structure CovInv (s : PropQueue ℝ T) : Prop where
  noise : NoiseOk s
  sq : s.exCamCov.cols = s.exCamCov.rows
  psd : ∀ i ∈ s.items, JointPSD s.exCamCov i

/-! ### Matrices -/

theorem psd_symmTo {n : Nat} {c : DMat ℝ} (h : (c.toM n n).PosSemidef) : SymmTo n c.e := by
  intro i j hi hj
  have := h.isHermitian.apply ⟨j, hj⟩ ⟨i, hi⟩
  simpa [DMat.toM] using this

theorem joint_psd (it : PropItem ℝ T) (X c : DMat ℝ) (m : Nat) (he : ∀ i j, i < 15 + m → j < 15 + m → c.e i j = jointEntry it.imuCov.e it.imuEx.e X.e i j)
    (h : (jointCov it X m).PosSemidef) : (c.toM (15 + m) (15 + m)).PosSemidef := by
  have e : c.toM (15 + m) (15 + m) = (jointCov it X m).submatrix finSumFinEquiv.symm finSumFinEquiv.symm := by
    ext i j
    obtain ⟨i, rfl⟩ := finSumFinEquiv.surjective i
    obtain ⟨j, rfl⟩ := finSumFinEquiv.surjective j
    simp only [Matrix.submatrix_apply, Equiv.symm_apply_apply]
    have := he (finSumFinEquiv i).val (finSumFinEquiv j).val (finSumFinEquiv i).isLt (finSumFinEquiv j).isLt
    simp only [DMat.toM]
    rw [this]
    unfold jointEntry jointCov
    rcases i with i | i <;> rcases j with j | j <;> simp [DMat.toM, Matrix.transpose_apply]
  rw [e]
  exact h.submatrix _

theorem blocks_psd (it : PropItem ℝ T) (X c : DMat ℝ) (m : Nat) (h : (c.toM (15 + m) (15 + m)).PosSemidef)
    (h1 : ∀ i j, it.imuCov.e i j = c.e i j) (h2 : ∀ i j, it.imuEx.e i j = c.e i (15 + j)) (h3 : ∀ i j, X.e i j = c.e (15 + i) (15 + j)) :
    (jointCov it X m).PosSemidef := by
  have hs := psd_symmTo h
  have e : jointCov it X m = (c.toM (15 + m) (15 + m)).submatrix finSumFinEquiv finSumFinEquiv := by
    ext i j
    unfold jointCov
    rcases i with i | i <;> rcases j with j | j
    · simp [DMat.toM, h1]
    · simp [DMat.toM, h2]
    · have := hs (15 + i.val) j.val (by omega) (by omega)
      simp [DMat.toM, h2, this]
    · simp [DMat.toM, h3]
  rw [e]
  exact h.submatrix _

theorem reduce_psd (junk : Nat → Nat → ℝ) (policy : MargPolicy) (m : FrameMgr ℝ T) (c c' : DMat ℝ) (h2 : policy = .noMarg ∨ 2 ≤ m.frames.length)
    (hr : c.rows = 15 + (m.extrinsics.length + m.frames.length) * 6) (hc : c.cols = c.rows) (hp : (c.toM c.rows c.rows).PosSemidef) (h : reduce junk policy m c = .ok c') :
    15 ≤ c'.rows ∧ c'.cols = c'.rows ∧ (c'.toM c'.rows c'.rows).PosSemidef := by
  by_cases hno : policy = .noMarg
  · subst hno
    cases h
    exact ⟨by omega, hc, hp⟩
  · have h2 := h2.resolve_left hno
    obtain ⟨d, hd⟩ : ∃ d, dropIndex m.frames.length policy = some d := by
      cases policy with
      | noMarg => exact absurd rfl hno
      | margOldest => exact ⟨_, rfl⟩
      | margSubnew => exact ⟨_, rfl⟩
      | margNewest => exact ⟨_, rfl⟩
    obtain ⟨c1, k1, k2, k3, k4⟩ := C43_reduce junk policy m c c.rows d h2 hr rfl hc (psd_symmTo hp) hd
    obtain rfl : c1 = c' := by rw [k1] at h; cases h; rfl
    refine ⟨by omega, by omega, ?_⟩
    have hlt : ∀ i : Fin c1.rows, skipIdx (15 + m.extrinsics.length * 6 + d * 6) i.val < c.rows := by
      intro i
      have := i.isLt
      unfold skipIdx
      split <;> omega
    have e : c1.toM c1.rows c1.rows = (c.toM c.rows c.rows).submatrix (fun i : Fin c1.rows => (⟨_, hlt i⟩ : Fin c.rows)) (fun i : Fin c1.rows => ⟨_, hlt i⟩) := by
      ext i j
      simp only [DMat.toM, Matrix.submatrix_apply]
      exact k4 _ _ (by omega) (by omega)
    rw [e]
    exact hp.submatrix _

/-! ### The update -/

theorem storeCov_psd (s s' : PropQueue ℝ T) (c : DMat ℝ) (hn : NoiseOk s) (hr : 15 ≤ c.rows) (hc : c.cols = c.rows) (hp : (c.toM c.rows c.rows).PosSemidef)
    (h : storeCov s c = .ok s') : NoiseOk s' ∧ s'.exCamCov.cols = s'.exCamCov.rows ∧ ∃ i0 rest, s'.items = i0 :: rest ∧ JointPSD s'.exCamCov i0 := by
  unfold storeCov at h
  split at h
  · cases h
  · rename_i i0 rest hi
    obtain ⟨a, h1, h⟩ := Res.bind_eq_ok.1 h
    obtain ⟨b, h2, h⟩ := Res.bind_eq_ok.1 h
    obtain ⟨d, h3, h⟩ := Res.bind_eq_ok.1 h
    cases h
    obtain ⟨a1, a2, a3, a4, a5⟩ := DMat.block_spec (a := c) (i := 0) (j := 0) (r := imuStateSize) (c := imuStateSize) (by simp only [imuStateSize]; omega) (by simp only [imuStateSize]; omega)
    obtain ⟨b1, b2, b3, b4, b5⟩ := DMat.block_spec (a := c) (i := 0) (j := imuStateSize) (r := imuStateSize) (c := c.cols - imuStateSize)
      (by simp only [imuStateSize]; omega) (by simp only [imuStateSize]; omega)
    obtain ⟨d1, d2, d3, d4, d5⟩ := DMat.block_spec (a := c) (i := imuStateSize) (j := imuStateSize) (r := c.cols - imuStateSize) (c := c.cols - imuStateSize)
      (by simp only [imuStateSize]; omega) (by simp only [imuStateSize]; omega)
    obtain rfl : a1 = a := by rw [a2] at h1; cases h1; rfl
    obtain rfl : b1 = b := by rw [b2] at h2; cases h2; rfl
    obtain rfl : d1 = d := by rw [d2] at h3; cases h3; rfl
    refine ⟨⟨hn.fr, hn.fc, hn.gr, hn.gc, hn.qc, hn.psd⟩, d4.trans d3.symm, _, _, rfl, a3, a4, b3, b4.trans d3.symm, ?_⟩
    dsimp only
    have hm : 15 + d1.rows = c.rows := by rw [d3]; simp only [imuStateSize]; omega
    refine blocks_psd _ _ c _ (by rw [hm]; exact hp) ?_ ?_ ?_
    · intro i j; simp [a5]
    · intro i j; simp [b5, imuStateSize]
    · intro i j; simp [d5, imuStateSize]

theorem finish_psd (env : Env ℝ) (g : Vec3 ℝ) (u u' : Upd ℝ T) (b : Bool) (hn : NoiseOk u.q) (hf : u.w.frm.frames ≠ []) (h2 : u.policy = .noMarg ∨ 2 ≤ u.w.frm.frames.length)
    (hr : u.cov.rows + 6 = 15 + (u.w.frm.extrinsics.length + u.w.frm.frames.length) * 6) (hc : u.cov.cols = u.cov.rows) (hp : (u.cov.toM u.cov.rows u.cov.rows).PosSemidef)
    (h : finish env g u = .ok (b, u')) : CovInv u'.q := by
  unfold finish at h
  obtain ⟨c1, h1, h⟩ := Res.bind_eq_ok.1 h
  obtain ⟨c2, h3, h⟩ := Res.bind_eq_ok.1 h
  obtain ⟨s, h4, h⟩ := Res.bind_eq_ok.1 h
  cases h
  obtain ⟨c1', e1, e2, e3, -, -, e4⟩ := C42_expand env.junk u.w.frm u.cov u.cov.rows hf hr rfl hc (psd_symmTo hp)
  obtain rfl : c1' = c1 := by rw [e1] at h1; cases h1; rfl
  obtain ⟨r1, r2, r3⟩ := reduce_psd env.junk u.policy u.w.frm c1' c2 h2 (by omega) (by omega) (by rw [e2]; exact e4 hp) h3
  obtain ⟨s1, s2, i0, rest, s3, s4⟩ := storeCov_psd u.q s c2 hn r1 r2 r3 h4
  obtain ⟨p1, p2, p3⟩ := rep_psd s g s1 i0 rest s3 s4
  exact ⟨p1, by dsimp only; rw [p2]; exact s2, by dsimp only; rw [p2]; exact p3⟩

theorem correct_noise (dx : DMat ℝ) (s s' : PropQueue ℝ T) (m m' : FrameMgr ℝ T) (h : correct dx s m = .ok (s', m')) (hn : NoiseOk s) : NoiseOk s' := by
  unfold correct at h
  split at h
  · cases h
  · obtain ⟨_, _, h⟩ := Res.bind_eq_ok.1 h
    obtain ⟨_, _, h⟩ := Res.bind_eq_ok.1 h
    obtain ⟨_, _, h⟩ := Res.bind_eq_ok.1 h
    obtain ⟨_, _, h⟩ := Res.bind_eq_ok.1 h
    obtain ⟨_, _, h⟩ := Res.bind_eq_ok.1 h
    obtain ⟨_, _, h⟩ := Res.bind_eq_ok.1 h
    obtain ⟨_, _, h⟩ := Res.bind_eq_ok.1 h
    obtain ⟨_, _, h⟩ := Res.bind_eq_ok.1 h
    cases h
    exact ⟨hn.fr, hn.fc, hn.gr, hn.gc, hn.qc, hn.psd⟩

theorem resetOrigin_cov (s : PropQueue ℝ T) (ts thr : T) (hi : CovInv s) : CovInv (s.resetOrigin ts thr).1 := by
  obtain ⟨old, h1, -, -, -, h2⟩ := C37_reset s ts thr
  rw [h2]
  refine ⟨⟨hi.noise.fr, hi.noise.fc, hi.noise.gr, hi.noise.gc, hi.noise.qc, hi.noise.psd⟩, hi.sq, fun i hm => hi.psd i ?_⟩
  rw [h1]
  exact List.mem_append_right _ hm

/-- The update keeps the covariances positive semidefinite, whenever it is defined, whatever its result. -/
theorem update_cov (env : Env ℝ) (hext : GoodExt env.ext) (noise : ℝ) (maxUsed : Nat) (g : Vec3 ℝ) (u u' : Upd ℝ T) (ts thr : T) (good : Bool) (hi : CovInv u.q)
    (hf : u.w.frm.frames ≠ []) (hlt : (u.w.frm.extrinsics.length + u.w.frm.frames.length) * 6 < two32)
    (h : update env noise maxUsed g u ts thr = .ok (good, u')) : CovInv u'.q := by
  have hq := resetOrigin_cov u.q ts thr hi
  unfold update at h
  generalize u.q.resetOrigin ts thr = q at h hq
  obtain ⟨s, found⟩ := q
  dsimp only at h hq
  split at h
  · cases h; exact hq
  obtain ⟨policy, hp, h⟩ := Res.bind_eq_ok.1 h
  obtain ⟨⟨good1, c⟩, hc, h⟩ := Res.bind_eq_ok.1 h
  dsimp only at h hp hc
  split at h
  · cases h; exact hq
  rename_i hg1
  obtain ⟨⟨good', m⟩, hn, h⟩ := Res.bind_eq_ok.1 h
  dsimp only at h
  split at h
  · cases h; exact hq
  obtain ⟨⟨w, fs, pos⟩, hs, h⟩ := Res.bind_eq_ok.1 h
  dsimp only at h hs hn
  have hpol : policy = .noMarg ∨ 2 ≤ u.w.frm.frames.length := by
    unfold decidePolicy at hp
    split at hp
    · split at hp
      · rename_i b sn rest hr
        right
        have := congrArg List.length hr
        simp at this
        omega
      · cases hp
    · cases hp; exact .inl rfl
  obtain ⟨n1, n2⟩ := updateNewest_length _ _ _ _ hn
  have hw : w.frm = m := by
    unfold selectGood at hs
    obtain ⟨f, _, hs⟩ := Res.bind_eq_ok.1 hs
    obtain ⟨⟨w1, good1, pos1⟩, hl, hs⟩ := Res.bind_eq_ok.1 hs
    cases hs
    exact selectLoop_frm env _ _ _ _ _ _ _ hl
  have hpos : 0 < u.w.frm.frames.length := List.length_pos_iff.2 hf
  -- the assembled covariance
  obtain ⟨cr, cc, cp⟩ : c.rows + 6 = 15 + (u.w.frm.extrinsics.length + u.w.frm.frames.length) * 6 ∧ c.cols = c.rows ∧ (c.toM c.rows c.rows).PosSemidef := by
    cases hl : s.items with
    | nil =>
      unfold constructCov at hc
      rw [hl] at hc
      cases hc
    | cons i0 rest =>
      have hj := hq.psd i0 (by rw [hl]; simp)
      obtain ⟨gd, c', k1, k2, k3⟩ := C41_assembly s u.w.frm i0 rest hl hf hlt hj.rows hj.cols hj.exRows hj.exCols.symm (hq.sq.trans hj.exCols.symm)
      obtain ⟨rfl, rfl⟩ : gd = good1 ∧ c' = c := by rw [k1] at hc; cases hc; exact ⟨rfl, rfl⟩
      have hgd : gd = true := by simpa using hg1
      obtain ⟨l1, l2, l3⟩ := k3 hgd
      have hsz : i0.imuEx.cols = 6 * (u.w.frm.extrinsics.length + u.w.frm.frames.length - 1) := by
        by_contra hcon
        rw [k2.2 hcon] at hgd
        cases hgd
      refine ⟨by omega, by omega, ?_⟩
      have hX : c'.rows = 15 + s.exCamCov.rows := by rw [l1, hj.exCols]
      rw [hX]
      exact joint_psd i0 s.exCamCov c' _ (fun i j h1 h2 => l3 i j (by omega) (by omega)) hj.psd
  have hwf : w.frm.extrinsics.length = u.w.frm.extrinsics.length ∧ w.frm.frames.length = u.w.frm.frames.length := by rw [hw, n1, n2]; exact ⟨rfl, rfl⟩
  split at h
  · refine finish_psd env g _ u' good hq.noise ?_ ?_ ?_ cc cp h
    · dsimp only; exact List.length_pos_iff.1 (by omega)
    · dsimp only; rw [hwf.2]; exact hpol
    · dsimp only; rw [hwf.1, hwf.2]; exact cr
  · obtain ⟨hx, hm, h⟩ := Res.bind_eq_ok.1 h
    split at h
    · cases h; exact hq
    · rename_i hxr
      obtain ⟨u1, hu, h⟩ := Res.bind_eq_ok.1 h
      unfold updateState at hu
      obtain ⟨k, hk, hu⟩ := Res.bind_eq_ok.1 hu
      obtain ⟨⟨s1, m1⟩, hco, hu⟩ := Res.bind_eq_ok.1 hu
      dsimp only at hco hu hk
      cases hu
      obtain ⟨c1, c2, c3⟩ := correct_length _ _ _ _ _ hco
      -- definedness of the Kalman step fixes the width of the measurement matrix
      have hcols : hxr.cols = c.rows + 1 := by
        have hk2 := hk
        unfold kalman at hk2
        obtain ⟨H, b1, hk2⟩ := Res.bind_eq_ok.1 hk2
        obtain ⟨r, b2, hk2⟩ := Res.bind_eq_ok.1 hk2
        obtain ⟨PHt, b3, hk2⟩ := Res.bind_eq_ok.1 hk2
        have d1 := DMat.block_dims b1
        have d2 : hxr.cols - 1 + 1 ≤ hxr.cols := by
          unfold DMat.block at b2
          split at b2
          · rename_i hh; exact hh.2
          · cases b2
        have d3 : c.cols = H.cols := by
          unfold DMat.mul at b3
          split at b3
          · rename_i hh; exact hh
          · cases b3
        omega
      obtain ⟨k', q1, q2, q3, -, -, q4, -⟩ := C44_kalman env.ext hext noise c hxr c.rows hxr.rows rfl cc rfl hcols cp
      obtain rfl : k' = k := by rw [q1] at hk; cases hk; rfl
      refine finish_psd env g _ u' good (correct_noise _ _ _ _ _ hco hq.noise) ?_ ?_ ?_ (by dsimp only; omega) (by dsimp only; rw [q2]; exact q4) h
      · dsimp only; exact List.length_pos_iff.1 (by omega)
      · dsimp only; rw [c2, hwf.2]; exact hpol
      · dsimp only; rw [c1, c2, hwf.1, hwf.2, q2]; exact cr

/-! ### The backend -/

namespace Backend

theorem propagate_cov (s : PropQueue ℝ T) (nExt : Nat) (g a w : Vec3 ℝ) (t : T) (hi : CovInv s) : CovInv (s.propagate nExt g a w t) := by
  obtain ⟨h1, h2⟩ := step_psd nExt s (.sample g a w t) (nofun) hi.noise hi.psd
  refine ⟨h1, ?_, h2⟩
  unfold PropQueue.propagate
  split
  · rfl
  · exact hi.sq

theorem replay_cov (mounted : Bool) (nExt : Nat) (g : Vec3 ℝ) (its : List (AttItem ℝ T)) : ∀ s s' : PropQueue ℝ T, replay mounted nExt g s its = .ok s' → CovInv s → CovInv s' := by
  induction its with
  | nil => intro s s' h hi; cases h; exact hi
  | cons it its ih =>
    intro s s' h hi
    rw [replay] at h
    split at h
    · exact ih _ _ h (propagate_cov s nExt g _ _ _ hi)
    · cases h

/-- The invariant of the backend: covariances, the window within its size, and matching sizes while initialised. -/
structure CovOk (N nc : Nat) (b : Backend ℝ T) : Prop where
  cov : CovInv b.u.q
  bound : Bounded N b
  cams : b.u.w.frm.extrinsics.length = nc
  dims : b.status = .initialized → b.u.q.items ≠ [] ∧ ExDims b.u.q (6 * (b.u.w.frm.extrinsics.length + b.u.w.frm.frames.length))

theorem shrink_cams (n : Nat) : ∀ w w' : Win ℝ T, shrink n w = .ok w' → w'.frm.extrinsics = w.frm.extrinsics := by
  induction n with
  | zero => intro w w' h; cases h; rfl
  | succ n ih =>
    intro w w' h
    rw [shrink] at h
    split at h
    · obtain ⟨w1, hm, h⟩ := Res.bind_eq_ok.1 h
      exact (ih w1 w' h).trans (marginalize_keep _ _ _ hm).1
    · cases h; rfl

theorem shrunk_cams (b b' : Backend ℝ T) (h : b.shrunk = .ok b') : b'.u.q = b.u.q ∧ b'.u.w.frm.extrinsics = b.u.w.frm.extrinsics := by
  obtain ⟨w, rfl, hs⟩ := shrunk_keep b b' h
  exact ⟨rfl, shrink_cams _ _ _ hs⟩

theorem tryInit_cov (env : Env ℝ) (g : Vec3 ℝ) (b b' : Backend ℝ T) (h : b.tryInit env g = .ok b') (hi : CovInv b.u.q) :
    CovInv b'.u.q ∧ b'.u.w.frm.extrinsics = b.u.w.frm.extrinsics := by
  unfold tryInit at h
  split at h
  · obtain ⟨⟨good, b1⟩, h1, h⟩ := Res.bind_eq_ok.1 h
    obtain ⟨i1, i2, i3⟩ := initialise_queue _ _ _ _ _ h1
    dsimp only at h
    split at h
    · rename_i hg
      cases h
      obtain ⟨st, t, -, hr⟩ := i3 hg
      exact ⟨replay_cov _ _ _ _ _ _ hr ⟨⟨hi.noise.fr, hi.noise.fc, hi.noise.gr, hi.noise.gc, hi.noise.qc, hi.noise.psd⟩, hi.sq, hi.psd⟩, i1⟩
    · rename_i hg
      obtain ⟨s1, s2⟩ := shrunk_cams _ _ h
      rw [s1, (i2 (by simpa using hg)).1]
      exact ⟨hi, s2.trans i1⟩
  · cases h; exact ⟨hi, rfl⟩

theorem update_cams (env : Env ℝ) (noise : ℝ) (maxUsed : Nat) (g : Vec3 ℝ) (u u' : Upd ℝ T) (ts thr : T) (good : Bool)
    (h : update env noise maxUsed g u ts thr = .ok (good, u')) : u'.w.frm.extrinsics.length = u.w.frm.extrinsics.length := by
  cases good with
  | true => exact (update_dims _ _ _ _ _ _ _ _ h).1
  | false =>
    unfold update at h
    generalize u.q.resetOrigin ts thr = q at h
    obtain ⟨s, found⟩ := q
    dsimp only at h
    split at h
    · cases h; rfl
    obtain ⟨policy, hp, h⟩ := Res.bind_eq_ok.1 h
    obtain ⟨⟨good1, c⟩, hc, h⟩ := Res.bind_eq_ok.1 h
    dsimp only at h
    split at h
    · cases h; rfl
    obtain ⟨⟨good', m⟩, hn, h⟩ := Res.bind_eq_ok.1 h
    dsimp only at h
    obtain ⟨n1, n2⟩ := updateNewest_length _ _ _ _ hn
    split at h
    · cases h; dsimp only; rw [n1]
    obtain ⟨⟨w, fs, pos⟩, hs, h⟩ := Res.bind_eq_ok.1 h
    dsimp only at h hs
    have hw : w.frm = m := by
      unfold selectGood at hs
      obtain ⟨f, _, hs⟩ := Res.bind_eq_ok.1 hs
      obtain ⟨⟨w1, good1, pos1⟩, hl, hs⟩ := Res.bind_eq_ok.1 hs
      cases hs
      exact selectLoop_frm env _ _ _ _ _ _ _ hl
    split at h
    · exact absurd (finish_any _ _ _ _ _ h).2.2.2 (by decide)
    · obtain ⟨hx, hm, h⟩ := Res.bind_eq_ok.1 h
      split at h
      · cases h; dsimp only; rw [hw, n1]
      · obtain ⟨u1, hu, h⟩ := Res.bind_eq_ok.1 h
        exact absurd (finish_any _ _ _ _ _ h).2.2.2 (by decide)

theorem tryUpdate_cov (env : Env ℝ) (hext : GoodExt env.ext) (g : Vec3 ℝ) (b b' : Backend ℝ T) (ts : T) (hi : CovInv b.u.q) (hf : b.u.w.frm.frames ≠ [])
    (hlt : (b.u.w.frm.extrinsics.length + b.u.w.frm.frames.length) * 6 < two32) (h : b.tryUpdate env g ts = .ok b') :
    CovInv b'.u.q ∧ b'.u.w.frm.extrinsics.length = b.u.w.frm.extrinsics.length ∧
    (b'.status = .initialized → ExDims b'.u.q (6 * (b'.u.w.frm.extrinsics.length + b'.u.w.frm.frames.length))) := by
  unfold tryUpdate at h
  split at h
  · rename_i hs
    cases h
    exact ⟨hi, rfl, fun hc => absurd (hs.symm.trans hc) (by decide)⟩
  · split at h
    · obtain ⟨⟨good, u⟩, hu, h⟩ := Res.bind_eq_ok.1 h
      have hcov := update_cov env hext _ _ _ _ _ _ _ _ hi hf hlt hu
      have hcam := update_cams _ _ _ _ _ _ _ _ _ hu
      dsimp only at h
      split at h
      · rename_i hg
        subst hg
        obtain ⟨w, hw, h⟩ := Res.bind_eq_ok.1 h
        have hd := C52_sizes _ _ _ _ _ _ _ _ w (by omega) hu hw
        cases h
        exact ⟨hcov, by dsimp only; rw [(marginalize_keep _ _ _ hw).1, hcam], fun _ => hd⟩
      · have hst := (shrunk_keep _ _ h)
        obtain ⟨s1, s2⟩ := shrunk_cams _ _ h
        obtain ⟨w, e, -⟩ := hst
        refine ⟨by rw [s1]; exact hcov, by rw [s2]; exact hcam, fun hc => ?_⟩
        rw [e] at hc
        cases hc
    · cases h

theorem onImu_cov (g : Vec3 ℝ) (b b' : Backend ℝ T) (ms : List (ImuMsg ℝ T)) (r : Bool) (N nc : Nat) (hi : CovOk N nc b) (h : b.onImu g ms = .ok (r, b')) : CovOk N nc b' := by
  obtain ⟨-, ks, kw, -⟩ := onImu_keep _ _ _ _ _ h
  cases ms with
  | nil => cases h; exact hi
  | cons m ms =>
    rw [onImu] at h
    generalize b.att.propagate g m.accel m.gyro m.ts = ar at h
    obtain ⟨att, res⟩ := ar
    dsimp only at h
    split at h
    · cases h; exact ⟨hi.cov, hi.bound, hi.cams, hi.dims⟩
    · rename_i hs
      split at h
      · cases h
        refine ⟨propagate_cov _ _ _ _ _ _ hi.cov, hi.bound, hi.cams, fun _ => ?_⟩
        obtain ⟨d1, d2⟩ := hi.dims hs
        dsimp only
        obtain ⟨l, z, hz⟩ := (List.eq_nil_or_concat b.u.q.items).resolve_left d1
        unfold PropQueue.propagate
        have hlast : b.u.q.items.getLast? = some z := by rw [hz]; simp
        simp only [hlast]
        refine ⟨by simp, ?_, d2.rows, d2.cols⟩
        intro it hit
        rcases List.mem_append.1 hit with hit | hit
        · exact d2.items it hit
        · rw [List.mem_singleton.1 hit]
          exact d2.items z (List.mem_of_getLast? hlast)
      · cases h

theorem onFeat_cov (env : Env ℝ) (hext : GoodExt env.ext) (g : Vec3 ℝ) (b b' : Backend ℝ T) (m : FeatMsg ℝ T) (N nc : Nat) (hN : (nc + (max 1 N + 1)) * 6 < two32)
    (hi : CovOk N nc b) (h : b.onFeat env g m = .ok b') : CovOk N nc b' := by
  have hb' := (onFeat_bounded env g b b' m N (by omega) hi.bound h).1
  obtain ⟨b1, b2, h1, h2, h3⟩ := onFeat_eq env g b b' m h
  obtain ⟨e1, e2⟩ := insert_length b.u.w m
  have i1 : (b.setWin (b.u.w.insert m)).u.w.frm.frames.length = b.u.w.frm.frames.length + 1 := e1
  have hlen := hi.bound.2
  obtain ⟨t1, t2, t3, -, -, t6, t7⟩ := tryInit_any env g _ b1 h1 (by omega)
  obtain ⟨r1, r2, -, r4, -, r6, r7⟩ := tryUpdate_any env g b1 b2 m.ts h2 t2 (by omega)
  obtain ⟨c1, c2, -, -⟩ := cleanAtt_any _ _ h3
  have hins : (b.setWin (b.u.w.insert m)).u.w.frm.extrinsics = b.u.w.frm.extrinsics := by
    show (b.u.w.insert m).frm.extrinsics = _
    unfold Win.insert FrameMgr.addNewFrame
    rfl
  obtain ⟨a1, a2⟩ := tryInit_cov env g _ b1 h1 hi.cov
  have a3 : b1.u.w.frm.extrinsics.length = nc := by rw [a2, hins, hi.cams]
  obtain ⟨u1, u2, u3⟩ := tryUpdate_cov env hext g b1 b2 m.ts a1 (List.length_pos_iff.1 (by omega)) (by rw [a3]; omega) h2
  refine ⟨by rw [c1]; exact u1, hb', by rw [c1, u2, a3], fun hs => ?_⟩
  rw [c2] at hs
  rw [c1]
  exact ⟨(r6 hs).1, u3 hs⟩

/-- Every decomposition that the update asks for meets its specification. -/
def GoodSolvers (ops : List (BOp ℝ T)) : Prop := ∀ env, .run env ∈ ops → GoodExt env.ext

theorem covOk_run (N nc : Nat) (hN : (nc + (max 1 N + 1)) * 6 < two32) (ops : List (BOp ℝ T)) : ∀ (p p' : BProc ℝ T) (outs : List (BOut ℝ T)), GoodSolvers ops → CovOk N nc p.b →
    p.run ops = .ok (p', outs) → CovOk N nc p'.b := by
  induction ops with
  | nil => intro p p' outs _ hb h; cases h; exact hb
  | cons op ops ih =>
    intro p p' outs he hb h
    rw [BProc.run] at h
    obtain ⟨⟨p1, o⟩, hs, h⟩ := Res.bind_eq_ok.1 h
    obtain ⟨⟨p2, os⟩, hr, h⟩ := Res.bind_eq_ok.1 h
    cases h
    refine ih p1 p' os (fun env hm => he env (List.mem_cons_of_mem _ hm)) ?_ hr
    cases op with
    | run env =>
      have hext := he env (by simp)
      obtain ⟨⟨r, b'⟩, hb', hs⟩ := Res.bind_eq_ok.1 hs
      cases hs
      have hb0 : CovOk N nc { p.b with loader := p.b.loader.popOne.loader } := ⟨hb.cov, hb.bound, hb.cams, hb.dims⟩
      rcases runOnce_eq env p.g p.b b' r hb' with ⟨-, -, rfl⟩ | ⟨-, res, b1, h1, h2⟩
      · exact hb0
      · have hb1 := onImu_cov _ _ _ _ _ _ _ hb0 h1
        rcases h2 with ⟨-, -, rfl⟩ | ⟨m, -, -, h2⟩
        · exact hb1
        · exact onFeat_cov env hext p.g b1 b' m N nc hN hb1 h2
    | imu m => cases hs; exact ⟨hb.cov, hb.bound, hb.cams, hb.dims⟩
    | feat m => cases hs; exact ⟨hb.cov, hb.bound, hb.cams, hb.dims⟩
    | runTest => cases hs; exact ⟨hb.cov, hb.bound, hb.cams, hb.dims⟩
    | publishPropagate =>
      obtain ⟨_, _, hs⟩ := Res.bind_eq_ok.1 hs
      cases hs; exact hb
    | publishUpdate =>
      obtain ⟨_, _, hs⟩ := Res.bind_eq_ok.1 hs
      cases hs; exact hb
    | reset => cases hs; exact ⟨hb.cov, hb.bound, hb.cams, (nomatch ·)⟩

/-- A backend with nothing queued and configured noise meets the invariant. -/
theorem covOk_start (b : Backend ℝ T) (na ng nwa nwg : ℝ) (h1 : 0 ≤ na) (h2 : 0 ≤ ng) (h3 : 0 ≤ nwa) (h4 : 0 ≤ nwg) (st : Motion ℝ) (ba bg : Vec3 ℝ)
    (hq : b.u.q = { PropQueue.init st with Q := PropQueue.noiseMatrix na ng nwa nwg, biasA := ba, biasG := bg }) (hf : b.u.w.frm.frames = []) (hs : b.status = .needInit) :
    CovOk b.u.w.frm.maxWindowSize b.u.w.frm.extrinsics.length b := by
  refine ⟨?_, ⟨rfl, by simp [hf]⟩, rfl, fun hc => absurd (hs.symm.trans hc) (by decide)⟩
  rw [hq]
  exact ⟨⟨rfl, rfl, rfl, rfl, rfl, noiseMatrix_psd na ng nwa nwg h1 h2 h3 h4⟩, rfl, fun i hi => absurd hi List.not_mem_nil⟩

/-- C75.  After every defined history of calls, Reset and malformed messages included, of a backend configured with non-negative noise, the joint covariance of IMU state, extrinsics and
frames is symmetric and positive semidefinite for every queued state; while the filter is initialised there is a queued state and all of them have `6 * (cameras + frames)` columns for
extrinsics and frames. -/
theorem C75_covariance (lib : ConfLib ℝ) (fs : String → Option (List Char)) (path : String) (fuel : Nat) (s s' : Conf.St ℝ) (g g' : Vec3 ℝ) (st : Motion ℝ) (b : Backend ℝ T) (r : Bool)
    (hc : configParams lib fs path fuel s g (init st) = .ok (some (r, b, g', s')))
    (h1 : 0 ≤ s'.cfg.sigmaA) (h2 : 0 ≤ s'.cfg.sigmaG) (h3 : 0 ≤ s'.cfg.sigmaWA) (h4 : 0 ≤ s'.cfg.sigmaWG)
    (hN : (b.u.w.frm.extrinsics.length + (max 1 b.u.w.frm.maxWindowSize + 1)) * 6 < two32)
    (stat : LoaderStatics T) (ops : List (BOp ℝ T)) (he : GoodSolvers ops) (p' : BProc ℝ T) (outs : List (BOut ℝ T)) (h : (⟨stat, g', b⟩ : BProc ℝ T).run ops = .ok (p', outs)) :
    (∀ i ∈ p'.b.u.q.items, JointPSD p'.b.u.q.exCamCov i) ∧
    (p'.b.status = .initialized → p'.b.u.q.items ≠ [] ∧ ExDims p'.b.u.q (6 * (p'.b.u.w.frm.extrinsics.length + p'.b.u.w.frm.frames.length))) := by
  obtain ⟨rfl, hr, -⟩ := C67_config lib fs path fuel s s' g g' (init st) b r hc
  unfold configParams at hc
  rw [hr, Res.bind_ok] at hc
  dsimp only at hc
  obtain ⟨⟨b2, g2⟩, ha, hc⟩ := Res.bind_eq_ok.1 hc
  simp only [Res.ok.injEq, Option.some.injEq, Prod.mk.injEq] at hc
  obtain ⟨-, rfl, rfl, -⟩ := hc
  have hok : CovOk b2.u.w.frm.maxWindowSize b2.u.w.frm.extrinsics.length b2 := by
    unfold applyConfig at ha
    obtain ⟨ex, -, ha⟩ := Res.bind_eq_ok.1 ha
    cases ha
    exact covOk_start _ _ _ _ _ h1 h2 h3 h4 st _ _ rfl rfl rfl
  have := covOk_run _ _ hN ops _ p' outs he hok h
  exact ⟨this.cov.psd, this.dims⟩

/-- C75 with C68: on well-formed input the history is defined, so the statement is not void. -/
theorem C75_tracker [LinearOrder T] [TimeLaws T] [CastLaws T ℝ] (p : BProc ℝ T) (ops : List (BOp ℝ T)) (hf : Fresh p.b) (hr : Ready p.b) (hres : ∀ op ∈ ops, op ≠ .reset)
    (hm : ∀ m ∈ featMsgs ops, MsgOk p.b.u.w.frm.extrinsics.length m) (hc : Continuous ((featMsgs ops).map (·.ids))) (hn : (featMsgs ops).length + 1 < two32)
    (he : GoodSolvers ops) (na ng nwa nwg : ℝ) (h1 : 0 ≤ na) (h2 : 0 ≤ ng) (h3 : 0 ≤ nwa) (h4 : 0 ≤ nwg) (st : Motion ℝ) (ba bg : Vec3 ℝ)
    (hq : p.b.u.q = { PropQueue.init st with Q := PropQueue.noiseMatrix na ng nwa nwg, biasA := ba, biasG := bg })
    (hN : (p.b.u.w.frm.extrinsics.length + (max 1 p.b.u.w.frm.maxWindowSize + 1)) * 6 < two32) :
    ∃ p' outs, p.run ops = .ok (p', outs) ∧ (∀ i ∈ p'.b.u.q.items, JointPSD p'.b.u.q.exCamCov i) ∧
      (p'.b.status = .initialized → p'.b.u.q.items ≠ [] ∧ ExDims p'.b.u.q (6 * (p'.b.u.w.frm.extrinsics.length + p'.b.u.w.frm.frames.length))) := by
  obtain ⟨p', outs, h⟩ := C68_tracker_partial p ops hf hr hres hm hc hn
  have := covOk_run _ _ hN ops p p' outs he (covOk_start p.b na ng nwa nwg h1 h2 h3 h4 st ba bg hq hf.frames hf.status) h
  exact ⟨p', outs, h, this.cov.psd, this.dims⟩

/-! ### Concrete case -/

/-- A configured backend with one camera and a window of two frames. -/
noncomputable def exReal : Backend ℝ ℝ :=
  let b : Backend ℝ ℝ := init ⟨0, 0, .one⟩
  { b with
    loader := { b.loader with imuPeriod := 1/10 }
    u := { b.u with
      q := { PropQueue.init ⟨0, 0, .one⟩ with Q := PropQueue.noiseMatrix 1 2 3 4, biasA := 0, biasG := 0 }
      w := { b.u.w with frm := { b.u.w.frm with extrinsics := [⟨.one, 0⟩], maxWindowSize := 2 } } }
    noise := 1
    mounted := true }

/-- A message with two features. -/
noncomputable def exRealMsg (t : ℝ) : FeatMsg ℝ ℝ := ⟨[4, 7], [⟨[(0, ⟨1, 2⟩)]⟩, ⟨[(0, ⟨3, 1⟩)]⟩], t⟩

/-- A history with two messages of features. -/
noncomputable def exRealOps (env : Env ℝ) : List (BOp ℝ ℝ) :=
  [.imu ⟨0, ⟨6, 0, 8⟩, 1⟩, .run env, .feat (exRealMsg 1), .run env, .imu ⟨0, ⟨0, 1, 10⟩, 2⟩, .feat (exRealMsg 2), .run env, .publishUpdate]

/-- C75: a history over the reals that meets the hypotheses, with solvers that meet their specification. -/
example : ∃ env : Env ℝ, ∃ p' outs, (⟨{}, ⟨0, 0, 10⟩, exReal⟩ : BProc ℝ ℝ).run (exRealOps env) = .ok (p', outs) ∧ ∀ i ∈ p'.b.u.q.items, JointPSD p'.b.u.q.exCamCov i := by
  obtain ⟨ext, hext, -⟩ := exists_goodExt ⟨fun _ _ => 0, fun _ v => v, fun _ _ => ⟨0, 0⟩, fun _ _ _ => 0, fun _ _ => 0, fun _ _ _ => 0⟩
  have hobs : ∀ t, MsgOk 1 (exRealMsg t) := by
    intro t
    refine ⟨by show [4, 7].Nodup; decide, rfl, ?_⟩
    intro o ho
    have : o = ⟨[(0, ⟨1, 2⟩)]⟩ ∨ o = ⟨[(0, ⟨3, 1⟩)]⟩ := by simpa [exRealMsg] using ho
    rcases this with rfl | rfl <;> simp
  have hr : Ready exReal := by
    refine ⟨rfl, ?_, ?_, ⟨by decide, by decide, by decide⟩⟩
    · show (((0 : ℚ) : ℝ)) ≤ 1 / 10; norm_num
    · show (1 / 10 : ℝ) * ((55 / 100 : ℚ) : ℝ) ≤ 1 / 10; norm_num
  have hres : ∀ op ∈ exRealOps ⟨ext, id, id, fun _ _ => 0⟩, op ≠ .reset := by intro op hop h; subst h; revert hop; simp [exRealOps]
  have hm : ∀ m ∈ featMsgs (exRealOps ⟨ext, id, id, fun _ _ => 0⟩), MsgOk 1 m := by
    intro m hm
    have : m = exRealMsg 1 ∨ m = exRealMsg 2 := by simpa [exRealOps, featMsgs] using hm
    rcases this with rfl | rfl <;> exact hobs _
  have hc : Continuous ((featMsgs (exRealOps ⟨ext, id, id, fun _ _ => 0⟩)).map (·.ids)) := by
    intro x y z h
    have := h.length_le
    simp [exRealOps, featMsgs] at this
  have he : GoodSolvers (exRealOps ⟨ext, id, id, fun _ _ => 0⟩) := by
    intro env henv
    have : env = ⟨ext, id, id, fun _ _ => 0⟩ := by simpa [exRealOps] using henv
    subst this
    exact hext
  obtain ⟨p', outs, h, hp, -⟩ := C75_tracker (⟨{}, ⟨0, 0, 10⟩, exReal⟩ : BProc ℝ ℝ) (exRealOps ⟨ext, id, id, fun _ _ => 0⟩) ⟨rfl, rfl, rfl, rfl, rfl, rfl, rfl⟩
    hr hres hm hc (by show 2 + 1 < two32; decide) he 1 2 3 4 (by norm_num) (by norm_num) (by norm_num) (by norm_num) ⟨0, 0, .one⟩ 0 0 rfl (by decide)
  exact ⟨_, p', outs, h, hp⟩

end Backend
end Vio

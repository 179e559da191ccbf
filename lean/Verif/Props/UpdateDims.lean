/-
Property C52: sizes of the covariance blocks after an update and the following marginalisation.
-/
import Verif.Props.Select

set_option linter.unusedSectionVars false

namespace Vio
open Spec WinSpec

variable {K T : Type} [Add K] [Sub K] [Mul K] [Neg K] [Div K] [Zero K] [One K] [ScalarFn K]
  [TimeOps T] [TimeCast T K]

theorem DMat.setBlock_dims {a a' b : DMat K} {i j r c : Nat} (h : a.setBlock i j r c b = .ok a') : a'.rows = a.rows ∧ a'.cols = a.cols := by
  unfold DMat.setBlock at h
  split at h
  · cases h
  · split at h
    · cases h
    · cases h; exact ⟨rfl, rfl⟩

theorem DMat.block_dims {a b : DMat K} {i j r c : Nat} (h : a.block i j r c = .ok b) : b.rows = r ∧ b.cols = c := by
  unfold DMat.block at h
  split at h
  · cases h; exact ⟨rfl, rfl⟩
  · cases h

namespace Update

/-! Sizes left by each step, whenever it is defined. -/

theorem corrExt_length (dx : DMat K) (es : List (Extrinsic K)) : ∀ i es', corrExt dx i es = .ok es' → es'.length = es.length := by
  induction es with
  | nil => intro i es' h; cases h; rfl
  | cons e es ih =>
    intro i es' h
    rw [corrExt] at h
    obtain ⟨_, _, h⟩ := Res.bind_eq_ok.1 h
    obtain ⟨_, _, h⟩ := Res.bind_eq_ok.1 h
    obtain ⟨r, hr, h⟩ := Res.bind_eq_ok.1 h
    cases h
    simp [ih _ _ hr]

theorem corrFrames_length (dx : DMat K) (backId o : Nat) (st : Motion K) (fs : List (Frame K T)) :
    ∀ i fs', corrFrames dx backId o st i fs = .ok fs' → fs'.length = fs.length := by
  induction fs with
  | nil => intro i fs' h; cases h; rfl
  | cons f fs ih =>
    intro i fs' h
    rw [corrFrames] at h
    split at h
    · cases h; rfl
    · obtain ⟨_, _, h⟩ := Res.bind_eq_ok.1 h
      obtain ⟨_, _, h⟩ := Res.bind_eq_ok.1 h
      obtain ⟨r, hr, h⟩ := Res.bind_eq_ok.1 h
      cases h
      simp [ih _ _ hr]

theorem correct_length (dx : DMat K) (s s' : PropQueue K T) (m m' : FrameMgr K T) (h : correct dx s m = .ok (s', m')) :
    m'.extrinsics.length = m.extrinsics.length ∧ m'.frames.length = m.frames.length ∧ m'.maxWindowSize = m.maxWindowSize := by
  unfold correct at h
  split at h
  · cases h
  · obtain ⟨_, _, h⟩ := Res.bind_eq_ok.1 h
    obtain ⟨_, _, h⟩ := Res.bind_eq_ok.1 h
    obtain ⟨_, _, h⟩ := Res.bind_eq_ok.1 h
    obtain ⟨_, _, h⟩ := Res.bind_eq_ok.1 h
    obtain ⟨_, _, h⟩ := Res.bind_eq_ok.1 h
    obtain ⟨ex, he, h⟩ := Res.bind_eq_ok.1 h
    obtain ⟨b, _, h⟩ := Res.bind_eq_ok.1 h
    obtain ⟨fs, hf, h⟩ := Res.bind_eq_ok.1 h
    cases h
    exact ⟨corrExt_length dx _ _ _ he, corrFrames_length dx _ _ _ _ _ _ hf, rfl⟩

theorem setBack_length (fs : List (Frame K T)) (st : Motion K) : (setBack fs st).length = fs.length := by
  unfold setBack
  cases h : fs.getLast? with
  | none => rfl
  | some b =>
    have hne : fs ≠ [] := by rintro rfl; simp at h
    have := List.length_pos_iff.2 hne
    simp; omega

theorem updateNewest_length (s : PropQueue K T) (m m' : FrameMgr K T) (g : Bool) (h : updateNewest s m = .ok (g, m')) :
    m'.extrinsics = m.extrinsics ∧ m'.frames.length = m.frames.length := by
  unfold updateNewest at h
  split at h
  · cases h; exact ⟨rfl, rfl⟩
  · obtain ⟨_, _, h⟩ := Res.bind_eq_ok.1 h
    cases h
    exact ⟨rfl, setBack_length _ _⟩

theorem selectLoop_frm (env : Env K) (todo : List (Nat × Nat)) : ∀ (w w' : Win K T) (good good' : List (Nat × Nat)) (pos pos' : Nat),
    selectLoop env w good pos todo = .ok (w', good', pos') → w'.frm = w.frm := by
  induction todo with
  | nil => intro w w' _ _ _ _ h; cases h; rfl
  | cons e todo ih =>
    intro w w' good good' pos pos' h
    rw [selectLoop] at h
    obtain ⟨⟨solved, w1⟩, ht, h⟩ := Res.bind_eq_ok.1 h
    dsimp only at h
    have h1 := (triangulate_spec env.ext w w1 e.2 solved ht).1.frm
    split at h
    · exact (ih _ _ _ _ _ _ h).trans h1
    · exact (ih _ _ _ _ _ _ h).trans h1

theorem expand_dims (junk : Nat → Nat → K) (m : FrameMgr K T) (c c' : DMat K) (h : expand junk m c = .ok c') :
    c'.rows = 15 + (m.extrinsics.length + m.frames.length) * 6 ∧ c'.cols = 15 + (m.extrinsics.length + m.frames.length) * 6 := by
  unfold expand at h
  dsimp only at h
  obtain ⟨c1, h1, h⟩ := Res.bind_eq_ok.1 h
  obtain ⟨c2, h2, h⟩ := Res.bind_eq_ok.1 h
  obtain ⟨_, _, h⟩ := Res.bind_eq_ok.1 h
  obtain ⟨_, _, h⟩ := Res.bind_eq_ok.1 h
  obtain ⟨c3, h3, h⟩ := Res.bind_eq_ok.1 h
  obtain ⟨c4, h4, h⟩ := Res.bind_eq_ok.1 h
  obtain ⟨_, _, h⟩ := Res.bind_eq_ok.1 h
  obtain ⟨c5, h5, h⟩ := Res.bind_eq_ok.1 h
  have e1 := DMat.setBlock_dims h1
  have e2 := DMat.setBlock_dims h2
  have e3 := DMat.setBlock_dims h3
  have e4 := DMat.setBlock_dims h4
  have e5 := DMat.setBlock_dims h5
  have e6 := DMat.setBlock_dims h
  simp only [DMat.cr_rows, DMat.cr_cols, imuStateSize] at e1
  exact ⟨by omega, by omega⟩

/-- Number of frames that a policy drops. -/
def dropped : MargPolicy → Nat
  | .noMarg => 0
  | _ => 1

theorem reduce_dims (junk : Nat → Nat → K) (policy : MargPolicy) (m : FrameMgr K T) (c c' : DMat K)
    (hr : c.rows = 15 + (m.extrinsics.length + m.frames.length) * 6) (hc : c.cols = 15 + (m.extrinsics.length + m.frames.length) * 6) (h : reduce junk policy m c = .ok c') :
    c'.rows = 15 + (m.extrinsics.length + m.frames.length) * 6 - 6 * dropped policy ∧ c'.cols = 15 + (m.extrinsics.length + m.frames.length) * 6 - 6 * dropped policy := by
  cases policy with
  | noMarg => cases h; exact ⟨hr, hc⟩
  | margNewest =>
    cases h
    simp only [DMat.cr_rows, DMat.cr_cols, imuStateSize, dropped]
    omega
  | margSubnew =>
    unfold reduce at h
    dsimp only at h
    obtain ⟨_, _, h⟩ := Res.bind_eq_ok.1 h
    obtain ⟨_, _, h⟩ := Res.bind_eq_ok.1 h
    obtain ⟨_, _, h⟩ := Res.bind_eq_ok.1 h
    obtain ⟨_, _, h⟩ := Res.bind_eq_ok.1 h
    obtain ⟨_, _, h⟩ := Res.bind_eq_ok.1 h
    obtain ⟨_, _, h⟩ := Res.bind_eq_ok.1 h
    cases h
    simp only [DMat.cr_rows, DMat.cr_cols, imuStateSize, dropped]
    omega
  | margOldest =>
    unfold reduce at h
    dsimp only at h
    obtain ⟨_, _, h⟩ := Res.bind_eq_ok.1 h
    obtain ⟨_, _, h⟩ := Res.bind_eq_ok.1 h
    obtain ⟨_, _, h⟩ := Res.bind_eq_ok.1 h
    obtain ⟨_, _, h⟩ := Res.bind_eq_ok.1 h
    obtain ⟨_, _, h⟩ := Res.bind_eq_ok.1 h
    cases h
    simp only [DMat.cr_rows, DMat.cr_cols, imuStateSize, dropped]
    omega

theorem storeCov_dims (s s' : PropQueue K T) (c : DMat K) (h : storeCov s c = .ok s') :
    ∃ i0 rest, s'.items = i0 :: rest ∧ i0.imuCov.rows = 15 ∧ i0.imuCov.cols = 15 ∧ i0.imuEx.rows = 15 ∧ i0.imuEx.cols = c.cols - 15 ∧
      s'.exCamCov.rows = c.cols - 15 ∧ s'.exCamCov.cols = c.cols - 15 := by
  unfold storeCov at h
  split at h
  · cases h
  · obtain ⟨a, h1, h⟩ := Res.bind_eq_ok.1 h
    obtain ⟨b, h2, h⟩ := Res.bind_eq_ok.1 h
    obtain ⟨d, h3, h⟩ := Res.bind_eq_ok.1 h
    cases h
    have e1 := DMat.block_dims h1
    have e2 := DMat.block_dims h2
    have e3 := DMat.block_dims h3
    exact ⟨_, _, rfl, e1.1, e1.2, e2.1, e2.2, e3.1, e3.2⟩

theorem repropLoop_cols (g : Vec3 K) (n : Nat) (l : List (PropItem K T)) : ∀ (s : PropQueue K T) (i0 : PropItem K T), i0.imuEx.cols = n →
    ∀ it ∈ (PropQueue.repropLoop g s i0 l).2, it.imuEx.cols = n := by
  induction l with
  | nil => intro s i0 _ it h; simp [PropQueue.repropLoop] at h
  | cons i1 l ih =>
    intro s i0 h0 it h
    simp only [PropQueue.repropLoop, List.mem_cons] at h
    rcases h with rfl | h
    · exact h0
    · exact ih _ _ (show (PropQueue.stepItem s g i0 i1.accel i1.gyro i1.ts).imuEx.cols = n from h0) it h

theorem repropLoop_exCam (g : Vec3 K) (l : List (PropItem K T)) : ∀ (s : PropQueue K T) (i0 : PropItem K T), (PropQueue.repropLoop g s i0 l).1.exCamCov = s.exCamCov := by
  induction l with
  | nil => intro s i0; rfl
  | cons i1 l ih => intro s i0; rw [PropQueue.repropLoop]; exact ih _ _

/-- Every queued item and the camera covariance have size `n`. -/
structure ExDims (s : PropQueue K T) (n : Nat) : Prop where
  items : ∀ it ∈ s.items, it.imuEx.cols = n
  rows : s.exCamCov.rows = n
  cols : s.exCamCov.cols = n

theorem finish_dims (env : Env K) (g : Vec3 K) (u u' : Upd K T) (b : Bool) (h : finish env g u = .ok (b, u')) :
    u'.w = u.w ∧ u'.policy = u.policy ∧ ExDims u'.q ((u.w.frm.extrinsics.length + u.w.frm.frames.length) * 6 - 6 * dropped u.policy) := by
  unfold finish at h
  obtain ⟨c1, h1, h⟩ := Res.bind_eq_ok.1 h
  obtain ⟨c2, h2, h⟩ := Res.bind_eq_ok.1 h
  obtain ⟨s, h3, h⟩ := Res.bind_eq_ok.1 h
  cases h
  have e1 := expand_dims _ _ _ _ h1
  have e2 := reduce_dims _ _ _ _ _ e1.1 e1.2 h2
  obtain ⟨i0, rest, hi, -, -, -, d1, d2, d3⟩ := storeCov_dims _ _ _ h3
  refine ⟨rfl, rfl, ?_, ?_, ?_⟩
  · simp only [PropQueue.repropagate, hi]
    intro it hit
    rcases List.mem_cons.1 hit with rfl | hit
    · omega
    · rw [repropLoop_cols g _ rest s i0 d1 it hit]; omega
  · simp only [PropQueue.repropagate, hi, repropLoop_exCam]; omega
  · simp only [PropQueue.repropagate, hi, repropLoop_exCam]; omega

/-- After a successful update: no marginalisation within the limit, at least two frames beyond it, and matching sizes. -/
theorem update_dims (env : Env K) (noise : K) (maxUsed : Nat) (g : Vec3 K) (u u' : Upd K T) (ts thr : T) (h : update env noise maxUsed g u ts thr = .ok (true, u')) :
    u'.w.frm.extrinsics.length = u.w.frm.extrinsics.length ∧ u'.w.frm.frames.length = u.w.frm.frames.length ∧
    (u'.policy = .noMarg ∨ 2 ≤ u.w.frm.frames.length) ∧
    ExDims u'.q ((u'.w.frm.extrinsics.length + u'.w.frm.frames.length) * 6 - 6 * dropped u'.policy) := by
  unfold update at h
  generalize u.q.resetOrigin ts thr = q at h
  obtain ⟨s, found⟩ := q
  dsimp only at h
  split at h
  · cases h
  obtain ⟨policy, hp, h⟩ := Res.bind_eq_ok.1 h
  obtain ⟨⟨good, c⟩, hc, h⟩ := Res.bind_eq_ok.1 h
  dsimp only at h hp
  split at h
  · cases h
  obtain ⟨⟨good', m⟩, hn, h⟩ := Res.bind_eq_ok.1 h
  dsimp only at h
  split at h
  · cases h
  obtain ⟨⟨w, fs, pos⟩, hs, h⟩ := Res.bind_eq_ok.1 h
  dsimp only at h hs hn
  have hpol : policy = .noMarg ∨ 2 ≤ u.w.frm.frames.length := by
    unfold decidePolicy at hp
    split at hp
    · split at hp
      · rename_i b sn rest hr
        right
        have := congrArg List.length hr
        simp at this
        omega
      · cases hp
    · cases hp; exact .inl rfl
  obtain ⟨n1, n2⟩ := updateNewest_length _ _ _ _ hn
  have hw : w.frm = m := by
    unfold selectGood at hs
    obtain ⟨f, _, hs⟩ := Res.bind_eq_ok.1 hs
    obtain ⟨⟨w1, good1, pos1⟩, hl, hs⟩ := Res.bind_eq_ok.1 hs
    cases hs
    exact selectLoop_frm env _ _ _ _ _ _ _ hl
  split at h
  · obtain ⟨e1, e2, e3⟩ := finish_dims _ _ _ _ _ h
    dsimp only at e1 e2 e3
    rw [e1, e2, hw, n1, n2] at *
    refine ⟨rfl, rfl, hpol, ?_⟩
    simpa only [hw, n1, n2] using e3
  · obtain ⟨hx, hm, h⟩ := Res.bind_eq_ok.1 h
    split at h
    · cases h
    · obtain ⟨u1, hu, h⟩ := Res.bind_eq_ok.1 h
      unfold updateState at hu
      obtain ⟨k, hk, hu⟩ := Res.bind_eq_ok.1 hu
      obtain ⟨⟨s1, m1⟩, hco, hu⟩ := Res.bind_eq_ok.1 hu
      dsimp only at hco hu
      have hu1 : u1.w.frm = m1 ∧ u1.policy = policy := by cases hu; exact ⟨rfl, rfl⟩
      obtain ⟨c1, c2, c3⟩ := correct_length _ _ _ _ _ hco
      obtain ⟨e1, e2, e3⟩ := finish_dims _ _ _ _ _ h
      rw [hw, n1] at c1
      rw [hw, n2] at c2
      rw [e1, e2, hu1.1, hu1.2, c1, c2]
      refine ⟨rfl, rfl, hpol, ?_⟩
      rw [hu1.1, hu1.2, c1, c2] at e3
      exact e3

/-- C52.  After every successful update and the marginalisation with the policy it chose, the cross block of every queued item and the camera covariance have
`6 * (cameras + frames)` columns (and rows). -/
theorem C52_sizes (env : Env K) (noise : K) (maxUsed : Nat) (g : Vec3 K) (u u' : Upd K T) (ts thr : T) (w' : Win K T) (hlt : u.w.frm.frames.length < two32)
    (h : update env noise maxUsed g u ts thr = .ok (true, u')) (hm : u'.w.marginalize u'.policy = .ok w') :
    ExDims u'.q (6 * (w'.frm.extrinsics.length + w'.frm.frames.length)) := by
  obtain ⟨h1, h2, h3, h4⟩ := update_dims env noise maxUsed g u u' ts thr h
  by_cases hn : u'.policy = .noMarg
  · rw [hn] at hm h4
    cases hm
    simp only [dropped, Nat.mul_zero, Nat.sub_zero] at h4
    rwa [Nat.mul_comm]
  · have h2' : 2 ≤ u'.w.frm.frames.length := by
      rcases h3 with h3 | h3
      · exact absurd h3 hn
      · omega
    obtain ⟨d, hd⟩ : ∃ d, dropIndex u'.w.frm.frames.length u'.policy = some d := by
      cases hp : u'.policy with
      | noMarg => exact absurd hp hn
      | margOldest => exact ⟨_, rfl⟩
      | margSubnew => exact ⟨_, rfl⟩
      | margNewest => exact ⟨_, rfl⟩
    have hl := (C43_window u'.w w' u'.policy d h2' (by omega) hd hm).1
    have hx : w'.frm.extrinsics = u'.w.frm.extrinsics := by
      have hrf : ∀ i, (u'.w.frm.removeFrame i).1.extrinsics = u'.w.frm.extrinsics := by
        intro i; unfold FrameMgr.removeFrame; split <;> rfl
      cases hp : u'.policy with
      | noMarg => exact absurd hp hn
      | margOldest =>
        rw [hp] at hm
        obtain ⟨_, _, hm⟩ := Res.bind_eq_ok.1 hm
        obtain ⟨_, _, hm⟩ := Res.bind_eq_ok.1 hm
        cases hm; exact hrf _
      | margSubnew =>
        rw [hp] at hm
        obtain ⟨_, _, hm⟩ := Res.bind_eq_ok.1 hm
        obtain ⟨_, _, hm⟩ := Res.bind_eq_ok.1 hm
        cases hm; exact hrf _
      | margNewest =>
        rw [hp] at hm
        obtain ⟨_, _, hm⟩ := Res.bind_eq_ok.1 hm
        obtain ⟨_, _, hm⟩ := Res.bind_eq_ok.1 hm
        cases hm; exact hrf _
    have hdr : dropped u'.policy = 1 := by
      cases hp : u'.policy <;> first | rfl | exact absurd hp hn
    rw [hdr] at h4
    rw [hl, hx]
    have e : 6 * (u'.w.frm.extrinsics.length + (u'.w.frm.frames.length - 1)) = (u'.w.frm.extrinsics.length + u'.w.frm.frames.length) * 6 - 6 * 1 := by omega
    rw [e]
    exact h4

/-- C52: an update that runs through, with one camera and a window that grows from one to two frames. -/
example : (update (T := ℚ) selEnv (1 : ℚ) 5 ⟨0, 0, 10⟩ ⟨{ (PropQueue.init ⟨0, 0, .one⟩ : PropQueue ℚ ℚ) with
    items := [⟨⟨0, 0, .one⟩, exCov 15, ⟨15, 12, fun i j => i - j⟩, 0, 0, 1⟩, ⟨⟨0, 0, .one⟩, exCov 15, ⟨15, 12, fun i j => i - j⟩, 0, 0, 2⟩], exCamCov := exCov 12 },
    selWin, .noMarg, .zero 0 0, [], 0⟩ 1 (1/2)).check
      (fun r => r.1 && r.2.q.exCamCov.rows == 18 && decide (r.2.features = [0, 1]) && r.2.q.items.length == 2) = true := by decide +kernel

end Update
end Vio

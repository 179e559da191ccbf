/-
The order of the cameras in an observation: the update, the initialisation and whole histories, for C121.
-/
import Verif.Lemmas.Cams

set_option linter.unusedSectionVars false

namespace Vio
open Spec WinSpec Update Res DMat

section Real
variable {T : Type} [TimeOps T] [TimeCast T ℝ]

/-! ### The update -/

/-- States of the update that are equal up to entries outside the matrices and the order of the cameras. -/
structure UCam (u u' : Upd ℝ T) : Prop where
  q : QSame u.q u'.q
  w : u.w.Cam u'.w
  policy : u.policy = u'.policy
  cov : DMat.Agree u.cov u'.cov
  pos : u.pos = u'.pos

theorem finish_win (env : Env ℝ) (g : Vec3 ℝ) (u : Upd ℝ T) (w' : Win ℝ T) (h : u.w.frm = w'.frm) :
    Sim (fun x y => x.1 = y.1 ∧ x.2.w = u.w ∧ y.2 = { x.2 with w := w' }) (finish env g u) (finish env g { u with w := w' }) := by
  unfold finish
  dsimp only
  rw [← h]
  refine (Sim.of_eq rfl).bind (fun c _ _ _ e => ?_); subst e
  refine (Sim.of_eq rfl).bind (fun c' _ _ _ e => ?_); subst e
  refine (Sim.of_eq rfl).bind (fun s _ _ _ e => ?_); subst e
  exact .ok ⟨rfl, rfl, rfl⟩

theorem finish_cam (env : Env ℝ) (g : Vec3 ℝ) {u u' : Upd ℝ T} (h : UCam u u') (hf : 1 ≤ u.w.frm.frames.length)
    (hr : 15 + (u.w.frm.extrinsics.length + u.w.frm.frames.length) * 6 - 6 ≤ u.cov.rows) (hc : 15 + (u.w.frm.extrinsics.length + u.w.frm.frames.length) * 6 - 6 ≤ u.cov.cols) :
    Sim (fun x y => x.1 = y.1 ∧ UCam x.2 y.2) (finish env g u) (finish env g u') := by
  intro x hx
  obtain ⟨y, hy, e1, e2⟩ := (finish_same env env g (u' := { u' with w := u.w }) ⟨h.q, rfl, h.policy, h.cov, h.pos⟩ hf hr hc).sim x hx
  obtain ⟨z, hz, e3, e4, e5⟩ := finish_win env g { u' with w := u.w } u'.w h.w.frm y hy
  refine ⟨z, hz, e1.trans e3, ?_⟩
  rw [e5]
  exact ⟨e2.q, by rw [e2.w, e4]; exact h.w, e2.policy, e2.cov, e2.pos⟩

/-- Two updates from states that are equal up to the order of the cameras end alike, if the Kalman steps agree. -/
theorem update_cam (env : Env ℝ) (hsvd : env.ext.SvdOfColumns) (noise : ℝ) (maxUsed : Nat) (g : Vec3 ℝ) {u u' : Upd ℝ T} (ts thr : T) (h : UCam u u') (hf : 1 ≤ u.w.frm.frames.length)
    (hN : (u.w.frm.extrinsics.length + u.w.frm.frames.length) * 6 < two32)
    (hsolve : ∀ m c c' w w' fs pos, updateNewest (u.q.resetOrigin ts thr).1 u.w.frm = .ok (true, m) → constructCov (u.q.resetOrigin ts thr).1 u.w.frm = .ok (true, c) → DMat.Agree c c' →
      selectGood env maxUsed { u.w with frm := m } u.pos = .ok (w, fs, pos) → w.Cam w' → Both KSame (solve env noise c w fs) (solve env noise c' w' fs)) :
    Sim (fun x y => x.1 = y.1 ∧ UCam x.2 y.2) (update env noise maxUsed g u ts thr) (update env noise maxUsed g u' ts thr) := by
  rw [update_eq, update_eq]
  obtain ⟨r1, r2⟩ := resetOrigin_same h.q ts thr
  rw [← r2, ← h.pos, ← decidePolicy_cam h.w, ← h.w.frm]
  generalize u.q.resetOrigin ts thr = qa at *
  generalize u'.q.resetOrigin ts thr = qb at *
  split
  · exact .ok ⟨rfl, r1, h.w, h.policy, h.cov, rfl⟩
  refine (Sim.of_eq rfl).bind (fun policy _ _ _ e => ?_); subst e
  refine (constructCov_same r1 u.w.frm).sim.bind (fun ⟨gc, c⟩ ⟨gc', c'⟩ hc _ e => ?_)
  obtain ⟨e1, e2⟩ := e
  dsimp only at e1 e2 ⊢
  subst e1
  split
  · exact .ok ⟨rfl, r1, h.w, rfl, e2, rfl⟩
  rename_i hgc
  obtain rfl : gc = true := by simpa using hgc
  rw [← updateNewest_same r1]
  refine (Sim.of_eq rfl).bind (fun ⟨gm, m⟩ _ hm _ e => ?_)
  subst e
  dsimp only
  split
  · exact .ok ⟨rfl, r1, ⟨h.w.feat, rfl⟩, rfl, e2, rfl⟩
  rename_i hgm
  obtain rfl : gm = true := by simpa using hgm
  obtain ⟨n1, n2⟩ := updateNewest_length _ _ _ _ hm
  obtain ⟨d1, d2⟩ := constructCov_dims _ _ _ _ hf hN hc
  have hww : Win.Cam { u.w with frm := m } { u'.w with frm := m } := ⟨h.w.feat, rfl⟩
  refine (selectGood_cam env hsvd maxUsed hww u.pos).bind (fun ⟨w, fs, pos⟩ ⟨w', fs', pos'⟩ hs _ e => ?_)
  obtain ⟨s1, s2⟩ := e
  dsimp only at s1 s2 ⊢
  cases s2
  have hw : w.frm = m := by
    unfold selectGood at hs
    obtain ⟨f, _, hs⟩ := Res.bind_eq_ok.1 hs
    obtain ⟨⟨w1, good1, pos1⟩, hl, hs⟩ := Res.bind_eq_ok.1 hs
    cases hs
    exact selectLoop_frm env _ _ _ _ _ _ _ hl
  unfold afterSelect
  dsimp only
  have hw1 : w.frm.extrinsics.length = u.w.frm.extrinsics.length := by rw [hw, n1]
  have hw2 : w.frm.frames.length = u.w.frm.frames.length := by rw [hw, n2]
  split
  · refine finish_cam env g ⟨r1, s1, rfl, e2, rfl⟩ ?_ ?_ ?_
    · show 1 ≤ w.frm.frames.length; omega
    · show 15 + (w.frm.extrinsics.length + w.frm.frames.length) * 6 - 6 ≤ c.rows; rw [hw1, hw2, d1]
    · show 15 + (w.frm.extrinsics.length + w.frm.frames.length) * 6 - 6 ≤ c.cols; rw [hw1, hw2, d2]
  · refine (hsolve m c c' w w' fs pos hm hc e2 hs s1).sim.bind (fun k k' hk _ e => ?_)
    cases k with
    | none =>
      cases k' with
      | none => exact .ok ⟨rfl, r1, s1, rfl, e2, rfl⟩
      | some k' => exact absurd e (by simp [KSame])
    | some k =>
      cases k' with
      | none => exact absurd e (by simp [KSame])
      | some k' =>
        obtain ⟨k1, k2⟩ := e
        dsimp only
        rw [← s1.frm]
        refine (correct_same k1 r1 w.frm).sim.bind (fun ⟨s, m1⟩ ⟨s', m1'⟩ hco _ e => ?_)
        obtain ⟨q1, q2⟩ := e
        dsimp only at q1 q2 ⊢
        subst q2
        obtain ⟨l1, l2, -⟩ := correct_length _ _ _ _ _ hco
        obtain ⟨x1, x2⟩ := solve_dims _ _ _ _ _ _ hk
        refine finish_cam env g ⟨q1, ⟨s1.feat, rfl⟩, rfl, k2, rfl⟩ ?_ ?_ ?_
        · show 1 ≤ m1.frames.length; omega
        · show 15 + (m1.extrinsics.length + m1.frames.length) * 6 - 6 ≤ k.cov.rows; rw [x1, l1, l2, hw1, hw2, d1]
        · show 15 + (m1.extrinsics.length + m1.frames.length) * 6 - 6 ≤ k.cov.cols; rw [x2, l1, l2, hw1, hw2, d2]

/-- The Kalman steps of two updates whose windows differ in the order of the cameras agree. -/
theorem solve_cam (env : Env ℝ) (hext : GoodExt env.ext) (noise : ℝ) (maxUsed : Nat)
    (u : Upd ℝ T) (ts thr : T) (l : Log ℝ T) (hr : Rel l u.w) (hg : ∀ m ∈ l.msgs, GoodObs u.w.frm.extrinsics.length m) (h1 : 1 ≤ l.msgs.length)
    (hfit : Fits u.w.frm.extrinsics.length l.msgs.length maxUsed) (hi : CovInv u.q) (m : FrameMgr ℝ T) (c c' : DMat ℝ) (w w' : Win ℝ T) (fs : List Nat) (pos : Nat)
    (hm : updateNewest (u.q.resetOrigin ts thr).1 u.w.frm = .ok (true, m)) (hc : constructCov (u.q.resetOrigin ts thr).1 u.w.frm = .ok (true, c)) (hcc : Agree c c')
    (hs : selectGood env maxUsed { u.w with frm := m } u.pos = .ok (w, fs, pos)) (hw : w.Cam w') (hrank : ∀ r ∈ fs, LandmarkRank w.frm (w.feat.heap r)) :
    Both KSame (solve env noise c w fs) (solve env noise c' w' fs) := by
  have hlen := hr.len
  have hlt : (u.w.frm.extrinsics.length + u.w.frm.frames.length) * 6 < two32 := by rw [hlen]; exact hfit.cols
  obtain ⟨f, fl, f1, f2, f3, f4, f5⟩ := selected_ready env maxUsed u _ m l hr hg h1 hfit hm
  obtain ⟨g1, g2, g3, g4⟩ := f5 w fs pos hs
  obtain ⟨n1, n2⟩ := updateNewest_length _ _ _ _ hm
  have hcols : hxCols w.frm = hxCols u.w.frm := by
    unfold hxCols
    rw [g2, n1, n2]
  obtain ⟨c1, c2, c3⟩ := constructCov_symm _ _ c (resetOrigin_cov u.q ts thr hi) (List.length_pos_iff.1 (by omega)) hlt hc
  rw [← hcols] at c1 c2 c3
  exact kalman_cam env hext noise c c' hw l.base g1 fs g3 hrank g4 c1 c2 (by rw [← hcc.rows]; exact c1) (by rw [← hcc.cols]; exact c2)
    (fun i j hi hj => hcc.at' i j (by omega) (by omega)) c3

/-! ### The initialisation -/

namespace Backend

theorem triMultiView_cam (ext : Ext ℝ) (hs : ext.SvdOfColumns) (f : Frame ℝ T) (l : List (Nat × Nat)) : ∀ {w w' : Win ℝ T}, w.Cam w' → Sim Win.Cam (triMultiView ext f w l) (triMultiView ext f w' l) := by
  induction l with
  | nil => intro w w' h; exact .ok h
  | cons e l ih =>
    intro w w' h
    rw [triMultiView, triMultiView]
    dsimp only
    have hf := h.feat.heap e.2
    rw [← hf.first, ← h.frm, ← hf.pw]
    refine (idx_rel hf.observes _).bind (fun o o' _ _ ho => ?_)
    refine (obsViews_cam w.frm f ho.perm).bind (fun vs vs' _ _ hv => ?_)
    rw [← analytic_cam ext hs _ hv]
    refine (Sim.of_eq rfl).bind (fun ⟨good, pw⟩ _ _ _ e => ?_); subst e
    dsimp only
    refine ih ⟨put_cam h.feat e.2 ?_, rfl⟩
    exact ⟨hf.id, rfl, hf.observes, hf.observeNum, rfl, rfl⟩

theorem framePoints_cam {s s' : FMgr ℝ} (h : s.Cam s') (f : Frame ℝ T) : framePoints s f = framePoints s' f := by
  unfold framePoints
  refine List.filterMap_congr (fun e _ => ?_)
  rw [(h.heap e.2).status, getNorm_cam (h.heap e.2), (h.heap e.2).pw]

theorem estimateFramePose_cam (ext : Ext ℝ) (prm : PnpParam ℝ) {w w' : Win ℝ T} (h : w.Cam w') (f : Frame ℝ T) : estimateFramePose ext prm w f = estimateFramePose ext prm w' f := by
  unfold estimateFramePose
  rw [framePoints_cam h.feat, h.frm]

/-- Loaders whose waiting messages are equal up to the order of the cameras. -/
structure LCam (l l' : Loader ℝ T) : Prop where
  feat : List.Forall₂ FeatMsg.SameMaps l.featMeas l'.featMeas
  imu : l.imuMeas = l'.imuMeas
  offset : l.offset = l'.offset
  period : l.imuPeriod = l'.imuPeriod

/-- Backends that are equal up to entries outside the matrices and the order of the cameras. -/
structure BCam (b b' : Backend ℝ T) : Prop where
  loader : LCam b.loader b'.loader
  u : UCam b.u b'.u
  att : b.att = b'.att
  noise : b.noise = b'.noise
  maxUsed : b.maxUsed = b'.maxUsed
  mounted : b.mounted = b'.mounted
  pnp : b.pnp = b'.pnp
  status : b.status = b'.status

theorem BCam.setWin {b b' : Backend ℝ T} (h : BCam b b') {w w' : Win ℝ T} (hw : w.Cam w') : BCam (b.setWin w) (b'.setWin w') :=
  ⟨h.loader, ⟨h.u.q, hw, h.u.policy, h.u.cov, h.u.pos⟩, h.att, h.noise, h.maxUsed, h.mounted, h.pnp, h.status⟩

theorem initPropagator_cam {b b' : Backend ℝ T} (h : BCam b b') (g : Vec3 ℝ) (st : Motion ℝ) (t : T) : Sim BCam (initPropagator g b st t) (initPropagator g b' st t) := by
  unfold initPropagator
  dsimp only
  rw [← h.att, ← h.loader.period, ← h.mounted, ← h.u.w.frm]
  refine (Sim.of_eq rfl).bind (fun att _ _ _ e => ?_); subst e
  refine (replay_same b.mounted _ g att.items { b.u.q with initState := st } { b'.u.q with initState := st }
    ⟨h.u.q.items, h.u.q.exCam, h.u.q.biasA, h.u.q.biasG, rfl, h.u.q.F, h.u.q.G, h.u.q.Q, h.u.q.f1, h.u.q.f2, h.u.q.g1⟩).sim.bind (fun s s' _ _ hs => ?_)
  exact .ok ⟨h.loader, ⟨hs, h.u.w, h.u.policy, h.u.cov, h.u.pos⟩, rfl, h.noise, h.maxUsed, rfl, h.pnp, h.status⟩

theorem setFrames_cam {w w' : Win ℝ T} (h : w.Cam w') (a b : Frame ℝ T) (l : List (Frame ℝ T)) : (setFrames w a b l).Cam (setFrames w' a b l) :=
  ⟨h.feat, by unfold setFrames; dsimp only; rw [h.frm]⟩

theorem front_items {q q' : PropQueue ℝ T} (h : QSame q q') : Sim (fun _ _ => True) (front q.items) (front q'.items) := by
  intro x hx
  cases hq : q'.items with
  | nil =>
    have := h.items.length_eq
    rw [hq] at this
    rw [List.length_eq_zero_iff.1 this] at hx
    cases hx
  | cons i l => exact ⟨i, rfl, trivial⟩

/-- The initialisation of a backend whose observations list the cameras in another order. -/
theorem initialise_cam (env : Env ℝ) (hs : env.ext.SvdOfColumns) (g : Vec3 ℝ) {b b' : Backend ℝ T} (h : BCam b b') :
    Sim (fun x y => x.1 = y.1 ∧ BCam x.2 y.2) (initialise env g b) (initialise env g b') := by
  unfold initialise
  rw [← h.u.w.frm]
  rcases h1 : b.u.w.frm.frames with _ | ⟨fi, _ | ⟨fj, rest⟩⟩
  · exact .ok ⟨rfl, h⟩
  · exact .ok ⟨rfl, h⟩
  · dsimp only
    rw [← h.att, ← h.loader.period, ← h.pnp]
    split
    · exact .ok ⟨rfl, h⟩
    refine (Sim.of_eq rfl).bind (fun a _ _ _ e => ?_); subst e
    cases a with
    | none => exact .ok ⟨rfl, h⟩
    | some q =>
      dsimp only
      refine (triMultiView_cam env.ext hs _ _ (setFrames_cam h.u.w _ _ _)).bind (fun w w' _ _ hw => ?_)
      rw [← estimateFramePose_cam env.ext b.pnp hw]
      refine (Sim.of_eq rfl).bind (fun ⟨good, fj1⟩ _ _ _ e => ?_); subst e
      dsimp only
      split
      · exact .ok ⟨rfl, h.setWin (setFrames_cam hw _ _ _)⟩
      · refine (initPropagator_cam (h.setWin (setFrames_cam hw _ _ _)) g _ _).bind (fun b1 b1' _ _ e => ?_)
        refine (front_items e.u.q).bind (fun _ _ _ _ _ => ?_)
        exact .ok ⟨rfl, e⟩

/-! ### The backend -/

theorem shrink_cam (n : Nat) : ∀ {w w' : Win ℝ T}, w.Cam w' → Sim Win.Cam (shrink n w) (shrink n w') := by
  induction n with
  | zero => intro w w' h; exact .ok h
  | succ n ih =>
    intro w w' h
    rw [shrink, shrink, ← h.frm]
    split
    · exact (marginalize_cam h _).bind (fun w1 w1' _ _ h1 => ih h1)
    · exact .ok h

theorem shrunk_cam {b b' : Backend ℝ T} (h : BCam b b') : Sim BCam b.shrunk b'.shrunk := by
  unfold shrunk
  rw [← h.u.w.frm]
  exact (shrink_cam _ h.u.w).bind (fun w w' _ _ hw => .ok (h.setWin hw))

theorem tryInit_cam (env : Env ℝ) (hs : env.ext.SvdOfColumns) (g : Vec3 ℝ) {b b' : Backend ℝ T} (h : BCam b b') : Sim BCam (b.tryInit env g) (b'.tryInit env g) := by
  unfold tryInit
  rw [← h.status]
  cases hst : b.status with
  | needInit =>
    refine (initialise_cam env hs g h).bind (fun ⟨r, b1⟩ ⟨r', b1'⟩ _ _ e => ?_)
    obtain ⟨e1, e2⟩ := e
    dsimp only at e1 e2 ⊢
    subst e1
    split
    · exact .ok ⟨e2.loader, e2.u, e2.att, e2.noise, e2.maxUsed, e2.mounted, e2.pnp, rfl⟩
    · exact shrunk_cam e2
  | initialized => exact .ok h

theorem tryUpdate_cam (env : Env ℝ) (g : Vec3 ℝ) {b b' : Backend ℝ T} (ts : T) (h : BCam b b')
    (hu : b.status = .initialized → Sim (fun x y => x.1 = y.1 ∧ UCam x.2 y.2) (update env b.noise b.maxUsed g b.u ts b.loader.imuPeriod) (update env b.noise b.maxUsed g b'.u ts b.loader.imuPeriod)) :
    Sim BCam (b.tryUpdate env g ts) (b'.tryUpdate env g ts) := by
  unfold tryUpdate
  rw [← h.status, ← h.mounted, ← h.noise, ← h.maxUsed, ← h.loader.period]
  cases hs : b.status with
  | needInit => exact .ok h
  | initialized =>
    dsimp only
    split
    · refine (hu hs).bind (fun ⟨r, u⟩ ⟨r', u'⟩ _ _ e => ?_)
      obtain ⟨e1, e2⟩ := e
      dsimp only at e1 e2 ⊢
      subst e1
      split
      · rw [← e2.policy]
        refine (marginalize_cam e2.w _).bind (fun w w' _ _ hww => ?_)
        refine .ok ⟨h.loader, ⟨e2.q, hww, rfl, e2.cov, e2.pos⟩, ?_, rfl, rfl, rfl, h.pnp, rfl⟩
        dsimp only
        rw [h.att, e2.q.biasA, e2.q.biasG]
      · exact shrunk_cam ⟨h.loader, e2, h.att, rfl, rfl, rfl, h.pnp, rfl⟩
    · exact .ub

theorem cleanAtt_cam {b b' : Backend ℝ T} (h : BCam b b') : Sim BCam b.cleanAtt b'.cleanAtt := by
  unfold cleanAtt
  rw [← h.u.w.frm, ← h.att, ← h.loader.period]
  split
  · refine (Sim.of_eq rfl).bind (fun f _ _ _ e => ?_); subst e
    refine (Sim.of_eq rfl).bind (fun att _ _ _ e => ?_); subst e
    exact .ok ⟨h.loader, h.u, rfl, h.noise, h.maxUsed, h.mounted, h.pnp, h.status⟩
  · exact .ok h

theorem onImu_cam (g : Vec3 ℝ) {b b' : Backend ℝ T} (h : BCam b b') (ms : List (ImuMsg ℝ T)) : Sim (fun x y => x.1 = y.1 ∧ BCam x.2 y.2) (b.onImu g ms) (b'.onImu g ms) := by
  cases ms with
  | nil => exact .ok ⟨rfl, h⟩
  | cons m ms =>
    rw [onImu, onImu, ← h.att]
    generalize b.att.propagate g m.accel m.gyro m.ts = ar
    obtain ⟨att, res⟩ := ar
    dsimp only
    rw [← h.status, ← h.mounted, ← h.u.w.frm]
    split
    · exact .ok ⟨rfl, h.loader, h.u, rfl, h.noise, h.maxUsed, rfl, h.pnp, rfl⟩
    · split
      · exact .ok ⟨rfl, h.loader, ⟨propagate_same h.u.q _ g _ _ _, h.u.w, h.u.policy, h.u.cov, h.u.pos⟩, rfl, h.noise, h.maxUsed, rfl, h.pnp, rfl⟩
      · exact .ub

theorem publish_cam {b b' : Backend ℝ T} (h : BCam b b') : b.publishPropagate = b'.publishPropagate ∧ b.publishUpdate = b'.publishUpdate :=
  publish_same (b := b) (b' := { b' with loader := b.loader, u := { b'.u with w := b.u.w } })
    ⟨rfl, ⟨h.u.q, rfl, h.u.policy, h.u.cov, h.u.pos⟩, h.att, h.noise, h.maxUsed, h.mounted, h.pnp, h.status⟩

/-! ### The loader -/

theorem pushFeatures_cam (s : LoaderStatics T) {l l' : Loader ℝ T} (h : LCam l l') {m m' : FeatMsg ℝ T} (hm : m.SameMaps m') :
    (l.pushFeatures s m).statics = (l'.pushFeatures s m').statics ∧ LCam (l.pushFeatures s m).loader (l'.pushFeatures s m').loader := by
  unfold Loader.pushFeatures
  rw [← hm.ids, ← hm.observes.length_eq, ← hm.ts, ← h.offset]
  split
  · exact ⟨rfl, h⟩
  · dsimp only
    refine ⟨rfl, ?_, h.imu, rfl, h.period⟩
    dsimp only
    generalize (if TimeOps.isNaN l.offset = true then m.ts else l.offset) = off
    by_cases hc : TimeOps.lt (s.lastFeat.getD (TimeOps.sub (TimeOps.sub m.ts off) (TimeOps.tlit 1))) (TimeOps.sub m.ts off) = true
    · rw [if_pos hc, if_pos hc]
      exact List.rel_append (R := FeatMsg.SameMaps) h.feat (.cons ⟨rfl, hm.observes, rfl⟩ .nil)
    · rw [if_neg hc, if_neg hc]
      exact h.feat

theorem pushImu_cam (s : LoaderStatics T) {l l' : Loader ℝ T} (h : LCam l l') (m : ImuMsg ℝ T) :
    (l.pushImu s m).statics = (l'.pushImu s m).statics ∧ LCam (l.pushImu s m).loader (l'.pushImu s m).loader := by
  unfold Loader.pushImu
  rw [← h.offset, ← h.imu]
  exact ⟨rfl, h.feat, rfl, rfl, h.period⟩

/-- What is handed out: the same IMU messages and the same message up to the order of the cameras. -/
theorem popOne_cam {l l' : Loader ℝ T} (h : LCam l l') : l.popOne.ret = l'.popOne.ret ∧ l.popOne.out.imuMeas = l'.popOne.out.imuMeas ∧ LCam l.popOne.loader l'.popOne.loader ∧
    (l.popOne.out.featMeas = none ∧ l'.popOne.out.featMeas = none ∨ ∃ m m', l.popOne.out.featMeas = some m ∧ l'.popOne.out.featMeas = some m' ∧ m.SameMaps m') := by
  obtain ⟨fs, is, off, per⟩ := l
  obtain ⟨fs', is', off', per'⟩ := l'
  obtain ⟨h1, h2, h3, h4⟩ := h
  dsimp only at h1 h2 h3 h4
  subst h2 h3 h4
  cases h1 with
  | nil =>
    cases is with
    | nil => exact ⟨rfl, rfl, ⟨.nil, rfl, rfl, rfl⟩, .inl ⟨rfl, rfl⟩⟩
    | cons i is => exact ⟨rfl, rfl, ⟨.nil, rfl, rfl, rfl⟩, .inl ⟨rfl, rfl⟩⟩
  | cons hm ht =>
    cases is with
    | nil => exact ⟨rfl, rfl, ⟨ht, rfl, rfl, rfl⟩, .inr ⟨_, _, rfl, rfl, hm⟩⟩
    | cons i is =>
      unfold Loader.popOne
      dsimp only
      rw [← hm.ts]
      split
      · split
        · exact ⟨rfl, rfl, ⟨ht, rfl, rfl, rfl⟩, .inr ⟨_, _, rfl, rfl, hm⟩⟩
        · exact ⟨rfl, rfl, ⟨ht, rfl, rfl, rfl⟩, .inr ⟨_, _, rfl, rfl, hm⟩⟩
      · exact ⟨rfl, rfl, ⟨.cons hm ht, rfl, rfl, rfl⟩, .inl ⟨rfl, rfl⟩⟩

/-- In the next call of `RunOnce` the Jacobian of every selected feature with respect to its landmark has full rank. -/
def RankedCall (env : Env ℝ) (p : BProc ℝ T) : Prop :=
  ∀ res b1 m b2 mgr w2 sel pos, onImu p.g { p.b with loader := p.b.loader.popOne.loader } p.b.loader.popOne.out.imuMeas = .ok (res, b1) → p.b.loader.popOne.out.featMeas = some m →
    (b1.setWin (b1.u.w.insert m)).tryInit env p.g = .ok b2 → b2.status = .initialized →
    updateNewest (b2.u.q.resetOrigin m.ts b2.loader.imuPeriod).1 b2.u.w.frm = .ok (true, mgr) →
    selectGood env b2.maxUsed { b2.u.w with frm := mgr } b2.u.pos = .ok (w2, sel, pos) → ∀ r ∈ sel, LandmarkRank w2.frm (w2.feat.heap r)

/-- So in every call of a history. -/
def RankedRun (p : BProc ℝ T) : List (BOp ℝ T) → Prop
  | [] => True
  | op :: ops => (∀ env, op = .run env → RankedCall env p) ∧ ∀ p' o, p.step op = .ok (p', o) → RankedRun p' ops

end Backend
end Real

section Run
variable {T : Type} [TimeOps T] [TimeCast T ℝ] [LinearOrder T] [TimeLaws T] [CastLaws T ℝ]
open Backend

/-- Processes that are equal up to entries outside the matrices and the order of the cameras. -/
structure PCam (p p' : BProc ℝ T) : Prop where
  statics : p.statics = p'.statics
  g : p.g = p'.g
  b : BCam p.b p'.b

theorem runOnce_cam {nc N U : Nat} (hfit : Fits nc (max 1 N + 1) U) (env : Env ℝ) (hext : GoodExt env.ext) (hsvd : env.ext.SvdOfColumns) {p p' : BProc ℝ T} (h : PCam p p')
    {ops : List (BOp ℝ T)} (hi : FilterInv nc N U p (.run env :: ops)) (hrank : RankedCall env p) :
    Sim (fun x y => x.1 = y.1 ∧ BCam x.2 y.2) (p.b.runOnce env p.g) (p'.b.runOnce env p.g) := by
  unfold runOnce
  dsimp only
  obtain ⟨o1, o2, o3, o4⟩ := popOne_cam h.b.loader
  rw [← o1, ← o2]
  split
  · refine (onImu_cam p.g (b := { p.b with loader := p.b.loader.popOne.loader }) (b' := { p'.b with loader := p'.b.loader.popOne.loader })
      ⟨o3, h.b.u, h.b.att, h.b.noise, h.b.maxUsed, h.b.mounted, h.b.pnp, h.b.status⟩ p.b.loader.popOne.out.imuMeas).bind (fun ⟨r, b1⟩ ⟨r', b1'⟩ k1 _ e => ?_)
    obtain ⟨e1, e2⟩ := e
    dsimp only at e1 e2 ⊢
    subst e1
    rcases o4 with ⟨hm, hm'⟩ | ⟨m, m', hm, hm', hmm⟩
    · rw [hm, hm']
      exact .ok ⟨rfl, e2⟩
    · rw [hm, hm']
      dsimp only
      obtain ⟨-, l, -, -, -, -, c5⟩ := filter_ready env hi r b1 m k1 hm
      have key : Sim BCam (b1.onFeat env p.g m) (b1'.onFeat env p.g m') := by
        unfold onFeat
        dsimp only
        refine (tryInit_cam env hsvd p.g (e2.setWin (insert_cam e2.u.w hmm))).bind (fun b2 b2' k2 _ s2 => ?_)
        obtain ⟨l1, t⟩ := c5 b2 k2
        rw [← hmm.ts]
        refine (tryUpdate_cam env p.g m.ts s2 (fun hs => ?_)).bind (fun b3 b3' _ _ s3 => cleanAtt_cam s3)
        obtain ⟨v1, v2⟩ := t.live hs
        have hr := t.core.rel
        have hlen := hr.len
        have hg : ∀ m ∈ l1.msgs, GoodObs b2.u.w.frm.extrinsics.length m := by rw [t.core.ext]; exact t.core.obs
        have hf : Fits b2.u.w.frm.extrinsics.length l1.msgs.length b2.maxUsed := by rw [t.core.ext, t.core.used]; exact hfit.mono t.len
        refine update_cam env hsvd _ _ p.g _ _ s2.u (by omega) (by rw [hlen]; exact hf.cols) (fun m1 c c' w w' fs pos hm1 hc hcc hsel hw => ?_)
        exact solve_cam env hext _ _ b2.u _ _ l1 hr hg (by omega) hf t.cov m1 c c' w w' fs pos hm1 hc hcc hsel hw (hrank _ _ _ _ _ _ _ _ k1 hm k2 hs hm1 hsel)
      refine key.bind (fun b2 b2' _ _ s2 => ?_)
      exact .ok ⟨rfl, s2⟩
  · exact .ok ⟨rfl, o3, h.b.u, h.b.att, h.b.noise, h.b.maxUsed, h.b.mounted, h.b.pnp, h.b.status⟩

theorem step_cam {nc N U : Nat} (hfit : Fits nc (max 1 N + 1) U) {op op' : BOp ℝ T} (hop : OpSameMaps op op') (hl : ∀ env, op = .run env → GoodExt env.ext ∧ env.ext.SvdOfColumns)
    {p p' : BProc ℝ T} (h : PCam p p') {ops : List (BOp ℝ T)} (hi : FilterInv nc N U p (op :: ops)) (hrank : ∀ env, op = .run env → RankedCall env p) :
    Sim (fun x y => PCam x.1 y.1 ∧ x.2 = y.2) (p.step op) (p'.step op') := by
  have hb := h.b
  cases hop with
  | feat m m' hm =>
    rw [BProc.step, BProc.step, ← h.statics]
    obtain ⟨k1, k2⟩ := pushFeatures_cam p.statics hb.loader hm
    exact .ok ⟨⟨k1, h.g, k2, hb.u, hb.att, hb.noise, hb.maxUsed, hb.mounted, hb.pnp, hb.status⟩, rfl⟩
  | other _ ho =>
    cases op with
    | imu m =>
      rw [BProc.step, BProc.step, ← h.statics]
      obtain ⟨k1, k2⟩ := pushImu_cam p.statics hb.loader m
      exact .ok ⟨⟨k1, h.g, k2, hb.u, hb.att, hb.noise, hb.maxUsed, hb.mounted, hb.pnp, hb.status⟩, rfl⟩
    | feat m => exact absurd rfl (ho m)
    | run env =>
      rw [BProc.step, BProc.step, ← h.g]
      refine (runOnce_cam hfit env (hl env rfl).1 (hl env rfl).2 h hi (hrank env rfl)).bind (fun ⟨r, b⟩ ⟨r', b'⟩ _ _ e => ?_)
      obtain ⟨e1, e2⟩ := e
      dsimp only at e1 e2 ⊢
      subst e1
      exact .ok ⟨⟨h.statics, rfl, e2⟩, rfl⟩
    | runTest =>
      rw [BProc.step, BProc.step]
      unfold runOnceTest
      dsimp only
      obtain ⟨o1, -, o3, -⟩ := popOne_cam hb.loader
      rw [← o1]
      exact .ok ⟨⟨h.statics, h.g, o3, hb.u, hb.att, hb.noise, hb.maxUsed, hb.mounted, hb.pnp, hb.status⟩, rfl⟩
    | publishPropagate =>
      rw [BProc.step, BProc.step, ← (publish_cam hb).1]
      refine (Sim.of_eq rfl).bind (fun x _ _ _ e => ?_); subst e
      exact .ok ⟨h, rfl⟩
    | publishUpdate =>
      rw [BProc.step, BProc.step, ← (publish_cam hb).2]
      refine (Sim.of_eq rfl).bind (fun x _ _ _ e => ?_); subst e
      exact .ok ⟨h, rfl⟩
    | reset =>
      rw [BProc.step, BProc.step]
      exact .ok ⟨⟨h.statics, h.g, hb.loader, hb.u, hb.att, hb.noise, hb.maxUsed, hb.mounted, hb.pnp, rfl⟩, rfl⟩

theorem run_cam {nc N U : Nat} (hfit : Fits nc (max 1 N + 1) U) {ops ops' : List (BOp ℝ T)} (hops : List.Forall₂ OpSameMaps ops ops') :
    (∀ env, .run env ∈ ops → GoodExt env.ext ∧ env.ext.SvdOfColumns) → ∀ p p' : BProc ℝ T, PCam p p' → FilterInv nc N U p ops → RankedRun p ops →
      Sim (fun x y => PCam x.1 y.1 ∧ x.2 = y.2) (p.run ops) (p'.run ops') := by
  induction hops with
  | nil => intro _ p p' h _ _; exact .ok ⟨h, rfl⟩
  | cons hop hops ih =>
    rename_i op op' ops ops'
    intro hl p p' h hi hr
    rw [BProc.run, BProc.run]
    refine (step_cam hfit hop (fun env he => hl env (by rw [he]; exact List.mem_cons_self)) h hi hr.1).bind (fun ⟨p1, o⟩ ⟨p1', o'⟩ k1 _ e => ?_)
    obtain ⟨e1, e2⟩ := e
    dsimp only at e1 e2 ⊢
    subst e2
    refine (ih (fun env he => hl env (List.mem_cons_of_mem _ he)) p1 p1' e1 (filterInv_step hfit hi k1) (hr.2 _ _ k1)).bind (fun ⟨p2, os⟩ ⟨p2', os'⟩ _ _ e => ?_)
    obtain ⟨e3, e4⟩ := e
    dsimp only at e3 e4 ⊢
    subst e4
    exact .ok ⟨e3, rfl⟩

end Run
end Vio

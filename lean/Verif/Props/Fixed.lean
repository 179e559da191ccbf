/-
C101: what starts without uncertainty is never corrected: the camera extrinsics for ever, the first frame as long as it is in the window.
-/
import Verif.Lemmas.ZeroCov
import Verif.Props.ExactRun

set_option linter.unusedSectionVars false

namespace Vio
open Spec WinSpec AttSpec Update

variable {T : Type} [TimeOps T] [TimeCast T ℝ]

theorem setBack_get (fs : List (Frame ℝ T)) (st : Motion ℝ) (k : Nat) (hk : k + 1 < fs.length) : (setBack fs st)[k]? = fs[k]? := by
  unfold setBack
  split
  · rfl
  · rw [List.getElem?_append_left (by simp; omega), List.getElem?_dropLast]
    rw [if_pos (by omega)]

theorem setBack_last (fs : List (Frame ℝ T)) (st : Motion ℝ) (b : Frame ℝ T) (h : fs.getLast? = some b) : ∃ b', (setBack fs st).getLast? = some b' ∧ b'.id = b.id := by
  unfold setBack
  rw [h]
  simp

theorem updateNewest_keep (s : PropQueue ℝ T) (m m' : FrameMgr ℝ T) (g : Bool) (h : updateNewest s m = .ok (g, m')) :
    m'.extrinsics = m.extrinsics ∧ m'.frames.length = m.frames.length ∧ (∀ k, k + 1 < m.frames.length → m'.frames[k]? = m.frames[k]?) ∧
    ∀ b, m.frames.getLast? = some b → ∃ b', m'.frames.getLast? = some b' ∧ b'.id = b.id := by
  obtain ⟨n1, n2⟩ := updateNewest_length _ _ _ _ h
  refine ⟨n1, n2, ?_⟩
  unfold updateNewest at h
  split at h
  · cases h; exact ⟨fun _ _ => rfl, fun b hb => ⟨b, hb, rfl⟩⟩
  · obtain ⟨it, _, h⟩ := Res.bind_eq_ok.1 h
    cases h
    exact ⟨fun k hk => setBack_get _ _ k hk, fun b hb => setBack_last _ _ b hb⟩

theorem decidePolicy_two (w : Win ℝ T) (policy : MargPolicy) (h : decidePolicy w = .ok policy) : policy = .noMarg ∨ 2 ≤ w.frm.frames.length := by
  unfold decidePolicy at h
  split at h
  · split at h
    · rename_i b sn rest hr
      right
      have := congrArg List.length hr
      simp at this
      omega
    · cases h
  · cases h; exact .inl rfl

/-- The assembled covariance: size, positive semidefinite, and zero where the queue has no uncertainty. -/
theorem constructCov_zero (s : PropQueue ℝ T) (m : FrameMgr ℝ T) (c : DMat ℝ) (z : Nat) (hi : CovInv s) (hz : ZeroTo z s) (hf : m.frames ≠ [])
    (hlt : (m.extrinsics.length + m.frames.length) * 6 < two32) (h : constructCov s m = .ok (true, c)) :
    c.rows + 6 = 15 + (m.extrinsics.length + m.frames.length) * 6 ∧ c.cols = c.rows ∧ (c.toM c.rows c.rows).PosSemidef ∧
      ∀ j < z, 15 + j < c.rows → ZeroRow c c.rows (15 + j) := by
  have hpos : 0 < m.frames.length := List.length_pos_iff.2 hf
  cases hl : s.items with
  | nil =>
    unfold constructCov at h
    rw [hl] at h
    cases h
  | cons i0 rest =>
    have hj := hi.psd i0 (by rw [hl]; simp)
    obtain ⟨gd, c', k1, k2, k3⟩ := C41_assembly s m i0 rest hl hf hlt hj.rows hj.cols hj.exRows hj.exCols.symm (hi.sq.trans hj.exCols.symm)
    obtain ⟨rfl, rfl⟩ : gd = true ∧ c' = c := by rw [k1] at h; cases h; exact ⟨rfl, rfl⟩
    obtain ⟨l1, l2, l3⟩ := k3 rfl
    have hsz : i0.imuEx.cols = 6 * (m.extrinsics.length + m.frames.length - 1) := by
      by_contra hcon
      cases k2.2 hcon
    have hX : c'.rows = 15 + s.exCamCov.rows := by rw [l1, hj.exCols]
    refine ⟨by omega, by omega, ?_, ?_⟩
    · rw [hX]
      exact joint_psd i0 s.exCamCov c' _ (fun i j h1 h2 => l3 i j (by omega) (by omega)) hj.psd
    · intro j hjz hjr l hlr
      rw [l3 _ _ hjr (by omega), l3 _ _ hlr (by omega)]
      have hcr := hz.cross i0 (by rw [hl]; simp)
      unfold jointEntry
      rw [if_neg (by omega : ¬ 15 + j < 15), if_neg (by omega : ¬ 15 + j < 15)]
      by_cases hl15 : l < 15
      · rw [if_pos hl15, if_pos hl15]
        simp only [Nat.add_sub_cancel_left]
        exact ⟨hcr l j hl15 hjz, hcr l j hl15 hjz⟩
      · rw [if_neg hl15, if_neg hl15, if_neg (by omega : ¬ 15 + j < 15)]
        simp only [Nat.add_sub_cancel_left]
        exact hz.cam j hjz (l - 15) (by omega)

/-- Definedness of the Kalman step fixes the width of the measurement matrix. -/
theorem kalman_width (ext : Ext ℝ) (noise : ℝ) (c hxr : DMat ℝ) (k : Kalman ℝ) (hk : kalman ext noise c hxr = .ok k) : hxr.cols = c.cols + 1 := by
  unfold kalman at hk
  obtain ⟨H, b1, hk⟩ := Res.bind_eq_ok.1 hk
  obtain ⟨r, b2, hk⟩ := Res.bind_eq_ok.1 hk
  obtain ⟨PHt, b3, hk⟩ := Res.bind_eq_ok.1 hk
  have d1 := DMat.block_dims b1
  have d2 : hxr.cols - 1 + 1 ≤ hxr.cols := by
    unfold DMat.block at b2
    split at b2
    · rename_i hh; exact hh.2
    · cases b2
  have d3 : c.cols = H.cols := by
    unfold DMat.mul at b3
    split at b3
    · rename_i hh; exact hh
    · cases b3
  omega

theorem kalman_symm (ext : Ext ℝ) (noise : ℝ) (P hxr : DMat ℝ) (n : Nat) (k : Kalman ℝ) (h1 : P.rows = n) (h2 : P.cols = n) (h4 : hxr.cols = n + 1) (hk : kalman ext noise P hxr = .ok k) :
    k.cov.rows = n ∧ k.cov.cols = n ∧ SymmTo n k.cov.e := by
  obtain ⟨k', S, hk', s1, s2, s3, s4, s5, s6, s7, s8, s9, s10⟩ := kalman_eq ext noise P hxr n hxr.rows h1 h2 rfl h4
  obtain rfl : k' = k := by rw [hk'] at hk; cases hk; rfl
  refine ⟨s8, s9, fun i j hi hj => ?_⟩
  have e := congrFun (congrFun s10 ⟨i, hi⟩) ⟨j, hj⟩
  have e' := congrFun (congrFun s10 ⟨j, hj⟩) ⟨i, hi⟩
  simp only [DMat.toM_apply, Matrix.smul_apply, Matrix.add_apply, Matrix.transpose_apply] at e e'
  rw [e, e', add_comm]

/-- C101, one update, whatever its result and whatever the decompositions return.  Of the components of the state behind the IMU, let the first `z` have no uncertainty.  They have none
afterwards (unless they are marginalised), the extrinsics among them are the same afterwards, and so are the frames. -/
theorem C101_update (env : Env ℝ) (noise : ℝ) (maxUsed : Nat) (g : Vec3 ℝ) (u u' : Upd ℝ T) (ts thr : T) (good : Bool) (z : Nat) (hi : CovInv u.q) (hz : ZeroTo z u.q)
    (hf : u.w.frm.frames ≠ []) (hlt : (u.w.frm.extrinsics.length + u.w.frm.frames.length) * 6 < two32) (hzl : z + 6 ≤ 6 * (u.w.frm.extrinsics.length + u.w.frm.frames.length))
    (h : update env noise maxUsed g u ts thr = .ok (good, u')) :
    (good = false ∨ Keeps u.w.frm.extrinsics.length u.w.frm.frames.length z u'.policy → ZeroTo z u'.q) ∧
    (6 * u.w.frm.extrinsics.length ≤ z → (∀ e ∈ u.w.frm.extrinsics, e.q.sqNorm = 1) → u'.w.frm.extrinsics = u.w.frm.extrinsics) ∧
    ∀ k f l, 6 * (u.w.frm.extrinsics.length + k + 1) ≤ z → u.w.frm.frames[k]? = some f → u.w.frm.frames.getLast? = some l → f.id ≠ l.id → f.q.sqNorm = 1 →
      u'.w.frm.frames[k]? = some f := by
  have hq := resetOrigin_cov u.q ts thr hi
  have hz' := resetOrigin_zero z u.q ts thr hz
  rcases update_inv env noise maxUsed g u u' ts thr good h with ⟨h1, h2, h3⟩ | ⟨policy, c, w, fs, pos, hp, hc, hn, hg, h⟩
  · refine ⟨fun _ => by rw [h2]; exact hz', ?_, ?_⟩
    · intro _ _
      rcases h3 with h3 | ⟨b, h3⟩
      · rw [h3]
      · exact (updateNewest_keep _ _ _ _ h3).1
    · intro k f l hk hfk hl hid hu
      rcases h3 with h3 | ⟨b, h3⟩
      · rw [h3]; exact hfk
      · rw [(updateNewest_keep _ _ _ _ h3).2.2.1 k (by omega)]; exact hfk
  · obtain ⟨n1, n2, n3, n4⟩ := updateNewest_keep _ _ _ _ hn
    have hpol := decidePolicy_two _ _ hp
    obtain ⟨cr, cc, cp, cz⟩ := constructCov_zero _ _ c z hq hz' hf hlt hc
    have hne : w.frm.frames ≠ [] := List.length_pos_iff.1 (by rw [n2]; exact List.length_pos_iff.2 hf)
    rcases h with ⟨-, h⟩ | ⟨hxr, k, s1, m1, hm, hk, hco, h⟩
    · obtain ⟨f1, f2, -⟩ := finish_dims env g _ u' good h
      dsimp only at f1 f2
      refine ⟨fun hkeep => ?_, ?_, ?_⟩
      · refine finish_zero env g _ u' good z hq.noise hne ?_ ?_ cc (psd_symmTo cp) (fun j hj => cz j hj (by omega)) ?_ ?_ h
        · dsimp only; rw [n2]; exact hpol
        · dsimp only; rw [n1, n2]; exact cr
        · dsimp only; omega
        · dsimp only; rw [n1, n2, ← f2]
          exact hkeep.resolve_left (by rw [hg]; decide)
      · intro _ _
        rw [f1, n1]
      · intro k f l hk hfk hl hid hu
        rw [f1, n3 k (by omega)]; exact hfk
    · obtain ⟨f1, f2, -⟩ := finish_dims env g _ u' good h
      dsimp only at f1 f2
      have hcols : hxr.cols = c.rows + 1 := by rw [kalman_width _ _ _ _ _ hk, cc]
      have hkz : ∀ j < z, k.dx.e (15 + j) 0 = 0 ∧ ZeroRow k.cov c.rows (15 + j) := by
        intro j hj
        obtain ⟨k', q1, -, -, -, q5, q6⟩ := kalman_zero env.ext noise c hxr c.rows (15 + j) rfl cc hcols (by omega) (cz j hj (by omega))
        obtain rfl : k' = k := by rw [q1] at hk; cases hk; rfl
        exact ⟨q5, q6⟩
      obtain ⟨k1, k2, k3⟩ := kalman_symm env.ext noise c hxr c.rows k rfl cc hcols hk
      obtain ⟨c1, c2, -⟩ := correct_length _ _ _ _ _ hco
      obtain ⟨x1, x2⟩ := correct_fixed _ _ _ _ _ hco
      rw [n1] at x1 x2
      refine ⟨fun hkeep => ?_, ?_, ?_⟩
      · refine finish_zero env g _ u' good z (correct_noise _ _ _ _ _ hco hq.noise) ?_ ?_ ?_ (by dsimp only; omega) (by dsimp only; rw [k1]; exact k3) ?_ ?_ ?_ h
        · dsimp only; exact List.length_pos_iff.1 (by rw [c2]; exact List.length_pos_iff.2 hne)
        · dsimp only; rw [c2, n2]; exact hpol
        · dsimp only; rw [c1, c2, n1, n2, k1]; exact cr
        · dsimp only; rw [k1]; exact fun j hj => (hkz j hj).2
        · dsimp only; omega
        · dsimp only; rw [c1, c2, n1, n2, ← f2]
          exact hkeep.resolve_left (by rw [hg]; decide)
      · intro hle hu
        rw [f1]
        refine x1 ?_ hu
        intro j h1 h2
        have := (hkz (j - 15) (by omega)).1
        rwa [show 15 + (j - 15) = j by omega] at this
      · intro i f l hik hfi hl hid hu
        rw [f1]
        obtain ⟨l', hl', hlid⟩ := n4 l hl
        refine x2 i f l' hl' ?_ (by rw [hlid]; exact hid) hu ?_
        · have hlen : i + 1 < u.w.frm.frames.length := by
            have := (List.getElem?_eq_some_iff.1 hfi).1
            by_contra hc
            have hil : u.w.frm.frames.getLast? = some f := by
              rw [List.getLast?_eq_getElem?, show u.w.frm.frames.length - 1 = i by omega]; exact hfi
            rw [hil] at hl
            cases hl
            exact hid rfl
          rw [n3 i hlen]; exact hfi
        · intro j h1 h2
          have := (hkz (j - 15) (by omega)).1
          rwa [show 15 + (j - 15) = j by omega] at this

/-! ### Histories -/

namespace Backend

/-- The invariant: covariances, no uncertainty of the extrinsics, extrinsics as at the start. -/
structure ExtOk (N : Nat) (es : List (Extrinsic ℝ)) (b : Backend ℝ T) : Prop where
  cov : CovOk N es.length b
  zero : ZeroTo (6 * es.length) b.u.q
  ext : b.u.w.frm.extrinsics = es

theorem replay_zero (z : Nat) (mounted : Bool) (nExt : Nat) (g : Vec3 ℝ) (its : List (AttItem ℝ T)) : ∀ s s' : PropQueue ℝ T, replay mounted nExt g s its = .ok s' → CovInv s →
    ZeroTo z s → ZeroTo z s' := by
  induction its with
  | nil => intro s s' h _ hz; cases h; exact hz
  | cons it its ih =>
    intro s s' h hi hz
    rw [replay] at h
    split at h
    · exact ih _ _ h (propagate_cov s nExt g _ _ _ hi) (propagate_zero z nExt s g _ _ _ hi.noise hz)
    · cases h

theorem tryInit_zero (z : Nat) (env : Env ℝ) (g : Vec3 ℝ) (b b' : Backend ℝ T) (h : b.tryInit env g = .ok b') (hi : CovInv b.u.q) (hz : ZeroTo z b.u.q) : ZeroTo z b'.u.q := by
  unfold tryInit at h
  split at h
  · obtain ⟨⟨good, b1⟩, h1, h⟩ := Res.bind_eq_ok.1 h
    obtain ⟨i1, i2, i3⟩ := initialise_queue _ _ _ _ _ h1
    dsimp only at h
    split at h
    · rename_i hg
      cases h
      obtain ⟨st, t, -, hr⟩ := i3 hg
      exact replay_zero z _ _ _ _ _ _ hr ⟨⟨hi.noise.fr, hi.noise.fc, hi.noise.gr, hi.noise.gc, hi.noise.qc, hi.noise.psd⟩, hi.sq, hi.psd⟩ ⟨hz.cross, hz.cam⟩
    · rename_i hg
      obtain ⟨s1, s2⟩ := shrunk_cams _ _ h
      rw [s1, (i2 (by simpa using hg)).1]
      exact hz
  · cases h; exact hz

theorem tryUpdate_extrinsics (env : Env ℝ) (g : Vec3 ℝ) (b b' : Backend ℝ T) (ts : T) (hi : CovInv b.u.q) (hz : ZeroTo (6 * b.u.w.frm.extrinsics.length) b.u.q)
    (hu : ∀ e ∈ b.u.w.frm.extrinsics, e.q.sqNorm = 1) (hf : b.u.w.frm.frames ≠ []) (hlt : (b.u.w.frm.extrinsics.length + b.u.w.frm.frames.length) * 6 < two32)
    (h : b.tryUpdate env g ts = .ok b') : ZeroTo (6 * b.u.w.frm.extrinsics.length) b'.u.q ∧ b'.u.w.frm.extrinsics = b.u.w.frm.extrinsics := by
  have hpos : 0 < b.u.w.frm.frames.length := List.length_pos_iff.2 hf
  unfold tryUpdate at h
  split at h
  · cases h; exact ⟨hz, rfl⟩
  · split at h
    · obtain ⟨⟨good, u⟩, hup, h⟩ := Res.bind_eq_ok.1 h
      obtain ⟨u1, u2, -⟩ := C101_update env _ _ _ _ _ _ _ _ _ hi hz hf hlt (by omega) hup
      have u1 := u1 (.inr (fun d _ => by omega))
      have u2 := u2 le_rfl hu
      dsimp only at h
      split at h
      · obtain ⟨w, hw, h⟩ := Res.bind_eq_ok.1 h
        cases h
        exact ⟨u1, (marginalize_keep _ _ _ hw).1.trans u2⟩
      · obtain ⟨s1, s2⟩ := shrunk_cams _ _ h
        rw [s1, s2]
        exact ⟨u1, u2⟩
    · cases h

theorem onFeat_extrinsics (env : Env ℝ) (hext : GoodExt env.ext) (g : Vec3 ℝ) (b b' : Backend ℝ T) (m : FeatMsg ℝ T) (N : Nat) (es : List (Extrinsic ℝ)) (hu : ∀ e ∈ es, e.q.sqNorm = 1)
    (hN : (es.length + (max 1 N + 1)) * 6 < two32) (hi : ExtOk N es b) (h : b.onFeat env g m = .ok b') : ExtOk N es b' := by
  have hcov := onFeat_cov env hext g b b' m N es.length hN hi.cov h
  obtain ⟨b1, b2, h1, h2, h3⟩ := onFeat_eq env g b b' m h
  obtain ⟨e1, -⟩ := insert_length b.u.w m
  have i1 : (b.setWin (b.u.w.insert m)).u.w.frm.frames.length = b.u.w.frm.frames.length + 1 := e1
  have hlen := hi.cov.bound.2
  obtain ⟨t1, t2, t3, -, -, t6, t7⟩ := tryInit_any env g _ b1 h1 (by omega)
  obtain ⟨c1, -, -, -⟩ := cleanAtt_any _ _ h3
  have hins : (b.setWin (b.u.w.insert m)).u.w.frm.extrinsics = b.u.w.frm.extrinsics := by
    show (b.u.w.insert m).frm.extrinsics = _
    unfold Win.insert FrameMgr.addNewFrame
    rfl
  obtain ⟨a1, a2⟩ := tryInit_cov env g _ b1 h1 hi.cov.cov
  have a3 : b1.u.w.frm.extrinsics = es := by rw [a2, hins, hi.ext]
  have a4 := tryInit_zero (6 * es.length) env g _ b1 h1 hi.cov.cov hi.zero
  obtain ⟨u1, u2⟩ := tryUpdate_extrinsics env g b1 b2 m.ts a1 (by rw [a3]; exact a4) (by rw [a3]; exact hu) (List.length_pos_iff.1 (by omega)) (by rw [a3]; omega) h2
  rw [a3] at u1 u2
  exact ⟨hcov, by rw [c1]; exact u1, by rw [c1]; exact u2⟩

theorem onImu_zero (z : Nat) (g : Vec3 ℝ) (b b' : Backend ℝ T) (ms : List (ImuMsg ℝ T)) (r : Bool) (hi : CovInv b.u.q) (hz : ZeroTo z b.u.q) (h : b.onImu g ms = .ok (r, b')) :
    ZeroTo z b'.u.q := by
  cases ms with
  | nil => cases h; exact hz
  | cons m ms =>
    rw [onImu] at h
    generalize b.att.propagate g m.accel m.gyro m.ts = ar at h
    obtain ⟨att, res'⟩ := ar
    dsimp only at h
    split at h
    · cases h; exact hz
    · split at h
      · cases h; exact propagate_zero _ _ _ _ _ _ _ hi.noise hz
      · cases h

theorem extOk_run (N : Nat) (es : List (Extrinsic ℝ)) (hu : ∀ e ∈ es, e.q.sqNorm = 1) (hN : (es.length + (max 1 N + 1)) * 6 < two32) (ops : List (BOp ℝ T)) :
    ∀ (p p' : BProc ℝ T) (outs : List (BOut ℝ T)), GoodSolvers ops → ExtOk N es p.b → p.run ops = .ok (p', outs) → ExtOk N es p'.b := by
  induction ops with
  | nil => intro p p' outs _ hb h; cases h; exact hb
  | cons op ops ih =>
    intro p p' outs he hb h
    rw [BProc.run] at h
    obtain ⟨⟨p1, o⟩, hs, h⟩ := Res.bind_eq_ok.1 h
    obtain ⟨⟨p2, os⟩, hr, h⟩ := Res.bind_eq_ok.1 h
    cases h
    refine ih p1 p' os (fun env hm => he env (List.mem_cons_of_mem _ hm)) ?_ hr
    have hcov : CovOk N es.length p1.b := covOk_run N es.length hN [op] p p1 [o] (fun env hm => he env (by simp at hm; simp [hm])) hb.cov (by
      rw [BProc.run, hs, Res.bind_ok]; rfl)
    cases op with
    | run env =>
      have hext := he env (by simp)
      obtain ⟨⟨r, b'⟩, hb', hs⟩ := Res.bind_eq_ok.1 hs
      cases hs
      rcases runOnce_eq env p.g p.b b' r hb' with ⟨-, -, rfl⟩ | ⟨-, res, b1, h1, h2⟩
      · exact ⟨hcov, hb.zero, hb.ext⟩
      · have hb0 : CovOk N es.length { p.b with loader := p.b.loader.popOne.loader } := ⟨hb.cov.cov, hb.cov.bound, hb.cov.cams, hb.cov.dims⟩
        have hb1 : ExtOk N es b1 := by
          obtain ⟨-, -, kw, -⟩ := onImu_keep _ _ _ _ _ h1
          refine ⟨onImu_cov _ _ _ _ _ _ _ hb0 h1, ?_, by rw [kw]; exact hb.ext⟩
          exact onImu_zero _ p.g { p.b with loader := p.b.loader.popOne.loader } b1 _ res hb.cov.cov hb.zero h1
        rcases h2 with ⟨-, -, rfl⟩ | ⟨m, -, -, h2⟩
        · exact hb1
        · exact onFeat_extrinsics env hext p.g b1 b' m N es hu hN hb1 h2
    | imu m => cases hs; exact ⟨hcov, hb.zero, hb.ext⟩
    | feat m => cases hs; exact ⟨hcov, hb.zero, hb.ext⟩
    | runTest => cases hs; exact ⟨hcov, hb.zero, hb.ext⟩
    | publishPropagate =>
      obtain ⟨_, _, hs⟩ := Res.bind_eq_ok.1 hs
      cases hs; exact hb
    | publishUpdate =>
      obtain ⟨_, _, hs⟩ := Res.bind_eq_ok.1 hs
      cases hs; exact hb
    | reset => cases hs; exact ⟨hcov, hb.zero, hb.ext⟩

/-- C101.  Through every defined history of calls, Reset and malformed messages included, of a backend configured with unit camera rotations and non-negative noise, the camera extrinsics
are the configured ones: the filter carries them in its state but never corrects them, because their covariance starts at zero. -/
theorem C101_extrinsics (lib : ConfLib ℝ) (fs : String → Option (List Char)) (path : String) (fuel : Nat) (s s' : Conf.St ℝ) (g g' : Vec3 ℝ) (st : Motion ℝ) (b : Backend ℝ T) (r : Bool)
    (hc : configParams lib fs path fuel s g (init st) = .ok (some (r, b, g', s')))
    (h1 : 0 ≤ s'.cfg.sigmaA) (h2 : 0 ≤ s'.cfg.sigmaG) (h3 : 0 ≤ s'.cfg.sigmaWA) (h4 : 0 ≤ s'.cfg.sigmaWG) (hu : ∀ e ∈ b.u.w.frm.extrinsics, e.q.sqNorm = 1)
    (hN : (b.u.w.frm.extrinsics.length + (max 1 b.u.w.frm.maxWindowSize + 1)) * 6 < two32)
    (stat : LoaderStatics T) (ops : List (BOp ℝ T)) (he : GoodSolvers ops) (p' : BProc ℝ T) (outs : List (BOut ℝ T)) (h : (⟨stat, g', b⟩ : BProc ℝ T).run ops = .ok (p', outs)) :
    p'.b.u.w.frm.extrinsics = b.u.w.frm.extrinsics := by
  obtain ⟨rfl, hr, -⟩ := C67_config lib fs path fuel s s' g g' (init st) b r hc
  unfold configParams at hc
  rw [hr, Res.bind_ok] at hc
  dsimp only at hc
  obtain ⟨⟨b2, g2⟩, ha, hc⟩ := Res.bind_eq_ok.1 hc
  simp only [Res.ok.injEq, Option.some.injEq, Prod.mk.injEq] at hc
  obtain ⟨-, rfl, rfl, -⟩ := hc
  have hok : ExtOk b2.u.w.frm.maxWindowSize b2.u.w.frm.extrinsics b2 := by
    unfold applyConfig at ha
    obtain ⟨ex, -, ha⟩ := Res.bind_eq_ok.1 ha
    cases ha
    refine ⟨covOk_start _ _ _ _ _ h1 h2 h3 h4 st _ _ rfl rfl rfl, ⟨fun it hit => absurd hit List.not_mem_nil, ?_⟩, rfl⟩
    intro j _ l hl
    exact absurd hl (Nat.not_lt_zero _)
  exact (extOk_run _ _ hu hN ops _ p' outs he hok h).ext

/-! ### The first frame -/

theorem sub32_small (a b : Nat) (h : b ≤ a) (h' : a < two32) : sub32 a b = a - b := by
  unfold sub32
  unfold two32 at *
  omega

theorem update_policy (env : Env ℝ) (noise : ℝ) (maxUsed : Nat) (g : Vec3 ℝ) (u u' : Upd ℝ T) (ts thr : T)
    (h : update env noise maxUsed g u ts thr = .ok (true, u')) : decidePolicy u.w = .ok u'.policy ∧ u'.w.frm.frames.length = u.w.frm.frames.length := by
  rcases update_inv env noise maxUsed g u u' ts thr true h with ⟨h1, -⟩ | ⟨policy, c, w, fs, pos, hp, hc, hn, hg, h⟩
  · cases h1
  · obtain ⟨-, n2, -⟩ := updateNewest_keep _ _ _ _ hn
    rcases h with ⟨-, h⟩ | ⟨hxr, k, s1, m1, hm, hk, hco, h⟩
    · obtain ⟨f1, f2, -⟩ := finish_dims env g _ u' true h
      dsimp only at f1 f2
      exact ⟨by rw [f2]; exact hp, by rw [f1]; exact n2⟩
    · obtain ⟨f1, f2, -⟩ := finish_dims env g _ u' true h
      dsimp only at f1 f2
      obtain ⟨-, c2, -⟩ := correct_length _ _ _ _ _ hco
      exact ⟨by rw [f2]; exact hp, by rw [f1, c2, n2]⟩

theorem tryUpdate_first (env : Env ℝ) (g : Vec3 ℝ) (b b' : Backend ℝ T) (ts : T) (f l : Frame ℝ T) (hi : CovInv b.u.q) (hz : ZeroTo (6 * b.u.w.frm.extrinsics.length + 6) b.u.q)
    (hlt : (b.u.w.frm.extrinsics.length + b.u.w.frm.frames.length) * 6 < two32) (h2 : 2 ≤ b.u.w.frm.frames.length) (hN : 2 ≤ b.u.w.frm.maxWindowSize)
    (hf : b.u.w.frm.frames.head? = some f) (hl : b.u.w.frm.frames.getLast? = some l) (hid : f.id ≠ l.id) (hu : f.q.sqNorm = 1)
    (h : b.tryUpdate env g ts = .ok b') (hs : b'.status = .initialized) (hp : b'.u.policy ≠ .margOldest) :
    b'.u.w.frm.frames.head? = some f ∧ ZeroTo (6 * b.u.w.frm.extrinsics.length + 6) b'.u.q := by
  unfold tryUpdate at h
  split at h
  · cases h; exact ⟨hf, hz⟩
  · split at h
    · obtain ⟨⟨good, u⟩, hup, h⟩ := Res.bind_eq_ok.1 h
      have hf0 : b.u.w.frm.frames[0]? = some f := by rw [← List.head?_eq_getElem?]; exact hf
      obtain ⟨u1, -, u3⟩ := C101_update env _ _ _ _ _ _ _ _ _ hi hz (List.length_pos_iff.1 (by omega)) hlt (by omega) hup
      have u3 := u3 0 f l (by omega) hf0 hl hid hu
      dsimp only at h
      split at h
      · rename_i hg
        subst hg
        obtain ⟨w, hw, h⟩ := Res.bind_eq_ok.1 h
        cases h
        obtain ⟨p1, p2⟩ := update_policy env _ _ _ _ _ _ _ hup
        have hlen : u.policy = .noMarg ∨ 3 ≤ b.u.w.frm.frames.length := by
          unfold decidePolicy at p1
          split at p1
          · rename_i hnm
            right
            have : b.u.w.frm.maxWindowSize < b.u.w.frm.frames.length := by simpa [FrameMgr.needMarginalize] using hnm
            omega
          · exact .inl (Res.ok.inj p1).symm
        dsimp only at hp ⊢
        have hlt32 : b.u.w.frm.frames.length < two32 := by omega
        constructor
        · rw [List.head?_eq_getElem?]
          cases hq : u.policy with
          | noMarg => rw [hq] at hw; cases hw; exact u3
          | margOldest => exact absurd hq hp
          | margSubnew =>
            rw [hq] at hw hlen
            obtain ⟨_, _, hw⟩ := Res.bind_eq_ok.1 hw
            obtain ⟨_, _, hw⟩ := Res.bind_eq_ok.1 hw
            cases hw
            have h3 := hlen.resolve_left nofun
            dsimp only
            rw [sub32_small _ _ (by omega) (by omega), removeFrame_get _ _ _ (by omega), if_pos (by omega)]
            exact u3
          | margNewest =>
            rw [hq] at hw hlen
            obtain ⟨_, _, hw⟩ := Res.bind_eq_ok.1 hw
            obtain ⟨_, _, hw⟩ := Res.bind_eq_ok.1 hw
            cases hw
            have h3 := hlen.resolve_left nofun
            dsimp only
            rw [sub32_small _ _ (by omega) (by omega), removeFrame_get _ _ _ (by omega), if_pos (by omega)]
            exact u3
        · refine u1 (.inr ?_)
          intro d hd
          cases hq : u.policy with
          | noMarg => rw [hq] at hd; cases hd
          | margOldest => exact absurd hq hp
          | margSubnew =>
            rw [hq] at hd hlen
            have h3 := hlen.resolve_left nofun
            cases hd
            omega
          | margNewest =>
            rw [hq] at hd hlen
            have h3 := hlen.resolve_left nofun
            cases hd
            omega
      · obtain ⟨w, rfl, -⟩ := shrunk_keep _ _ h
        cases hs
    · cases h

/-- What the first frame has to be for the theorem: it is the oldest of the window, its rotation is one, and neither it nor the extrinsics have any uncertainty. -/
structure FirstOk (N : Nat) (es : List (Extrinsic ℝ)) (f : Frame ℝ T) (b : Backend ℝ T) : Prop where
  ext : ExtOk N es b
  zero : ZeroTo (6 * es.length + 6) b.u.q
  head : b.u.w.frm.frames.head? = some f

theorem onFeat_first (env : Env ℝ) (hext : GoodExt env.ext) (g : Vec3 ℝ) (b b' : Backend ℝ T) (m : FeatMsg ℝ T) (N : Nat) (es : List (Extrinsic ℝ)) (f : Frame ℝ T)
    (hu : ∀ e ∈ es, e.q.sqNorm = 1) (hN : (es.length + (max 1 N + 1)) * 6 < two32) (hsz : b.u.w.frm.maxWindowSize = N) (hN2 : 2 ≤ N) (hfu : f.q.sqNorm = 1)
    (hid : ∀ l, (b.u.w.insert m).frm.frames.getLast? = some l → f.id ≠ l.id) (hst : b.status = .initialized) (hi : FirstOk N es f b) (h : b.onFeat env g m = .ok b')
    (hs : b'.status = .initialized) (hp : b'.u.policy ≠ .margOldest) : FirstOk N es f b' := by
  have hE := onFeat_extrinsics env hext g b b' m N es hu hN hi.ext h
  obtain ⟨b1, b2, h1, h2, h3⟩ := onFeat_eq env g b b' m h
  obtain ⟨e1, e2⟩ := insert_length b.u.w m
  have hb : b1 = b.setWin (b.u.w.insert m) := by
    unfold tryInit at h1
    rw [show (b.setWin (b.u.w.insert m)).status = .initialized from hst] at h1
    cases h1; rfl
  subst hb
  obtain ⟨att, rfl⟩ := cleanAtt_keep _ _ h3
  have hlen := hi.ext.cov.bound.2
  have hpos : 0 < b.u.w.frm.frames.length := by
    cases hfr : b.u.w.frm.frames with
    | nil => have := hi.head; rw [hfr] at this; cases this
    | cons _ _ => simp
  have hins : (b.u.w.insert m).frm.extrinsics = es := by
    rw [← hi.ext.ext]
    unfold Win.insert FrameMgr.addNewFrame
    rfl
  obtain ⟨l, hl⟩ : ∃ l, (b.u.w.insert m).frm.frames.getLast? = some l := by
    cases hl : (b.u.w.insert m).frm.frames.getLast? with
    | none => rw [List.getLast?_eq_none_iff] at hl; rw [hl] at e1; simp at e1
    | some l => exact ⟨l, rfl⟩
  have hhd : (b.u.w.insert m).frm.frames.head? = some f := by
    unfold Win.insert FrameMgr.addNewFrame
    dsimp only
    rw [List.dropLast_concat, List.head?_append, hi.head]
    rfl
  obtain ⟨r1, r2⟩ := tryUpdate_first env g (b.setWin (b.u.w.insert m)) b2 m.ts f l hi.ext.cov.cov
    (by show ZeroTo (6 * (b.u.w.insert m).frm.extrinsics.length + 6) _; rw [hins]; exact hi.zero)
    (by show ((b.u.w.insert m).frm.extrinsics.length + (b.u.w.insert m).frm.frames.length) * 6 < two32; rw [hins, e1]; omega)
    (by show 2 ≤ (b.u.w.insert m).frm.frames.length; omega) (by show 2 ≤ (b.u.w.insert m).frm.maxWindowSize; omega) hhd hl (hid l hl) hfu h2 hs hp
  refine ⟨hE, ?_, r1⟩
  have : 6 * (b.setWin (b.u.w.insert m)).u.w.frm.extrinsics.length + 6 = 6 * es.length + 6 := by show 6 * (b.u.w.insert m).frm.extrinsics.length + 6 = _; rw [hins]
  rw [this] at r2
  exact r2

/-- Every state after a call of a history has the property. -/
def Along (P : BProc ℝ T → Prop) : BProc ℝ T → List (BOp ℝ T) → Prop
  | _, [] => True
  | p, op :: ops => ∀ p' o, p.step op = .ok (p', o) → P p' ∧ Along P p' ops

section Time
variable [LinearOrder T] [TimeLaws T] [CastLaws T ℝ]

theorem runOnce_first (env : Env ℝ) (hext : GoodExt env.ext) (g : Vec3 ℝ) {N U : Nat} {l : Log ℝ T} {b b' : Backend ℝ T} {r : Bool} (es : List (Extrinsic ℝ)) (f : Frame ℝ T)
    (hst : Stable False es.length N U l b) (hm : ∀ m, b.loader.popOne.out.featMeas = some m → GoodMsg l m ∧ GoodObs es.length m ∧ l.base + l.msgs.length + 1 < two32)
    (hu : ∀ e ∈ es, e.q.sqNorm = 1) (hN : (es.length + (max 1 N + 1)) * 6 < two32) (hN2 : 2 ≤ N) (hfu : f.q.sqNorm = 1) (hs0 : b.status = .initialized) (hi : FirstOk N es f b)
    (h : b.runOnce env g = .ok (r, b')) (hs : b'.status = .initialized) (hp : b'.u.policy ≠ .margOldest) : FirstOk N es f b' := by
  have hi0 : FirstOk N es f { b with loader := b.loader.popOne.loader } := ⟨⟨⟨hi.ext.cov.cov, hi.ext.cov.bound, hi.ext.cov.cams, hi.ext.cov.dims⟩, hi.ext.zero, hi.ext.ext⟩, hi.zero, hi.head⟩
  rcases runOnce_eq env g b b' r h with ⟨-, -, rfl⟩ | ⟨-, res, b1, h1, h2⟩
  · exact hi0
  · obtain ⟨-, ks, kw, -⟩ := onImu_keep _ _ _ _ _ h1
    have hi1 : FirstOk N es f b1 := by
      refine ⟨⟨onImu_cov _ _ _ _ _ _ _ hi0.ext.cov h1, ?_, by rw [kw]; exact hi.ext.ext⟩, ?_, by rw [kw]; exact hi.head⟩
      · exact onImu_zero _ g { b with loader := b.loader.popOne.loader } b1 _ res hi.ext.cov.cov hi.ext.zero h1
      · exact onImu_zero _ g { b with loader := b.loader.popOne.loader } b1 _ res hi.ext.cov.cov hi.zero h1
    rcases h2 with ⟨-, -, rfl⟩ | ⟨m, hfm, -, h2⟩
    · exact hi1
    · obtain ⟨g1, -, g3⟩ := hm m hfm
      refine onFeat_first env hext g b1 b' m N es f hu hN (by rw [kw]; exact hst.size) hN2 hfu ?_ (by rw [ks]; exact hs0) hi1 h2 hs hp
      intro x hx
      rw [kw] at hx
      have hr := rel_insert l b.u.w hst.rel m g1 g3
      have hids := rel_ids hr
      obtain ⟨e1, -⟩ := insert_length b.u.w m
      have hpos : 0 < b.u.w.frm.frames.length := by
        cases hfr : b.u.w.frm.frames with
        | nil => have := hi.head; rw [hfr] at this; cases this
        | cons _ _ => simp
      have hh : (b.u.w.insert m).frm.frames.head? = some f := by
        unfold Win.insert FrameMgr.addNewFrame
        dsimp only
        rw [List.dropLast_concat, List.head?_append, hi.head]
        rfl
      have a1 := congrArg List.head? hids
      have a2 := congrArg List.getLast? hids
      rw [List.head?_map, hh, e1, List.head?_range'] at a1
      rw [List.getLast?_map, hx, e1, List.getLast?_range'] at a2
      simp at a1 a2
      omega

/-- C101.  As long as the filter is initialised and has not dropped the oldest frame, that frame is exactly what it was, if it started without uncertainty: as the first frame does. -/
theorem C101_first_frame (es : List (Extrinsic ℝ)) (f : Frame ℝ T) (N U : Nat) (hfit : Fits es.length (max 1 N + 1) U) (hu : ∀ e ∈ es, e.q.sqNorm = 1) (hN2 : 2 ≤ N) (hfu : f.q.sqNorm = 1)
    (ops : List (BOp ℝ T)) : ∀ (p p' : BProc ℝ T) (outs : List (BOut ℝ T)) (l : Log ℝ T), Stable False es.length N U l p.b →
    TimeOps.tlit 0 ≤ p.b.loader.imuPeriod → TimeOps.mul p.b.loader.imuPeriod (TimeOps.tlit (55/100)) ≤ p.b.loader.imuPeriod → GoodRun es.length p ops → GoodSolvers ops →
    p.b.status = .initialized → FirstOk N es f p.b → Along (fun p => p.b.status = .initialized ∧ p.b.u.policy ≠ .margOldest) p ops → p.run ops = .ok (p', outs) →
    p'.b.u.w.frm.frames.head? = some f ∧ p'.b.u.w.frm.extrinsics = es := by
  induction ops with
  | nil => intro p p' outs l _ _ _ _ _ _ h _ hr; cases hr; exact ⟨h.head, h.ext.ext⟩
  | cons op ops ih =>
    intro p p' outs l hst h0 h1 ⟨hc, hg⟩ he hs hi hal h
    have hN : (es.length + (max 1 N + 1)) * 6 < two32 := by
      have := hfit.cols
      omega
    rw [BProc.run] at h
    obtain ⟨⟨p1, o⟩, hs1, h⟩ := Res.bind_eq_ok.1 h
    obtain ⟨⟨p2, os⟩, hr, h⟩ := Res.bind_eq_ok.1 h
    cases h
    obtain ⟨⟨a1, a2⟩, a3⟩ := hal p1 o hs1
    have he' : GoodSolvers ops := fun env hm => he env (List.mem_cons_of_mem _ hm)
    have fin : ∀ l1, Stable False es.length N U l1 p1.b → FirstOk N es f p1.b → p'.b.u.w.frm.frames.head? = some f ∧ p'.b.u.w.frm.extrinsics = es := by
      intro l1 k1 k2
      have hp := step_period p p1 op o hs1
      exact ih p1 p' os l1 k1 (by rw [hp]; exact h0) (by rw [hp]; exact h1) (hg p1 o hs1) he' a1 k2 a3 hr
    have hld : ∀ ld, FirstOk N es f { p.b with loader := ld } := fun ld => ⟨⟨⟨hi.ext.cov.cov, hi.ext.cov.bound, hi.ext.cov.cams, hi.ext.cov.dims⟩, hi.ext.zero, hi.ext.ext⟩, hi.zero, hi.head⟩
    cases op with
    | imu m => cases hs1; exact fin l (stable_loader hst _) (hld _)
    | feat m => cases hs1; exact fin l (stable_loader hst _) (hld _)
    | run env =>
      obtain ⟨l, hst, hb1⟩ := stable_base hst
      have hpop := callOk_msg hst hb1 env hc
      obtain ⟨r, b', l', e1, e2, -⟩ := runOnce_ok False env p.g hst hfit h0 h1 hpop (by simp)
      rw [BProc.step, e1, Res.bind_ok] at hs1
      cases hs1
      exact fin l' e2 (runOnce_first env (he env (by simp)) p.g es f hst hpop hu hN hN2 hfu hs hi e1 a1 a2)
    | runTest => cases hs1; exact fin l (stable_loader hst _) (hld _)
    | publishPropagate =>
      obtain ⟨_, _, hs1⟩ := Res.bind_eq_ok.1 hs1
      cases hs1; exact fin l hst hi
    | publishUpdate =>
      obtain ⟨_, _, hs1⟩ := Res.bind_eq_ok.1 hs1
      cases hs1; exact fin l hst hi
    | reset => exact hc.elim

end Time

/-- An update that succeeds on a window that is not over its size marginalises nothing. -/
theorem onFeat_noMarg (env : Env ℝ) (g : Vec3 ℝ) (b b' : Backend ℝ T) (m : FeatMsg ℝ T) (hs0 : b.status = .initialized) (hl : b.u.w.frm.frames.length + 1 ≤ b.u.w.frm.maxWindowSize)
    (h : b.onFeat env g m = .ok b') (hs : b'.status = .initialized) : b'.u.policy = .noMarg := by
  obtain ⟨b1, b2, h1, h2, h3⟩ := onFeat_eq env g b b' m h
  obtain ⟨e1, e2⟩ := insert_length b.u.w m
  have hb : b1 = b.setWin (b.u.w.insert m) := by
    unfold tryInit at h1
    rw [show (b.setWin (b.u.w.insert m)).status = .initialized from hs0] at h1
    cases h1; rfl
  subst hb
  obtain ⟨att, rfl⟩ := cleanAtt_keep _ _ h3
  unfold tryUpdate at h2
  rw [show (b.setWin (b.u.w.insert m)).status = .initialized from hs0] at h2
  dsimp only at h2
  split at h2
  · obtain ⟨⟨good, u⟩, hup, h2⟩ := Res.bind_eq_ok.1 h2
    dsimp only at h2
    split at h2
    · rename_i hg
      subst hg
      obtain ⟨w, hw, h2⟩ := Res.bind_eq_ok.1 h2
      cases h2
      obtain ⟨p1, -⟩ := update_policy env _ _ _ _ _ _ _ hup
      unfold decidePolicy at p1
      rw [if_neg (by
        show ¬ (b.u.w.insert m).frm.needMarginalize = true
        simpa [FrameMgr.needMarginalize, e1, e2] using hl)] at p1
      exact (Res.ok.inj p1).symm
    · obtain ⟨w, rfl, -⟩ := shrunk_keep _ _ h2
      cases hs
  · cases h2

/-- The first initialisation of a fresh filter: the oldest frame is put at the origin with the attitude of the attitude queue, and it is still there after the update that follows. -/
theorem C101_origin (env : Env ℝ) (hext : GoodExt env.ext) (g : Vec3 ℝ) (b b' : Backend ℝ T) (m : FeatMsg ℝ T) (N : Nat) (es : List (Extrinsic ℝ))
    (hu : ∀ e ∈ es, e.q.sqNorm = 1) (hN : (es.length + (max 1 N + 1)) * 6 < two32) (hsz : b.u.w.frm.maxWindowSize = N) (hN2 : 2 ≤ N) (hst : b.status = .needInit) (hi : ExtOk N es b)
    (hz : ZeroTo (6 * es.length + 6) b.u.q) (hatt : ∀ ts q, b.att.getAttitude ts (TimeOps.mul b.loader.imuPeriod (TimeOps.tlit (55/100))) = .ok (some q) → q.sqNorm = 1)
    (hid : ∀ f l, (b.u.w.insert m).frm.frames.head? = some f → (b.u.w.insert m).frm.frames.getLast? = some l → 1 < (b.u.w.insert m).frm.frames.length → f.id ≠ l.id)
    (h : b.onFeat env g m = .ok b') (hs : b'.status = .initialized) (hp : b'.u.policy ≠ .margOldest) : ∃ f, f.p = 0 ∧ f.q.sqNorm = 1 ∧ FirstOk N es f b' := by
  have hE := onFeat_extrinsics env hext g b b' m N es hu hN hi h
  obtain ⟨b1, b2, h1, h2, h3⟩ := onFeat_eq env g b b' m h
  obtain ⟨e1, e2⟩ := insert_length b.u.w m
  obtain ⟨att, rfl⟩ := cleanAtt_keep _ _ h3
  have hlen := hi.cov.bound.2
  have hins : (b.u.w.insert m).frm.extrinsics = es := by
    rw [← hi.ext]
    unfold Win.insert FrameMgr.addNewFrame
    rfl
  have hs1 : b1.status = .initialized := by
    by_contra hne
    have hni : b1.status = .needInit := by
      cases hb : b1.status with
      | needInit => rfl
      | initialized => exact absurd hb hne
    unfold tryUpdate at h2
    rw [hni] at h2
    cases h2
    exact hne hs
  have hc1 := tryInit_cov env g _ b1 h1 hi.cov.cov
  have hz1 := tryInit_zero _ env g _ b1 h1 hi.cov.cov hz
  obtain ⟨-, -, hmax, -⟩ := tryInit_any env g _ b1 h1 (by show 1 ≤ (b.u.w.insert m).frm.frames.length; omega)
  -- the window after the initialisation
  have hwin : ∃ f l, b1.u.w.frm.frames.head? = some f ∧ f.p = 0 ∧ f.q.sqNorm = 1 ∧ b1.u.w.frm.frames.getLast? = some l ∧ f.id ≠ l.id ∧
      b1.u.w.frm.frames.length = b.u.w.frm.frames.length + 1 ∧ 2 ≤ b1.u.w.frm.frames.length := by
    unfold tryInit at h1
    rw [show (b.setWin (b.u.w.insert m)).status = .needInit from hst] at h1
    dsimp only at h1
    obtain ⟨⟨good, b0⟩, h0, h1⟩ := Res.bind_eq_ok.1 h1
    dsimp only at h1
    split at h1
    · cases h1
      rename_i hgood
      subst hgood
      unfold initialise at h0
      split at h0
      · rename_i fi fj rest hfr
        have hfr : (b.u.w.insert m).frm.frames = fi :: fj :: rest := hfr
        dsimp only at h0
        split at h0
        · cases h0
        obtain ⟨a, ha, h0⟩ := Res.bind_eq_ok.1 h0
        cases a with
        | none => cases h0
        | some q =>
          dsimp only at h0
          obtain ⟨w, hw, h0⟩ := Res.bind_eq_ok.1 h0
          obtain ⟨⟨good, fj'⟩, hpn, h0⟩ := Res.bind_eq_ok.1 h0
          dsimp only at h0
          split at h0
          · cases h0
          obtain ⟨b3, hb3, h0⟩ := Res.bind_eq_ok.1 h0
          obtain ⟨_, _, h0⟩ := Res.bind_eq_ok.1 h0
          cases h0
          obtain ⟨att0, s0, rfl, -, -⟩ := initPropagator_keep _ _ _ _ _ hb3
          have hfj : fj'.id = fj.id := by
            unfold estimateFramePose at hpn
            dsimp only at hpn
            split at hpn
            · cases hpn; rfl
            · obtain ⟨_, _, hpn⟩ := Res.bind_eq_ok.1 hpn
              split at hpn
              · cases hpn; rfl
              · cases hpn; rfl
          dsimp only [setWin, setFrames]
          have hq := hatt fi.ts q ha
          cases hrest : rest.getLast? with
          | none =>
            rw [List.getLast?_eq_none_iff] at hrest
            subst hrest
            refine ⟨_, _, rfl, rfl, hq, rfl, ?_, by rw [← e1, hfr]; rfl, by simp⟩
            show fi.id ≠ fj'.id
            rw [hfj]
            exact hid fi fj (by rw [hfr]; rfl) (by rw [hfr]; rfl) (by rw [hfr]; simp)
          | some l =>
            have hne : rest ≠ [] := by rintro rfl; cases hrest
            have hlast : ∀ (x y : Frame ℝ T), (x :: y :: rest).getLast? = some l := by
              intro x y
              rw [List.getLast?_cons_of_ne_nil (by simp), List.getLast?_cons_of_ne_nil hne, hrest]
            refine ⟨_, l, rfl, rfl, hq, hlast _ _, ?_, by rw [← e1, hfr]; rfl, by simp⟩
            exact hid fi l (by rw [hfr]; rfl) (by rw [hfr]; exact hlast _ _) (by rw [hfr]; simp)
      · cases h0
    · obtain ⟨w, rfl, -⟩ := shrunk_keep _ _ h1
      obtain ⟨-, -, -, -, hk, -⟩ := initialise_any _ _ _ _ _ h0
      have : b0.status = .initialized := hs1
      rw [hk, show (b.setWin (b.u.w.insert m)).status = .needInit from hst] at this
      cases this
  obtain ⟨f, l, w1, w2, w3, w4, w5, w6, w7⟩ := hwin
  have hex : b1.u.w.frm.extrinsics = es := by rw [hc1.2]; exact hins
  obtain ⟨r1, r2⟩ := tryUpdate_first env g b1 b2 m.ts f l hc1.1 (by rw [hex]; exact hz1) (by rw [hex, w6]; omega) w7 (by rw [hmax]; show 2 ≤ (b.u.w.insert m).frm.maxWindowSize; omega) w1 w4 w5 w3 h2 hs hp
  rw [hex] at r2
  exact ⟨f, w2, w3, hE, r2, r1⟩

/-! ### Concrete case -/

theorem exReal_cov : CovInv ({ exReal.u.q with initState := ⟨0, ⟨1, 0, 0⟩, .one⟩ } : PropQueue ℝ ℝ) := by
  have h := (covOk_start exReal 1 2 3 4 (by norm_num) (by norm_num) (by norm_num) (by norm_num) ⟨0, 0, .one⟩ 0 0 rfl rfl rfl).cov
  exact ⟨⟨h.noise.fr, h.noise.fc, h.noise.gr, h.noise.gc, h.noise.qc, h.noise.psd⟩, h.sq, fun i hi => absurd hi List.not_mem_nil⟩

/-- The filter of C92's example knows its first frame and its extrinsics without uncertainty. -/
theorem exTrue_first : ∃ f, f.p = 0 ∧ f.q.sqNorm = 1 ∧ FirstOk 2 [⟨.one, 0⟩] f exTrue := by
  obtain ⟨f, hf, hp, hq, -, -⟩ := exTrue_frames
  have hz : ∀ z, ZeroTo z exTrue.u.q := by
    intro z
    refine propagate_zero z 1 { exReal.u.q with initState := ⟨0, ⟨1, 0, 0⟩, .one⟩ } ⟨0, 0, 10⟩ ⟨0, 0, 10⟩ 0 0 exReal_cov.noise ⟨fun it hit => absurd hit List.not_mem_nil, ?_⟩
    intro j _ l hl
    exact absurd hl (Nat.not_lt_zero _)
  have hl := (exTrue_stable.live rfl).2
  refine ⟨f, hp, by rw [hq]; simp [Quat.one, Quat.sqNorm], ⟨⟨propagate_cov _ 1 ⟨0, 0, 10⟩ ⟨0, 0, 10⟩ 0 0 exReal_cov, ⟨rfl, by rw [hf]; simp⟩, rfl, fun _ => ⟨hl.ne, ?_⟩⟩, hz _, rfl⟩, hz _, by rw [hf]; rfl⟩
  rw [hf]
  exact hl.dims.ex

/-- C101: a call of `RunOnce` with an IMU sample and an image that meets the hypotheses: the first frame is at the origin afterwards. -/
example : ∃ env : Env ℝ, ∃ p' outs f, (⟨{}, ⟨0, 0, 10⟩, exTrue⟩ : BProc ℝ ℝ).run [.run env] = .ok (p', outs) ∧ p'.b.u.w.frm.frames.head? = some f ∧ f.p = 0 ∧
    p'.b.u.w.frm.extrinsics = [⟨.one, 0⟩] := by
  obtain ⟨f, hp, hq, hF⟩ := exTrue_first
  obtain ⟨env, hg, h1, h2⟩ := exTrue_env
  have hper : (TimeOps.tlit 0 : ℝ) ≤ exTrue.loader.imuPeriod := by show (((0 : ℚ) : ℝ)) ≤ 1 / 10; norm_num
  have hhalf : TimeOps.mul exTrue.loader.imuPeriod (TimeOps.tlit (55/100)) ≤ exTrue.loader.imuPeriod := by show (1 / 10 : ℝ) * ((55 / 100 : ℚ) : ℝ) ≤ 1 / 10; norm_num
  obtain ⟨p', outs, hr, hx, -⟩ := C92_noise_free exWorld 0 0 [⟨.one, 0⟩] 1 2 20 ⟨by decide, by decide, by decide⟩ (fun t => by simp [exWorld, Quat.one, Quat.sqNorm])
    (by simp [Quat.one, Quat.sqNorm]) [.run env] (⟨{}, ⟨0, 0, 10⟩, exTrue⟩ : BProc ℝ ℝ) _ exTrue_stable hper hhalf exTrue_exact ⟨h1, fun _ _ _ => trivial⟩ ⟨h2, fun _ _ _ => trivial⟩
  refine ⟨env, p', outs, f, hr, ?_⟩
  have key := C101_first_frame [⟨.one, 0⟩] f 2 20 ⟨by decide, by decide, by decide⟩ (by simp [Quat.one, Quat.sqNorm]) le_rfl hq [.run env] (⟨{}, ⟨0, 0, 10⟩, exTrue⟩ : BProc ℝ ℝ) p' outs _
    exTrue_stable hper hhalf ⟨h1, fun _ _ _ => trivial⟩ (by intro e he; obtain rfl : e = env := by simpa using he
                                                            exact hg) rfl hF ?_ hr
  · exact ⟨key.1, hp, key.2⟩
  · intro p1 o hs
    have hs1 : p1 = p' := by
      rw [BProc.run, hs, Res.bind_ok] at hr
      simp only [BProc.run, Res.bind_ok, Res.ok.injEq, Prod.mk.injEq] at hr
      exact hr.1
    subst hs1
    refine ⟨⟨hx.status, ?_⟩, trivial⟩
    obtain ⟨⟨r, b'⟩, hb', hs⟩ := Res.bind_eq_ok.1 hs
    cases hs
    have hst := hx.status
    dsimp only at hst hb' ⊢
    rcases runOnce_eq env _ _ _ _ hb' with ⟨-, -, rfl⟩ | ⟨-, res, b1, i1, i2⟩
    · exact nofun
    · obtain ⟨-, ks, kw, -⟩ := onImu_keep _ _ _ _ _ i1
      rcases i2 with ⟨hn, -, rfl⟩ | ⟨m, -, -, i2⟩
      · simp [exTrue, Loader.popOne, exSight, setWin, exReal] at hn
      · rw [onFeat_noMarg env _ b1 b' m ks ?_ i2 hst]
        · exact nofun
        · rw [kw]
          obtain ⟨f', hf', -⟩ := exTrue_frames
          show exTrue.u.w.frm.frames.length + 1 ≤ 2
          rw [hf']; simp

end Backend
end Vio

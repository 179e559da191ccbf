/-
Properties C67, C71 - C74 and C78: configuration, status machine, publishing, consumption of messages, initialisation geometry.
-/
import Verif.Model.Backend
import Verif.Props.Config
import Verif.Props.Select
import Verif.Props.Propagator

set_option linter.unusedSectionVars false

namespace Vio
open Spec

variable {K T : Type} [Add K] [Sub K] [Mul K] [Neg K] [Div K] [Zero K] [One K] [ScalarFn K]
  [TimeOps T] [TimeCast T K]

/-! ### C67 -/

namespace Conf

/-- Both camera lists grow together. -/
theorem loadCams_lengths (lib : ConfLib K) (fs : String → Option (List Char)) (path : String) (fuel : Nat) : ∀ (s s' : St K),
    loadCams lib fs path fuel s = .ok (some s') → s.cfg.qbc.length = s.cfg.pbc.length → s'.cfg.qbc.length = s'.cfg.pbc.length := by
  induction fuel with
  | zero => intro s s' h; simp [loadCams] at h
  | succ n ih =>
    intro s s' h hl
    rw [loadCams] at h
    obtain ⟨⟨found, m⟩, -, h⟩ := Res.bind_eq_ok.1 h
    dsimp only at h
    split at h
    · exact ih _ _ h (by simp [hl])
    · cases h; exact hl

theorem onFile_cams (lib : ConfLib K) (fs : String → Option (List Char)) (name : String) (r c : Nat) (s s' : St K) (f : DMat K → Res (Config K))
    (hf : ∀ m cfg, f m = .ok cfg → cfg.qbc = s.cfg.qbc ∧ cfg.pbc = s.cfg.pbc) (h : onFile lib fs name r c s f = .ok s') :
    s'.cfg.qbc = s.cfg.qbc ∧ s'.cfg.pbc = s.cfg.pbc := by
  unfold onFile at h
  obtain ⟨⟨found, m⟩, -, h⟩ := Res.bind_eq_ok.1 h
  dsimp only at h
  split at h
  · obtain ⟨cfg, hc, h⟩ := Res.bind_eq_ok.1 h
    cases h
    exact hf _ _ hc
  · cases h; exact ⟨rfl, rfl⟩

/-- After reading, every camera has both a rotation and a translation. -/
theorem readConfig_lengths (lib : ConfLib K) (fs : String → Option (List Char)) (path : String) (fuel : Nat) (s s' : St K) (r : Bool)
    (h : readConfig lib fs path fuel s = .ok (some (r, s'))) : r = true ∧ s'.cfg.qbc.length = s'.cfg.pbc.length := by
  unfold readConfig at h
  obtain ⟨s1, h1, h⟩ := Res.bind_eq_ok.1 h
  obtain ⟨o, h2, h⟩ := Res.bind_eq_ok.1 h
  have e1 : s1.cfg.qbc.length = s1.cfg.pbc.length := by
    unfold readImu at h1
    obtain ⟨_, _, h1⟩ := Res.bind_eq_ok.1 h1
    obtain ⟨_, _, h1⟩ := Res.bind_eq_ok.1 h1
    obtain ⟨_, _, h1⟩ := Res.bind_eq_ok.1 h1
    obtain ⟨_, _, h1⟩ := Res.bind_eq_ok.1 h1
    cases h1; rfl
  cases o with
  | none => cases h
  | some s2 =>
    have e2 := loadCams_lengths lib fs path fuel s1 s2 h2 e1
    obtain ⟨s3, h3, h⟩ := Res.bind_eq_ok.1 h
    simp only [Res.ok.injEq, Option.some.injEq, Prod.mk.injEq] at h
    obtain ⟨rfl, rfl⟩ := h
    refine ⟨rfl, ?_⟩
    unfold readVision at h3
    obtain ⟨s4, h4, h3⟩ := Res.bind_eq_ok.1 h3
    obtain ⟨s5, h5, h3⟩ := Res.bind_eq_ok.1 h3
    have a4 := onFile_cams lib fs _ _ _ _ _ _ (fun m cfg hc => by
      obtain ⟨_, _, hc⟩ := Res.bind_eq_ok.1 hc; cases hc; exact ⟨rfl, rfl⟩) h4
    have a5 := onFile_cams lib fs _ _ _ _ _ _ (fun m cfg hc => by cases hc; exact ⟨rfl, rfl⟩) h5
    have a6 := onFile_cams lib fs _ _ _ _ _ _ (fun m cfg hc => by
      obtain ⟨_, _, hc⟩ := Res.bind_eq_ok.1 hc; cases hc; exact ⟨rfl, rfl⟩) h3
    rw [a6.1, a6.2, a5.1, a5.2, a4.1, a4.2, e2]

end Conf

namespace Backend

theorem extrinsics_eq (qbc : List (Quat K)) (ps : List (Vec3 K)) : ∀ i, i + ps.length ≤ qbc.length →
    extrinsics qbc i ps = .ok (((qbc.drop i).zip ps).map (fun x => ⟨x.1, x.2⟩)) := by
  induction ps with
  | nil => intro i _; simp [extrinsics]
  | cons p ps ih =>
    intro i h
    simp only [List.length_cons] at h
    have hi : i < qbc.length := by omega
    rw [extrinsics, idx, List.getElem?_eq_getElem hi]
    dsimp only
    rw [Res.bind_ok, ih (i + 1) (by omega), Res.bind_ok, List.drop_eq_getElem_cons hi]
    rfl

/-- C67.  `ConfigParams` that returns, returns true, and every component has the configurator's values: camera `i` has rotation and translation `i`. -/
theorem C67_config (lib : ConfLib K) (fs : String → Option (List Char)) (path : String) (fuel : Nat) (s s' : Conf.St K) (g g' : Vec3 K) (b b' : Backend K T) (r : Bool)
    (h : configParams lib fs path fuel s g b = .ok (some (r, b', g', s'))) :
    r = true ∧ Conf.readConfig lib fs path fuel s = .ok (some (true, s')) ∧
    b'.loader.imuPeriod = TimeCast.ofK s'.cfg.period ∧ b'.u.w.frm.maxWindowSize = s'.cfg.maxFrameNum ∧
    b'.u.w.frm.minTracked = s'.cfg.minTracked ∧ b'.u.w.frm.minParallax = s'.cfg.minParallax ∧ b'.u.w.frm.maxTranslation = s'.cfg.maxTranslation ∧
    b'.noise = s'.cfg.sigmaVision ∧ b'.maxUsed = s'.cfg.maxFeatures ∧ b'.u.q.biasA = s'.cfg.biasA ∧ b'.u.q.biasG = s'.cfg.biasG ∧
    g' = ⟨lit 0, lit 0, s'.cfg.gravity⟩ ∧ b'.u.q.Q = PropQueue.noiseMatrix s'.cfg.sigmaA s'.cfg.sigmaG s'.cfg.sigmaWA s'.cfg.sigmaWG ∧
    b'.u.w.frm.extrinsics.map (·.q) = s'.cfg.qbc ∧ b'.u.w.frm.extrinsics.map (·.p) = s'.cfg.pbc ∧ b'.mounted = true := by
  unfold configParams at h
  obtain ⟨o, ho, h⟩ := Res.bind_eq_ok.1 h
  cases o with
  | none => cases h
  | some rs =>
    obtain ⟨r1, s1⟩ := rs
    obtain ⟨rfl, hl⟩ := Conf.readConfig_lengths lib fs path fuel s s1 r1 ho
    obtain ⟨⟨b2, g2⟩, h2, h⟩ := Res.bind_eq_ok.1 h
    simp only [Res.ok.injEq, Option.some.injEq, Prod.mk.injEq] at h
    obtain ⟨rfl, rfl, rfl, rfl⟩ := h
    unfold applyConfig at h2
    rw [extrinsics_eq _ _ 0 (by omega), Res.bind_ok] at h2
    cases h2
    refine ⟨rfl, ho, rfl, rfl, rfl, rfl, rfl, rfl, rfl, rfl, rfl, rfl, rfl, ?_, ?_, rfl⟩
    · simp only [List.map_map, List.drop_zero]
      exact List.map_fst_zip (by omega)
    · simp only [List.map_map, List.drop_zero]
      exact List.map_snd_zip (by omega)

/-- C67: indexing the rotations by the number of translations never leaves the list: reading the files is the only part of `ConfigParams` that can be undefined. -/
theorem C67_no_ub (lib : ConfLib K) (fs : String → Option (List Char)) (path : String) (fuel : Nat) (s s' : Conf.St K) (g : Vec3 K) (b : Backend K T)
    (h : Conf.readConfig lib fs path fuel s = .ok (some (true, s'))) : ∃ b' g', configParams lib fs path fuel s g b = .ok (some (true, b', g', s')) := by
  obtain ⟨-, hl⟩ := Conf.readConfig_lengths lib fs path fuel s s' true h
  unfold configParams
  rw [h, Res.bind_ok]
  dsimp only
  unfold applyConfig
  rw [extrinsics_eq _ _ 0 (by omega), Res.bind_ok, Res.bind_ok]
  exact ⟨_, _, rfl⟩

/-! ### C72 -/

/-- C72.  The reported state is the newest queued one with its time and the current biases; false exactly when nothing is queued. -/
theorem C72_propagate (b : Backend K T) :
    ∃ o, b.publishPropagate = .ok o ∧ (o = none ↔ b.u.q.items = []) ∧
      ∀ s, o = some s → ∃ l i, b.u.q.items = l ++ [i] ∧ s.st = i.st ∧ s.ts = i.ts ∧ s.biasA = b.u.q.biasA ∧ s.biasG = b.u.q.biasG := by
  unfold publishPropagate
  rcases List.eq_nil_or_concat b.u.q.items with h | ⟨l, i, h⟩
  · refine ⟨none, ?_, by simp [h], by simp⟩
    rw [if_pos (by simp [h])]
  · refine ⟨some (b.publish i), ?_, by simp [h], ?_⟩
    · rw [if_neg (by simp [h]), h, List.concat_eq_append, back_append_singleton, Res.bind_ok]
    · rintro s hs
      cases hs
      exact ⟨l, i, by rw [h, List.concat_eq_append], rfl, rfl, rfl, rfl⟩

/-- C72, the oldest queued state. -/
theorem C72_update (b : Backend K T) :
    ∃ o, b.publishUpdate = .ok o ∧ (o = none ↔ b.u.q.items = []) ∧
      ∀ s, o = some s → ∃ l i, b.u.q.items = i :: l ∧ s.st = i.st ∧ s.ts = i.ts ∧ s.biasA = b.u.q.biasA ∧ s.biasG = b.u.q.biasG := by
  unfold publishUpdate
  cases h : b.u.q.items with
  | nil => exact ⟨none, rfl, by simp, by simp⟩
  | cons i l =>
    refine ⟨some (b.publish i), rfl, by simp, ?_⟩
    rintro s hs
    cases hs
    exact ⟨l, i, rfl, rfl, rfl, rfl, rfl⟩

/-- C72, publishing changes nothing. -/
theorem C72_no_change (p p' : BProc K T) (op : BOp K T) (o : BOut K T) (hop : op = .publishPropagate ∨ op = .publishUpdate) (h : p.step op = .ok (p', o)) : p' = p := by
  rcases hop with rfl | rfl
  · obtain ⟨_, _, h⟩ := Res.bind_eq_ok.1 h
    cases h; rfl
  · obtain ⟨_, _, h⟩ := Res.bind_eq_ok.1 h
    cases h; rfl

/-! ### What the steps leave alone -/

theorem setWin_status (b : Backend K T) (w : Win K T) : (b.setWin w).status = b.status := rfl

theorem shrunk_keep (b b' : Backend K T) (h : b.shrunk = .ok b') : ∃ w, b' = b.setWin w ∧ shrink b.u.w.frm.frames.length b.u.w = .ok w := by
  unfold shrunk at h
  obtain ⟨w, hw, h⟩ := Res.bind_eq_ok.1 h
  cases h
  exact ⟨w, rfl, hw⟩

/-- What an IMU message changes: attitude estimator and propagation queue. -/
theorem onImu_keep (g : Vec3 K) (b b' : Backend K T) (ms : List (ImuMsg K T)) (r : Bool) (h : b.onImu g ms = .ok (r, b')) :
    b'.loader = b.loader ∧ b'.status = b.status ∧ b'.u.w = b.u.w ∧ b'.noise = b.noise ∧ b'.maxUsed = b.maxUsed ∧ b'.mounted = b.mounted ∧ b'.pnp = b.pnp := by
  cases ms with
  | nil => cases h; exact ⟨rfl, rfl, rfl, rfl, rfl, rfl, rfl⟩
  | cons m ms =>
    rw [onImu] at h
    generalize b.att.propagate g m.accel m.gyro m.ts = ar at h
    obtain ⟨att, res⟩ := ar
    dsimp only at h
    split at h
    · cases h; exact ⟨rfl, rfl, rfl, rfl, rfl, rfl, rfl⟩
    · split at h
      · cases h; exact ⟨rfl, rfl, rfl, rfl, rfl, rfl, rfl⟩
      · cases h

theorem initPropagator_keep (g : Vec3 K) (b b' : Backend K T) (st : Motion K) (t : T) (h : initPropagator g b st t = .ok b') :
    ∃ att s, b' = { b with att := att, u := { b.u with q := s } } ∧ b.att.cleanOldItems t (TimeCast.toK b.loader.imuPeriod) = .ok att ∧
      replay b.mounted b.u.w.frm.extrinsics.length g { b.u.q with initState := st } att.items = .ok s := by
  unfold initPropagator at h
  obtain ⟨att, ha, h⟩ := Res.bind_eq_ok.1 h
  obtain ⟨s, hs, h⟩ := Res.bind_eq_ok.1 h
  cases h
  exact ⟨att, s, rfl, ha, hs⟩

/-- What the attempt to initialise changes: attitude queue, propagation queue, window. -/
theorem initialise_keep (env : Env K) (g : Vec3 K) (b b' : Backend K T) (r : Bool) (h : initialise env g b = .ok (r, b')) :
    ∃ att q w, b' = { b with att := att, u := { b.u with q := q, w := w } } ∧ (r = true → 2 ≤ b.u.w.frm.frames.length) := by
  unfold initialise at h
  split at h
  · rename_i fi fj rest hfr
    dsimp only at h
    split at h
    · cases h; exact ⟨_, _, _, rfl, by simp⟩
    · obtain ⟨a, ha, h⟩ := Res.bind_eq_ok.1 h
      cases a with
      | none => cases h; exact ⟨_, _, _, rfl, by simp⟩
      | some q =>
        obtain ⟨w, hw, h⟩ := Res.bind_eq_ok.1 h
        obtain ⟨⟨good, fj'⟩, he, h⟩ := Res.bind_eq_ok.1 h
        dsimp only at h
        split at h
        · cases h; exact ⟨_, _, _, rfl, by simp⟩
        · obtain ⟨b1, h1, h⟩ := Res.bind_eq_ok.1 h
          obtain ⟨_, _, h⟩ := Res.bind_eq_ok.1 h
          cases h
          obtain ⟨att, s, rfl, -, -⟩ := initPropagator_keep _ _ _ _ _ h1
          exact ⟨_, _, _, rfl, by simp [hfr]⟩
  · cases h; exact ⟨_, _, _, rfl, by simp⟩

/-- The attempt to initialise: loader and parameters stay; if the status changes, the initialisation succeeded with at least two frames. -/
theorem tryInit_keep (env : Env K) (g : Vec3 K) (b b' : Backend K T) (h : b.tryInit env g = .ok b') :
    b'.loader = b.loader ∧ b'.noise = b.noise ∧ b'.maxUsed = b.maxUsed ∧ b'.mounted = b.mounted ∧ b'.pnp = b.pnp ∧
    (b.status = .initialized → b' = b) ∧ (b.status = .needInit → b'.status = .initialized →
      2 ≤ b.u.w.frm.frames.length ∧ ∃ b1, initialise env g b = .ok (true, b1) ∧ b' = { b1 with status := .initialized }) := by
  unfold tryInit at h
  split at h
  · rename_i hs
    obtain ⟨⟨good, b1⟩, h1, h⟩ := Res.bind_eq_ok.1 h
    obtain ⟨att, q, w, rfl, h2⟩ := initialise_keep _ _ _ _ _ h1
    dsimp only at h
    split at h
    · rename_i hg
      cases h
      exact ⟨rfl, rfl, rfl, rfl, rfl, by simp [hs], fun _ _ => ⟨h2 hg, _, by rw [h1, hg], rfl⟩⟩
    · obtain ⟨w', rfl, -⟩ := shrunk_keep _ _ h
      exact ⟨rfl, rfl, rfl, rfl, rfl, by simp [hs], fun _ h3 => absurd (h3.symm.trans hs) (by decide)⟩
  · rename_i hs
    cases h
    exact ⟨rfl, rfl, rfl, rfl, rfl, fun _ => rfl, fun h3 => absurd (h3.symm.trans hs) (by decide)⟩

/-- The vision update: the status is kept exactly by a successful update. -/
theorem tryUpdate_keep (env : Env K) (g : Vec3 K) (b b' : Backend K T) (ts : T) (h : b.tryUpdate env g ts = .ok b') :
    b'.loader = b.loader ∧ b'.noise = b.noise ∧ b'.maxUsed = b.maxUsed ∧ b'.mounted = b.mounted ∧ b'.pnp = b.pnp ∧
    (b.status = .needInit → b' = b) ∧ (b.status = .initialized →
      ∃ good u, Update.update env b.noise b.maxUsed g b.u ts b.loader.imuPeriod = .ok (good, u) ∧ (b'.status = .initialized ↔ good = true)) := by
  unfold tryUpdate at h
  split at h
  · rename_i hs
    cases h
    exact ⟨rfl, rfl, rfl, rfl, rfl, fun _ => rfl, fun h3 => absurd (h3.symm.trans hs) (by decide)⟩
  · rename_i hs
    split at h
    · obtain ⟨⟨good, u⟩, h1, h⟩ := Res.bind_eq_ok.1 h
      dsimp only at h
      split at h
      · rename_i hg
        obtain ⟨w, hw, h⟩ := Res.bind_eq_ok.1 h
        cases h
        exact ⟨rfl, rfl, rfl, rfl, rfl, by simp [hs], fun _ => ⟨good, u, h1, by simp [hs, hg]⟩⟩
      · rename_i hg
        obtain ⟨w', rfl, -⟩ := shrunk_keep _ _ h
        exact ⟨rfl, rfl, rfl, rfl, rfl, by simp [hs], fun _ => ⟨good, u, h1, by simp [setWin, hg]⟩⟩
    · cases h

theorem cleanAtt_keep (b b' : Backend K T) (h : b.cleanAtt = .ok b') : ∃ att, b' = { b with att := att } := by
  unfold cleanAtt at h
  split at h
  · obtain ⟨_, _, h⟩ := Res.bind_eq_ok.1 h
    obtain ⟨_, _, h⟩ := Res.bind_eq_ok.1 h
    cases h
    exact ⟨_, rfl⟩
  · cases h
    exact ⟨_, rfl⟩

theorem onFeat_eq (env : Env K) (g : Vec3 K) (b b' : Backend K T) (m : FeatMsg K T) (h : b.onFeat env g m = .ok b') :
    ∃ b1 b2, (b.setWin (b.u.w.insert m)).tryInit env g = .ok b1 ∧ b1.tryUpdate env g m.ts = .ok b2 ∧ b2.cleanAtt = .ok b' := by
  unfold onFeat at h
  obtain ⟨b1, h1, h⟩ := Res.bind_eq_ok.1 h
  obtain ⟨b2, h2, h⟩ := Res.bind_eq_ok.1 h
  exact ⟨b1, b2, h1, h2, h⟩

theorem onFeat_keep (env : Env K) (g : Vec3 K) (b b' : Backend K T) (m : FeatMsg K T) (h : b.onFeat env g m = .ok b') :
    b'.loader = b.loader ∧ b'.noise = b.noise ∧ b'.maxUsed = b.maxUsed ∧ b'.mounted = b.mounted ∧ b'.pnp = b.pnp := by
  obtain ⟨b1, b2, h1, h2, h3⟩ := onFeat_eq env g b b' m h
  obtain ⟨a1, a2, a3, a4, a5, -⟩ := tryInit_keep _ _ _ _ h1
  obtain ⟨c1, c2, c3, c4, c5, -⟩ := tryUpdate_keep _ _ _ _ _ h2
  obtain ⟨att, rfl⟩ := cleanAtt_keep _ _ h3
  exact ⟨c1.trans a1, c2.trans a2, c3.trans a3, c4.trans a4, c5.trans a5⟩

/-- `RunOnce` in parts. -/
theorem runOnce_eq (env : Env K) (g : Vec3 K) (b b' : Backend K T) (r : Bool) (h : b.runOnce env g = .ok (r, b')) :
    (b.loader.popOne.ret = false ∧ r = false ∧ b' = { b with loader := b.loader.popOne.loader }) ∨
    (b.loader.popOne.ret = true ∧ ∃ res b1, onImu g { b with loader := b.loader.popOne.loader } b.loader.popOne.out.imuMeas = .ok (res, b1) ∧
      ((b.loader.popOne.out.featMeas = none ∧ r = res ∧ b' = b1) ∨
       ∃ m, b.loader.popOne.out.featMeas = some m ∧ r = true ∧ b1.onFeat env g m = .ok b')) := by
  unfold runOnce at h
  dsimp only at h
  split at h
  · rename_i hr
    obtain ⟨⟨res, b1⟩, h1, h⟩ := Res.bind_eq_ok.1 h
    dsimp only at h
    refine .inr ⟨hr, res, b1, h1, ?_⟩
    split at h
    · rename_i hf
      cases h
      exact .inl ⟨hf, rfl, rfl⟩
    · rename_i m hf
      obtain ⟨b2, h2, h⟩ := Res.bind_eq_ok.1 h
      cases h
      exact .inr ⟨m, hf, rfl, h2⟩
  · rename_i hr
    cases h
    exact .inl ⟨by simpa using hr, rfl, rfl⟩

theorem runOnce_loader (env : Env K) (g : Vec3 K) (b b' : Backend K T) (r : Bool) (h : b.runOnce env g = .ok (r, b')) : b'.loader = b.loader.popOne.loader := by
  rcases runOnce_eq env g b b' r h with ⟨-, -, rfl⟩ | ⟨-, res, b1, h1, h2⟩
  · rfl
  · have e1 := (onImu_keep _ _ _ _ _ h1).1
    rcases h2 with ⟨-, -, rfl⟩ | ⟨m, -, -, h2⟩
    · exact e1
    · exact (onFeat_keep _ _ _ _ _ h2).1.trans e1

/-! ### C71 -/

/-- C71.  In a `RunOnce` that makes the backend initialised, a features message was handled, the window including it had at least two frames, initialisation and update succeeded. -/
theorem C71_becomes_initialised (env : Env K) (g : Vec3 K) (b b' : Backend K T) (r : Bool) (h : b.runOnce env g = .ok (r, b')) (h0 : b.status = .needInit)
    (h1 : b'.status = .initialized) :
    ∃ (m : FeatMsg K T) (b1 b2 : Backend K T) (u : Upd K T), b.loader.popOne.out.featMeas = some m ∧ 2 ≤ (b.u.w.insert m).frm.frames.length ∧ b1.u.w = b.u.w.insert m ∧
      initialise env g b1 = .ok (true, b2) ∧ Update.update env b.noise b.maxUsed g b2.u m.ts b.loader.popOne.loader.imuPeriod = .ok (true, u) := by
  rcases runOnce_eq env g b b' r h with ⟨-, -, rfl⟩ | ⟨-, res, b1, hi, h2⟩
  · exact absurd (h0.symm.trans h1) (by decide)
  · obtain ⟨i1, i2, i3, i4, i5, -⟩ := onImu_keep _ _ _ _ _ hi
    rcases h2 with ⟨-, -, rfl⟩ | ⟨m, hm, -, hf⟩
    · exact absurd ((i2.trans h0).symm.trans h1) (by decide)
    · obtain ⟨c1, c2, t1, t2, t3⟩ := onFeat_eq env g b1 b' m hf
      obtain ⟨att, rfl⟩ := cleanAtt_keep _ _ t3
      have hs : (b1.setWin (b1.u.w.insert m)).status = .needInit := i2.trans h0
      obtain ⟨k1, k2, k3, -, -, -, k⟩ := tryInit_keep _ _ _ _ t1
      obtain ⟨-, -, -, -, -, n1, n2⟩ := tryUpdate_keep _ _ _ _ _ t2
      have hc1 : c1.status = .initialized := by
        rcases hc : c1.status with _ | _
        · rw [n1 hc] at h1
          exact absurd (hc.symm.trans h1) (by decide)
        · rfl
      obtain ⟨k4, b2, k5, rfl⟩ := k hs hc1
      obtain ⟨good, u, n3, n4⟩ := n2 hc1
      have hg : good = true := n4.1 h1
      have hi3 : b1.u.w = b.u.w := i3
      refine ⟨m, _, b2, u, hm, ?_, ?_, k5, ?_⟩
      · rw [← hi3]; exact k4
      · show b1.u.w.insert m = _
        rw [hi3]
      · rw [← hg]
        have e1 : b2.noise = b.noise := k2.trans i4
        have e2 : b2.maxUsed = b.maxUsed := k3.trans i5
        have e3 : b2.loader = b.loader.popOne.loader := k1.trans i1
        rw [← e1, ← e2, ← e3]
        exact n3

/-- C71.  In a `RunOnce` that ends the initialised state, a features message was handled and its update failed. -/
theorem C71_goes_back (env : Env K) (g : Vec3 K) (b b' : Backend K T) (r : Bool) (h : b.runOnce env g = .ok (r, b')) (h0 : b.status = .initialized)
    (h1 : b'.status = .needInit) :
    ∃ (m : FeatMsg K T) (b1 : Backend K T) (u : Upd K T), b.loader.popOne.out.featMeas = some m ∧ b1.u.w = b.u.w.insert m ∧
      Update.update env b.noise b.maxUsed g b1.u m.ts b.loader.popOne.loader.imuPeriod = .ok (false, u) := by
  rcases runOnce_eq env g b b' r h with ⟨-, -, rfl⟩ | ⟨-, res, b1, hi, h2⟩
  · exact absurd (h0.symm.trans h1) (by decide)
  · obtain ⟨i1, i2, i3, i4, i5, -⟩ := onImu_keep _ _ _ _ _ hi
    rcases h2 with ⟨-, -, rfl⟩ | ⟨m, hm, -, hf⟩
    · exact absurd ((i2.trans h0).symm.trans h1) (by decide)
    · obtain ⟨c1, c2, t1, t2, t3⟩ := onFeat_eq env g b1 b' m hf
      obtain ⟨att, rfl⟩ := cleanAtt_keep _ _ t3
      have hs : (b1.setWin (b1.u.w.insert m)).status = .initialized := i2.trans h0
      obtain ⟨k1, k2, k3, -, -, k4, -⟩ := tryInit_keep _ _ _ _ t1
      have hc := k4 hs
      subst hc
      obtain ⟨-, -, -, -, -, -, n2⟩ := tryUpdate_keep _ _ _ _ _ t2
      obtain ⟨good, u, n3, n4⟩ := n2 hs
      have hg : good = false := by
        cases good with
        | false => rfl
        | true => exact absurd ((n4.2 rfl).symm.trans h1) (by decide)
      have hi3 : b1.u.w = b.u.w := i3
      refine ⟨m, b1.setWin (b1.u.w.insert m), u, hm, by show b1.u.w.insert m = _; rw [hi3], ?_⟩
      rw [← hg]
      have e1 : b1.noise = b.noise := i4
      have e2 : b1.maxUsed = b.maxUsed := i5
      have e3 : b1.loader = b.loader.popOne.loader := i1
      rw [← e1, ← e2, ← e3]
      exact n3

/-- C71.  A `RunOnce` without features message, and every call that is neither `RunOnce` nor `Reset`, keeps the status. -/
theorem C71_imu_only (env : Env K) (g : Vec3 K) (b b' : Backend K T) (r : Bool) (h : b.runOnce env g = .ok (r, b')) (hf : b.loader.popOne.out.featMeas = none) :
    b'.status = b.status := by
  rcases runOnce_eq env g b b' r h with ⟨-, -, rfl⟩ | ⟨-, res, b1, hi, h2⟩
  · rfl
  · rcases h2 with ⟨-, -, rfl⟩ | ⟨m, hm, -⟩
    · exact (onImu_keep _ _ _ _ _ hi).2.1
    · rw [hf] at hm; cases hm

theorem C71_other_calls (p p' : BProc K T) (op : BOp K T) (o : BOut K T) (h : p.step op = .ok (p', o)) (h1 : ∀ env, op ≠ .run env) :
    (op = .reset → p'.b.status = .needInit) ∧ (op ≠ .reset → p'.b.status = p.b.status) := by
  cases op with
  | imu m => cases h; exact ⟨(nomatch ·), fun _ => rfl⟩
  | feat m => cases h; exact ⟨(nomatch ·), fun _ => rfl⟩
  | run env => exact absurd rfl (h1 env)
  | runTest => cases h; exact ⟨(nomatch ·), fun _ => rfl⟩
  | publishPropagate => rw [C72_no_change p p' _ o (.inl rfl) h]; exact ⟨(nomatch ·), fun _ => rfl⟩
  | publishUpdate => rw [C72_no_change p p' _ o (.inr rfl) h]; exact ⟨(nomatch ·), fun _ => rfl⟩
  | reset => cases h; exact ⟨fun _ => rfl, fun h => absurd rfl h⟩

/-! ### C73, C74 -/

/-- The loader has nothing to hand out exactly when both queues are empty. -/
theorem popOne_ret (l : Loader K T) : l.popOne.ret = false ↔ l.imuMeas = [] ∧ l.featMeas = [] := by
  unfold Loader.popOne
  split
  · rename_i imu imus feat feats h1 h2
    split
    · split <;> simp [h1]
    · simp [h1]
  · rename_i h1 h2; simp [h1]
  · rename_i h1 h2; simp [h2]
  · rename_i h1 h2; simp [h1, h2]

/-- C73.  `RunOnce` returns false exactly when both queues were empty or it handled a lone IMU message before initialisation that the attitude estimator refused. -/
theorem C73_result (env : Env K) (g : Vec3 K) (b b' : Backend K T) (r : Bool) (h : b.runOnce env g = .ok (r, b')) :
    r = false ↔ (b.loader.imuMeas = [] ∧ b.loader.featMeas = []) ∨
      (b.loader.popOne.out.featMeas = none ∧ b.status = .needInit ∧
        ∃ m ms, b.loader.popOne.out.imuMeas = m :: ms ∧ (b.att.propagate g m.accel m.gyro m.ts).2 = false) := by
  rw [← popOne_ret]
  rcases runOnce_eq env g b b' r h with ⟨h1, rfl, rfl⟩ | ⟨h1, res, b1, hi, h2⟩
  · simp [h1]
  · rw [h1]
    have hres : res = false ↔ b.status = .needInit ∧ ∃ m ms, b.loader.popOne.out.imuMeas = m :: ms ∧ (b.att.propagate g m.accel m.gyro m.ts).2 = false := by
      cases hm : b.loader.popOne.out.imuMeas with
      | nil => rw [hm] at hi; cases hi; simp
      | cons m ms =>
        rw [hm, onImu] at hi
        dsimp only at hi
        cases hs : b.status with
        | needInit => simp only [hs] at hi; cases hi; simp
        | initialized =>
          simp only [hs] at hi
          split at hi
          · cases hi; simp
          · cases hi
    rcases h2 with ⟨hf, rfl, -⟩ | ⟨m, hm, rfl, -⟩
    · rw [hres]; simp [hf]
    · simp [hm]

/-- Number of buffered messages. -/
def buffered (l : Loader K T) : Nat := l.imuMeas.length + l.featMeas.length

/-- C74.  What `RunOnce` takes out of the loader is one output message: `PopOneMessage` is called once, and at most one IMU and one features message leave the front of
their queues, at least one of them if there is any. -/
theorem C74_one_message (env : Env K) (g : Vec3 K) (b b' : Backend K T) (r : Bool) (h : b.runOnce env g = .ok (r, b')) :
    b'.loader = b.loader.popOne.loader ∧
    b.loader.imuMeas = b.loader.popOne.out.imuMeas ++ b'.loader.imuMeas ∧ b.loader.featMeas = b.loader.popOne.out.featMeas.toList ++ b'.loader.featMeas ∧
    b.loader.popOne.out.imuMeas.length ≤ 1 ∧ (0 < buffered b.loader → buffered b'.loader < buffered b.loader) := by
  have e := runOnce_loader env g b b' r h
  refine ⟨e, ?_⟩
  rw [e]
  unfold Loader.popOne buffered
  split
  · rename_i imu imus feat feats h1 h2
    split
    · split <;> simp [h1, h2]
      omega
    · simp [h1, h2]
  · rename_i h1 h2; simp [h1, h2]
  · rename_i h1 h2; simp [h1, h2]
  · rename_i h1 h2; simp [h1, h2, Combined.cleared]

/-- C74.  As many calls as messages are buffered empty the loader. -/
theorem C74_all_consumed (envs : List (Env K)) : ∀ (p p' : BProc K T) (os : List (BOut K T)), buffered p.b.loader ≤ envs.length →
    p.run (envs.map .run) = .ok (p', os) → buffered p'.b.loader = 0 := by
  induction envs with
  | nil => intro p p' os h1 h; cases h; simpa using h1
  | cons env envs ih =>
    intro p p' os h1 h
    rw [List.map_cons, BProc.run] at h
    obtain ⟨⟨p1, o⟩, hs, h⟩ := Res.bind_eq_ok.1 h
    obtain ⟨⟨p2, os2⟩, hr, h⟩ := Res.bind_eq_ok.1 h
    cases h
    refine ih p1 _ _ ?_ hr
    rw [BProc.step] at hs
    obtain ⟨⟨res, b⟩, hb, hs⟩ := Res.bind_eq_ok.1 hs
    cases hs
    obtain ⟨e, -, -, -, h2⟩ := C74_one_message env p.g p.b b res hb
    simp only [List.length_cons] at h1
    show buffered b.loader ≤ _
    rcases Nat.eq_zero_or_pos (buffered p.b.loader) with h0 | h0
    · have : buffered b.loader ≤ buffered p.b.loader := by
        obtain ⟨-, h3, h4, -, -⟩ := C74_one_message env p.g p.b b res hb
        unfold buffered
        rw [h3, h4]; simp; omega
      omega
    · have := h2 h0
      omega

/-! ### C78 -/

/-- What replaying samples does to the queue: the times are appended, biases, noise and initial state stay, and an empty queue starts at the initial state. -/
theorem replay_spec (mounted : Bool) (nExt : Nat) (g : Vec3 K) (its : List (AttItem K T)) : ∀ (s s' : PropQueue K T), replay mounted nExt g s its = .ok s' →
    s'.initState = s.initState ∧ s'.biasA = s.biasA ∧ s'.biasG = s.biasG ∧ s'.Q = s.Q ∧ s'.items.map (·.ts) = s.items.map (·.ts) ++ its.map (·.ts) ∧
    s'.items.head? = (match s.items, its with
      | i :: _, _ => some i
      | [], [] => none
      | [], it :: _ => some ⟨s.initState, .zero 15 15, .zero 15 (nExt * 6 + 6), it.accel, it.gyro, it.ts⟩) := by
  induction its with
  | nil =>
    intro s s' h
    cases h
    refine ⟨rfl, rfl, rfl, rfl, by simp, ?_⟩
    cases s.items <;> rfl
  | cons it its ih =>
    intro s s' h
    rw [replay] at h
    split at h
    · obtain ⟨h1, h2, h3, h4, h5, h6⟩ := ih _ _ h
      rw [h1, h2, h3, h4, h5, h6]
      unfold PropQueue.propagate
      rcases List.eq_nil_or_concat s.items with hs | ⟨l, i, hs⟩
      · simp [hs, imuStateSize]
      · rw [List.concat_eq_append] at hs
        simp only [hs, List.getLast?_concat]
        refine ⟨trivial, trivial, trivial, trivial, by simp [PropQueue.stepItem], ?_⟩
        cases l <;> rfl
    · cases h

/-- `TrianglizeMultiView` touches only point and status of the features it is given. -/
theorem triMultiView_spec (ext : Ext K) (f : Frame K T) (es : List (Nat × Nat)) : ∀ (w w' : Win K T), triMultiView ext f w es = .ok w' →
    Update.SameBut w w' ∧ (∀ r, r ∉ es.map (·.2) → w'.feat.heap r = w.feat.heap r) ∧
    ((es.map (·.2)).Nodup → ∀ e ∈ es, ∃ o vs good pw, (w.feat.heap e.2).observes[sub32 f.id (w.feat.heap e.2).first]? = some o ∧ Update.obsViews w.frm f o.norms = .ok vs ∧
      Triang.analytic ext (vs.map (·.q)) (vs.map (·.p)) (vs.map (·.n)) (w.feat.heap e.2).pw = .ok (good, pw) ∧
      (w'.feat.heap e.2).pw = pw ∧ ((w'.feat.heap e.2).status = .solved ↔ good = true)) := by
  induction es with
  | nil =>
    intro w w' h
    cases h
    exact ⟨⟨rfl, rfl, rfl, fun _ => rfl⟩, fun _ _ => rfl, by simp⟩
  | cons e es ih =>
    intro w w' h
    rw [triMultiView] at h
    obtain ⟨o, ho, h⟩ := Res.bind_eq_ok.1 h
    obtain ⟨vs, hv, h⟩ := Res.bind_eq_ok.1 h
    obtain ⟨⟨good, pw⟩, ha, h⟩ := Res.bind_eq_ok.1 h
    dsimp only at h
    obtain ⟨h1, h2, h3⟩ := ih _ _ h
    refine ⟨?_, ?_, ?_⟩
    · refine ⟨h1.frm, h1.map, h1.next, fun r => ?_⟩
      have := h1.heap r
      by_cases hr : r = e.2
      · subst hr; simpa [FMgr.put] using this
      · simpa [FMgr.put, hr] using this
    · intro r hr
      simp only [List.map_cons, List.mem_cons, not_or] at hr
      rw [h2 r hr.2]
      simp [FMgr.put, hr.1]
    · intro hn x hx
      rw [List.map_cons, List.nodup_cons] at hn
      rcases List.mem_cons.1 hx with rfl | hx
      · refine ⟨o, vs, good, pw, ?_, hv, ha, ?_, ?_⟩
        · unfold idx at ho
          split at ho
          · rename_i hi; cases ho; exact hi
          · cases ho
        · rw [h2 _ hn.1]; simp [FMgr.put]
        · rw [h2 _ hn.1]
          cases good <;> simp [FMgr.put]
      · obtain ⟨o', vs', good', pw', a1, a2, a3, a4, a5⟩ := h3 hn.2 x hx
        have hne : x.2 ≠ e.2 := fun hh => hn.1 (hh ▸ List.mem_map_of_mem hx)
        have e1 : (w.feat.put e.2 { w.feat.heap e.2 with pw := pw, status := if good then .solved else .unsolved }).heap x.2 = w.feat.heap x.2 := by
          simp [FMgr.put, hne]
        dsimp only at a1 a2 a3
        rw [e1] at a1 a3
        exact ⟨o', vs', good', pw', a1, a2, a3, a4, a5⟩

/-- C78.  A successful initialisation: the first frame is at the origin with the estimator's attitude, both frames have velocity displacement over time, the second frame has at
least ten features that are triangulated and seen by camera 0, and the propagator is seeded with the first frame's state. -/
theorem C78_initialise (env : Env K) (g : Vec3 K) (b b' : Backend K T) (h : initialise env g b = .ok (true, b')) :
    ∃ fi fj rest fi' fj' q, b.u.w.frm.frames = fi :: fj :: rest ∧ b'.u.w.frm.frames = fi' :: fj' :: rest ∧
      TimeOps.lt (TimeOps.fabs (TimeOps.sub fj.ts fi.ts)) (TimeCast.ofK (zeroTol : K)) = false ∧
      b.att.getAttitude fi.ts (TimeOps.mul b.loader.imuPeriod (TimeOps.tlit (55/100))) = .ok (some q) ∧
      fi'.q = q ∧ fi'.p = 0 ∧ fj'.v = (fj'.p - fi'.p).sdiv (TimeCast.toK (TimeOps.sub fj.ts fi.ts)) ∧ fi'.v = fj'.v ∧
      (fi'.id, fi'.ts, fi'.features, fi'.addr) = (fi.id, fi.ts, fi.features, fi.addr) ∧ (fj'.id, fj'.ts, fj'.features, fj'.addr) = (fj.id, fj.ts, fj.features, fj.addr) ∧
      10 ≤ (fj.features.filter (fun e => decide ((b'.u.w.feat.heap e.2).status = .solved) && ((b'.u.w.feat.heap e.2).getNorm fj.id 0).isSome)).length ∧
      b'.u.q.initState = ⟨fi'.p, fi'.v, fi'.q⟩ ∧
      (b.u.q.items = [] → ∃ i0 rest', b'.u.q.items = i0 :: rest' ∧ i0.st = ⟨fi'.p, fi'.v, fi'.q⟩ ∧ ∃ a0 as, b'.att.items = a0 :: as ∧ a0.ts = i0.ts ∧
        b'.u.q.items.map (·.ts) = b'.att.items.map (·.ts)) ∧
      b.att.cleanOldItems fi.ts (TimeCast.toK b.loader.imuPeriod) = .ok b'.att ∧
      ∃ w w', triMultiView env.ext { fi with q := q, p := 0 } w fi.features = .ok w' ∧ w.feat = b.u.w.feat ∧ b'.u.w.feat = w'.feat := by
  unfold initialise at h
  split at h
  case h_2 => cases h
  rename_i fi fj rest hfr
  dsimp only at h
  split at h
  · cases h
  rename_i hdt
  obtain ⟨a, ha, h⟩ := Res.bind_eq_ok.1 h
  cases a with
  | none => cases h
  | some q =>
    obtain ⟨w, hw, h⟩ := Res.bind_eq_ok.1 h
    obtain ⟨⟨good, fj'⟩, he, h⟩ := Res.bind_eq_ok.1 h
    dsimp only at h
    split at h
    · cases h
    rename_i hg
    obtain ⟨b1, h1, h⟩ := Res.bind_eq_ok.1 h
    obtain ⟨i0, hi0, h⟩ := Res.bind_eq_ok.1 h
    cases h
    obtain ⟨att, s, rfl, hc, hr⟩ := initPropagator_keep _ _ _ _ _ h1
    obtain ⟨r1, r2, r3, r4, r5, r6⟩ := replay_spec _ _ _ _ _ _ hr
    have hpts : 10 ≤ (framePoints w.feat fj).length ∧ (fj'.id, fj'.ts, fj'.features, fj'.addr) = (fj.id, fj.ts, fj.features, fj.addr) := by
      unfold estimateFramePose at he
      dsimp only at he
      split at he
      · cases he; exact absurd rfl hg
      · rename_i hl
        obtain ⟨e, _, he⟩ := Res.bind_eq_ok.1 he
        split at he
        · cases he; exact ⟨by simpa [framePoints] using hl, rfl⟩
        · cases he; exact absurd rfl hg
    have hlen : ∀ es : List (Nat × Nat), (es.filterMap (fun e => if (w.feat.heap e.2).status = .solved then ((w.feat.heap e.2).getNorm fj.id 0).map (fun n => ((w.feat.heap e.2).pw, n)) else none)).length =
        (es.filter (fun e => decide ((w.feat.heap e.2).status = .solved) && ((w.feat.heap e.2).getNorm fj.id 0).isSome)).length := by
      intro es
      induction es with
      | nil => rfl
      | cons e es ih =>
        rw [List.filterMap_cons, List.filter_cons]
        by_cases hs : (w.feat.heap e.2).status = .solved
        · cases hn : (w.feat.heap e.2).getNorm fj.id 0 with
          | none => simpa [hs] using ih
          | some n => simpa [hs] using ih
        · simpa [hs] using ih
    refine ⟨fi, fj, rest, { fi with q := q, p := 0, v := (fj'.p - 0).sdiv (TimeCast.toK (TimeOps.sub fj.ts fi.ts)) },
      { fj' with v := (fj'.p - 0).sdiv (TimeCast.toK (TimeOps.sub fj.ts fi.ts)) }, q, hfr, rfl, by simpa using hdt, ha, rfl, rfl, rfl, rfl, rfl, ?_, ?_, r1, ?_, hc, ?_⟩
    · exact hpts.2
    · show 10 ≤ (fj.features.filter (fun e => decide ((w.feat.heap e.2).status = .solved) && ((w.feat.heap e.2).getNorm fj.id 0).isSome)).length
      rw [← hlen]; exact hpts.1
    · intro hemp
      replace r5 : s.items.map (·.ts) = b.u.q.items.map (·.ts) ++ att.items.map (·.ts) := r5
      replace r6 : s.items.head? = _ := r6
      dsimp only [setWin] at r6
      rw [hemp, List.map_nil, List.nil_append] at r5
      rw [hemp] at r6
      change front s.items = .ok i0 at hi0
      cases hs : s.items with
      | nil => rw [hs] at hi0; cases hi0
      | cons j rest' =>
        rw [hs] at r5 r6
        cases hai : att.items with
        | nil => rw [hai] at r6; cases r6
        | cons a0 as =>
          rw [hai] at r5 r6
          simp only [List.head?_cons, Option.some.injEq] at r6
          exact ⟨j, rest', rfl, by rw [r6], a0, as, rfl, by rw [r6], r5⟩
    · exact ⟨_, w, hw, rfl, rfl⟩

/-! ### Examples: ten features, two cameras, two frames one second apart -/

/-- Two cameras, window of two frames, IMU period 1/10. -/
def exBackend : Backend ℚ ℚ :=
  let b : Backend ℚ ℚ := init ⟨0, 0, .one⟩
  { b with
    loader := { b.loader with imuPeriod := 1/10 }
    u := { b.u with w := { b.u.w with frm := { b.u.w.frm with extrinsics := [⟨.one, 0⟩, ⟨.one, ⟨1, 0, 0⟩⟩], maxWindowSize := 2 } } }
    noise := 1
    mounted := true }

/-- Solver results: the singular vector is the point (0, 0, 4), pose corrections vanish, orthogonal factors are the identity. -/
def exEnv : Env ℚ :=
  ⟨⟨fun _ i => if i = 3 then 1 else if i = 2 then 4 else 0, fun _ v => v, fun _ _ => ⟨0, 0⟩, fun _ i j => if i = j then 1 else 0, fun _ _ => 1, fun _ i j => if i = j then 1 else 0⟩,
   fun n => 100 - n, id, fun _ _ => 0⟩

def exMsg (n : Nat) (t : ℚ) : FeatMsg ℚ ℚ := ⟨List.range n, (List.range n).map (fun _ => ⟨[(0, ⟨0, 0⟩), (1, ⟨1, 0⟩)]⟩), t⟩

def exImu (t : ℚ) : ImuMsg ℚ ℚ := ⟨0, ⟨0, 0, 10⟩, t⟩

def exProc : BProc ℚ ℚ := ⟨{}, ⟨0, 0, 10⟩, exBackend⟩

def exOps (n : Nat) : List (BOp ℚ ℚ) := [.imu (exImu 0), .feat (exMsg n 0), .run exEnv, .imu (exImu 1), .feat (exMsg n 1), .run exEnv, .publishPropagate, .publishUpdate]

/-- C71, C73, C78: with ten features the second `RunOnce` initialises the backend. -/
example : (exProc.run (exOps 10)).check (fun r => decide (r.1.b.status = .initialized) && decide (r.1.b.u.w.frm.frames.length = 2) && decide (r.1.b.u.q.items.length = 1)) = true := by
  decide +kernel

/-- C70, C73: with nine features the initialisation fails and one frame is left. -/
example : (exProc.run (exOps 9)).check (fun r => decide (r.1.b.status = .needInit) && decide (r.1.b.u.w.frm.frames.length = 1)) = true := by
  decide +kernel

/-- C71: without further IMU data the update at the next features message fails and the backend goes back. -/
example : (exProc.run (exOps 10 ++ [.feat (exMsg 10 3), .run exEnv])).check (fun r => decide (r.1.b.status = .needInit) && decide (r.1.b.u.w.frm.frames.length = 1)) = true := by
  decide +kernel

end Backend
end Vio

/-
C132: what the printing functions show.
-/
import Verif.Model.Print
import Verif.Props.Window
import Verif.Props.Config
import Verif.Props.Kalman
import Verif.Props.FilterCov

set_option linter.unusedSectionVars false

namespace Vio

open WinSpec

variable {K T : Type} [Add K] [Sub K] [Mul K] [Neg K] [Div K] [Zero K] [One K] [ScalarFn K] [TimeOps T] [TimeCast T K]

theorem Feature.mem_infoFrom (first : Nat) (obs : List (Obs K)) (i : Nat) (l : Line K T) :
    l ∈ Feature.infoFrom first i obs ↔ ∃ j o e, obs[j]? = some o ∧ e ∈ o.norms ∧ l = .observe (add32 first (i + j)) e.1 e.2 := by
  induction obs generalizing i with
  | nil => simp [Feature.infoFrom]
  | cons o rest ih =>
    rw [Feature.infoFrom, List.mem_append, ih, List.mem_map]
    constructor
    · rintro (⟨e, he, rfl⟩ | ⟨j, o', e, h1, h2, rfl⟩)
      · exact ⟨0, o, e, rfl, he, rfl⟩
      · exact ⟨j + 1, o', e, by simpa using h1, h2, by rw [show i + (j + 1) = i + 1 + j by omega]⟩
    · rintro ⟨j, o', e, h1, h2, rfl⟩
      cases j with
      | zero =>
        obtain rfl : o = o' := by simpa using h1
        exact .inl ⟨e, h2, rfl⟩
      | succ j => exact .inr ⟨j, o', e, by simpa using h1, h2, by rw [show i + (j + 1) = i + 1 + j by omega]⟩

theorem Feature.mem_info (f : Feature K) (_ : f.first < two32) (n cam : Nat) (hn : n < two32) (v : Vec2 K) (h : f.getNorm n cam = some v) : (Line.observe n cam v : Line K T) ∈ f.info := by
  rw [Feature.info, List.mem_cons]
  refine .inr ((Feature.mem_infoFrom _ _ _ _).2 ?_)
  unfold Feature.getNorm at h
  split at h
  · rename_i o ho
    refine ⟨_, o, (cam, v), ho, mem_of_lookup h, ?_⟩
    have : add32 f.first (0 + sub32 n f.first) = n := by
      unfold add32 sub32
      unfold two32 at *
      omega
    rw [this]
  · cases h

/-- C132: a feature whose frame numbers fit into 32 bits prints an observation exactly when `GetNorm` gives it for that frame and that camera. -/
theorem C132_feature (f : Feature K) (hlt : f.first + f.observes.length ≤ two32) (hc : ∀ o ∈ f.observes, (o.norms.map (·.1)).Nodup) (n cam : Nat) (hn : n < two32) (v : Vec2 K) :
    (Line.observe n cam v : Line K T) ∈ f.info ↔ f.getNorm n cam = some v := by
  have e1 : (Line.observe n cam v : Line K T) ∈ f.info ↔ ∃ j o e, f.observes[j]? = some o ∧ e ∈ o.norms ∧ (Line.observe n cam v : Line K T) = .observe (add32 f.first (0 + j)) e.1 e.2 := by
    rw [← Feature.mem_infoFrom, Feature.info, List.mem_cons]
    constructor
    · rintro (h | h)
      · cases h
      · exact h
    · exact .inr
  have hL : ∀ o ∈ f.observes, ∀ e : Nat × Vec2 K, e ∈ o.norms ↔ o.norms.lookup e.1 = some e.2 := by
    intro o ho e
    exact ⟨fun h => lookup_of_mem (hc o ho) h, fun h => mem_of_lookup h⟩
  rw [e1]
  by_cases hne : f.observes = []
  · simp [Feature.getNorm, hne]
  rw [C19_getNorm f hne hlt n cam hn v, Feature.finalFrameID_eq f hne hlt]
  constructor
  · rintro ⟨j, o, e, h1, h2, h3⟩
    have hj : j < f.observes.length := (List.getElem?_eq_some_iff.1 h1).1
    cases h3
    have e2 : add32 f.first (0 + j) = f.first + j := by
      rw [add32, Nat.zero_add, Nat.mod_eq_of_lt (by omega)]
    rw [e2]
    refine ⟨by omega, by omega, o, ?_, (hL o (List.mem_of_getElem? h1) e).1 h2⟩
    rw [Nat.add_sub_cancel_left]; exact h1
  · rintro ⟨h1, h2, o, h3, h4⟩
    refine ⟨n - f.first, o, (cam, v), h3, (hL o (List.mem_of_getElem? h3) (cam, v)).2 h4, ?_⟩
    rw [add32, show (f.first + (0 + (n - f.first))) = n by omega, Nat.mod_eq_of_lt hn]

/-- The printed frames. -/
def Line.frame? : Line K T → Option (Nat × T)
  | .frame id ts _ _ _ _ => some (id, ts)
  | _ => none

/-- C132, what holds: in every history of the window in which no lost track is reused, for observations with one coordinate per camera, the printed list of features says what the tracker reported: a feature prints an
observation in frame `n` by camera `cam` exactly when `n` is the number of a frame of the window and the message of that frame reports it for that id.  The header names the id and a range of
frames of the window.  Missing: re-found tracks, where it is wrong (`C132_refound`). -/
theorem C132_window_partial (w : Win K T) (hf : w.frm.frames = []) (hm : w.feat.map = []) (ops : List (WOp K T)) (ha : AllowedRun Log.empty ops)
    (hc : ∀ m ∈ (Log.empty.run ops).msgs, ∀ o ∈ m.observes, (o.norms.map (·.1)).Nodup) :
    ∃ w', w.run ops = .ok w' ∧
      (∀ e ∈ w'.feat.map, (∃ first final num, (w'.feat.heap e.2).info.head? = some (Line.feature e.1 first final num : Line K T) ∧ (Log.empty.run ops).base ≤ first ∧ first ≤ final ∧
          final < (Log.empty.run ops).base + (Log.empty.run ops).msgs.length) ∧
        ∀ n cam v, (Line.observe n cam v : Line K T) ∈ (w'.feat.heap e.2).info ↔
          ∃ i m o, n = (Log.empty.run ops).base + i ∧ (Log.empty.run ops).msgs[i]? = some m ∧ report m e.1 = some o ∧ o.norms.lookup cam = some v) ∧
      w'.frm.info.filterMap Line.frame? =
        (List.range' (Log.empty.run ops).base (Log.empty.run ops).msgs.length).zip ((Log.empty.run ops).msgs.map (·.ts)) := by
  obtain ⟨w', h1, h2⟩ := rel_run Log.empty w (rel_empty w hf hm) ops ha
  obtain ⟨w'', h1', f1, f2, -⟩ := C16_refines_log w hf hm ops ha
  obtain rfl : w' = w'' := by rw [h1] at h1'; cases h1'; rfl
  generalize Log.empty.run ops = lg at *
  refine ⟨w', h1, fun e he => ?_, ?_⟩
  · have hl := FMgr.lookup_mem w'.feat h2.wf he
    have ht := h2.tracks e.1 e.2 hl
    have hlt : (w'.feat.heap e.2).first + (w'.feat.heap e.2).observes.length ≤ two32 := by have := ht.hi; have := h2.lt; omega
    have hpos := List.length_pos_iff.2 ht.ne
    have hb : lg.base ≤ (w'.feat.heap e.2).first := ht.lo
    have hh := ht.hi
    have hid : (w'.feat.heap e.2).id = e.1 := h2.wf.ids _ _ hl
    have hrep : ∀ (m : FeatMsg K T) (o : Obs K), report m e.1 = some o → o ∈ m.observes := fun m o h => (List.of_mem_zip (mem_of_lookup h)).2
    have hcam : ∀ o ∈ (w'.feat.heap e.2).observes, (o.norms.map (·.1)).Nodup := by
      intro o ho
      obtain ⟨j, hj⟩ := List.getElem?_of_mem ho
      have hj' := (List.getElem?_eq_some_iff.1 hj).1
      have hi : (w'.feat.heap e.2).first + j - lg.base < lg.msgs.length := by omega
      have hr := ht.rep _ _ (List.getElem?_eq_getElem hi)
      rw [if_pos (by omega), show lg.base + ((w'.feat.heap e.2).first + j - lg.base) - (w'.feat.heap e.2).first = j by omega, hj] at hr
      exact hc _ (List.getElem_mem hi) o (hrep _ _ hr)
    refine ⟨⟨_, _, _, by rw [Feature.info, List.head?_cons, hid], hb, ?_, ?_⟩, fun n cam v => ?_⟩
    · rw [Feature.finalFrameID_eq _ ht.ne hlt]; omega
    · rw [Feature.finalFrameID_eq _ ht.ne hlt]; omega
    · have hlt2 := h2.lt
      by_cases hn : n < two32
      · rw [C132_feature _ hlt hcam n cam hn]
        by_cases hw : lg.base ≤ n ∧ n < lg.base + lg.msgs.length
        · obtain ⟨i, rfl⟩ := Nat.exists_eq_add_of_le hw.1
          have hi : i < lg.msgs.length := by omega
          rw [tracks_getNorm lg e.1 _ ht h2.lt i _ (List.getElem?_eq_getElem hi) cam, Option.bind_eq_some_iff]
          constructor
          · rintro ⟨o, ho, hv⟩
            exact ⟨i, _, o, rfl, List.getElem?_eq_getElem hi, ho, hv⟩
          · rintro ⟨i', m, o, h3, h4, h5, h6⟩
            obtain rfl : i = i' := by omega
            rw [List.getElem?_eq_getElem hi] at h4
            cases h4
            exact ⟨o, h5, h6⟩
        · rw [tracks_getNorm_outside lg e.1 _ ht h2.lt n hn (by omega) cam]
          constructor
          · intro h; cases h
          · rintro ⟨i, m, o, h3, h4, -⟩
            have := (List.getElem?_eq_some_iff.1 h4).1
            omega
      · constructor
        · intro h
          exfalso
          rw [Feature.info, List.mem_cons] at h
          rcases h with h | h
          · cases h
          · obtain ⟨j, o, x, -, -, h⟩ := (Feature.mem_infoFrom _ _ _ _).1 h
            cases h
            exact hn (Nat.mod_lt _ (by decide))
        · rintro ⟨i, m, o, h3, h4, -⟩
          have := (List.getElem?_eq_some_iff.1 h4).1
          omega
  · rw [← f1, ← f2]
    have hz : ∀ l : List (Frame K T), (l.map (·.id)).zip (l.map (·.ts)) = l.map (fun f => (f.id, f.ts)) := fun l => by
      induction l with
      | nil => rfl
      | cons a l ih => simp [ih]
    rw [hz, FrameMgr.info]
    split
    · rename_i h
      rw [List.isEmpty_iff.1 h]
      rfl
    · rw [List.filterMap_append]
      have : ∀ l : List (Frame K T), (l.flatMap Frame.info).filterMap Line.frame? = l.map (fun f => (f.id, f.ts)) := fun l => by
        induction l with
        | nil => rfl
        | cons a l ih => rw [List.flatMap_cons, List.filterMap_append, ih]; rfl
      rw [this]
      simp [Line.frame?]

/-- C132 is false for tracks that were lost and found again: the feature prints an observation in frame 2, whose message does not mention it. -/
theorem C132_refound : ∃ w r, win0.run lostTrack = .ok w ∧ w.feat.map.lookup 7 = some r ∧ (Line.observe 2 0 ⟨5, 0⟩ : Line ℚ ℚ) ∈ (w.feat.heap r).info ∧ report (trkMsg 2 [(8, 0)]) 7 = none := by
  obtain ⟨w, h1, h2⟩ := Res.exists_of_check (x := win0.run lostTrack)
    (f := fun w => decide (w.feat.map.lookup 7 = some 0) && decide ((w.feat.heap 0).first = 1)) (by decide +kernel)
  simp only [Bool.and_eq_true, decide_eq_true_eq] at h2
  obtain ⟨w', r, h1', h3, h4, -⟩ := C18_refound_track_misplaced
  obtain rfl : w = w' := by rw [h1] at h1'; cases h1'; rfl
  obtain rfl : r = 0 := by rw [h2.1] at h3; cases h3; rfl
  exact ⟨w, 0, h1, h3, Feature.mem_info _ (by rw [h2.2]; decide) 2 0 (by decide) _ h4, rfl⟩

theorem FeatMsg.infoFrom_ok (m : FeatMsg K T) (i : Nat) (ids : List Nat) (h : i + ids.length ≤ m.observes.length) :
    m.infoFrom i ids = .ok ((ids.zip (m.observes.drop i)).flatMap fun e => .seen e.1 :: e.2.norms.map fun x => .camera x.1 x.2) := by
  induction ids generalizing i with
  | nil => rfl
  | cons a ids ih =>
    rw [List.length_cons] at h
    have hi : i < m.observes.length := by omega
    rw [FeatMsg.infoFrom, idx, List.getElem?_eq_getElem hi, ih (i + 1) (by omega), List.drop_eq_getElem_cons hi]
    rfl

theorem FeatMsg.infoFrom_ub (m : FeatMsg K T) (i : Nat) (ids : List Nat) (hi : i ≤ m.observes.length) (h : m.observes.length < i + ids.length) : m.infoFrom i ids = .ub .outOfRange := by
  induction ids generalizing i with
  | nil => rw [List.length_nil] at h; omega
  | cons a ids ih =>
    rw [List.length_cons] at h
    rw [FeatMsg.infoFrom, idx]
    by_cases h2 : i < m.observes.length
    · rw [List.getElem?_eq_getElem h2, ih (i + 1) (by omega) (by omega)]
      rfl
    · rw [List.getElem?_eq_none (by omega)]
      rfl

/-- C132: a message prints its ids, each with the observation in the same place; it must have as many observations as ids, which the constructor sees to. -/
theorem C132_message (m : FeatMsg K T) : (m.ids.length ≤ m.observes.length →
      m.info = .ok (.features m.ts :: (m.ids.zip m.observes).flatMap fun e => .seen e.1 :: e.2.norms.map fun x => .camera x.1 x.2)) ∧
    (m.observes.length < m.ids.length → m.info = .ub .outOfRange) := by
  constructor
  · intro h
    rw [FeatMsg.info, FeatMsg.infoFrom_ok m 0 m.ids (by omega)]
    rfl
  · intro h
    rw [FeatMsg.info, FeatMsg.infoFrom_ub m 0 m.ids (by omega) (by omega)]
    rfl

/-- C132: messages built with the constructor can always be printed, alone and in a packet. -/
theorem C132_made (ids : List Nat) (obs : List (Obs K)) (ts : T) (imu : List (ImuMsg K T)) : (FeatMsg.make ids obs ts).info.isOk ∧ (Combined.mk (some (FeatMsg.make ids obs ts)) imu).info.isOk ∧
    (Combined.mk none imu).info.isOk := by
  have h : (FeatMsg.make ids obs ts).ids.length ≤ (FeatMsg.make ids obs ts).observes.length := by
    unfold FeatMsg.make
    split
    · exact Nat.le_refl _
    · rename_i h
      exact Nat.le_of_eq (not_not.1 h)
  have h2 := (C132_message (FeatMsg.make ids obs ts)).1 h
  refine ⟨by rw [h2]; rfl, ?_, rfl⟩
  simp only [Combined.info, h2]
  rfl

theorem Config.infoFrom_ok (c : Config K) (i : Nat) (ps : List (Vec3 K)) (h : i + ps.length ≤ c.qbc.length) :
    ∃ ls, c.infoFrom i ps = .ok ls ∧ ls.length = ps.length ∧ ∀ j p q, ps[j]? = some p → c.qbc[i + j]? = some q → ls[j]? = some (Line.extrinsic (i + j) p q : Line K T) := by
  induction ps generalizing i with
  | nil => exact ⟨[], rfl, rfl, fun j p q h => by simp at h⟩
  | cons a ps ih =>
    rw [List.length_cons] at h
    have hi : i < c.qbc.length := by omega
    obtain ⟨ls, h1, h2, h3⟩ := ih (i + 1) (by omega)
    refine ⟨.extrinsic i a c.qbc[i] :: ls, ?_, by simp [h2], ?_⟩
    · rw [Config.infoFrom, idx, List.getElem?_eq_getElem hi, h1]
      rfl
    · intro j p q hp hq
      cases j with
      | zero =>
        rw [Nat.add_zero, List.getElem?_eq_getElem hi] at hq
        cases hq
        cases hp
        rfl
      | succ j =>
        have := h3 j p q (by simpa using hp) (by rw [← hq]; congr 1; omega)
        rw [show i + (j + 1) = i + 1 + j by omega]
        simpa using this

/-- C132: after every successful reading of the configuration it can be printed, with one line per camera that shows its position and its rotation. -/
theorem C132_config (lib : ConfLib K) (fs : String → Option (List Char)) (path : String) (fuel : Nat) (s s' : Conf.St K) (b : Bool) (h : Conf.readConfig lib fs path fuel s = .ok (some (b, s'))) :
    ∃ ls, s'.cfg.info = .ok (Line.params s'.cfg :: ls : List (Line K T)) ∧ ls.length = s'.cfg.pbc.length ∧
      ∀ j p q, s'.cfg.pbc[j]? = some p → s'.cfg.qbc[j]? = some q → ls[j]? = some (Line.extrinsic j p q : Line K T) := by
  have hl := (Conf.readConfig_lengths lib fs path fuel s s' b h).2
  obtain ⟨ls, h1, h2, h3⟩ := Config.infoFrom_ok (T := T) s'.cfg 0 s'.cfg.pbc (by omega)
  refine ⟨ls, ?_, h2, fun j p q hp hq => ?_⟩
  · rw [Config.info, h1]
    rfl
  · have := h3 j p q hp (by rw [Nat.zero_add]; exact hq)
    rwa [Nat.zero_add] at this

theorem covAlarm_of_psd (m : DMat ℝ) (n : Nat) (hr : m.rows = n) (h : ∀ i < n, 0 ≤ m.e i i) : covAlarm m = false := by
  rw [covAlarm, List.any_eq_false]
  intro i hi
  rw [List.mem_range, hr] at hi
  have h1 : ¬ m.e i i < 0 := not_lt.2 (h i hi)
  simpa [ScalarFn.lt] using h1

theorem Update.kalman_newCov (ext : Ext ℝ) (noise : ℝ) (P a : DMat ℝ) (k : Update.Kalman ℝ) (h : Update.kalman ext noise P a = .ok k) :
    ∃ N, Update.newCov k.gain a P = .ok N ∧ k.cov.rows = N.rows ∧ ∀ i, k.cov.e i i = N.e i i := by
  unfold Update.kalman at h
  obtain ⟨H, h1, h⟩ := (Res.bind_eq_ok ..).1 h
  obtain ⟨r, -, h⟩ := (Res.bind_eq_ok ..).1 h
  obtain ⟨PHt, -, h⟩ := (Res.bind_eq_ok ..).1 h
  obtain ⟨S, -, h⟩ := (Res.bind_eq_ok ..).1 h
  obtain ⟨g, -, h⟩ := (Res.bind_eq_ok ..).1 h
  obtain ⟨dx, -, h⟩ := (Res.bind_eq_ok ..).1 h
  obtain ⟨I, h2, h⟩ := (Res.bind_eq_ok ..).1 h
  obtain ⟨N, h3, h⟩ := (Res.bind_eq_ok ..).1 h
  obtain ⟨U, h4, h⟩ := (Res.bind_eq_ok ..).1 h
  cases h
  unfold DMat.add at h4
  split at h4
  · cases h4
    refine ⟨N, ?_, rfl, fun i => ?_⟩
    · simp only [Update.newCov, h1, Res.bind_ok, h2, h3]
    · show lit (1 / 2) * (N.e i i + N.e i i) = N.e i i
      rw [show (lit (1 / 2) : ℝ) = 1 / 2 by simp]
      ring
  · cases h4

/-- C132: in exact arithmetic the update of a positive semidefinite covariance prints no error about the diagonal. -/
theorem C132_quiet_update (ext : Ext ℝ) (hext : Spec.GoodExt ext) (noise : ℝ) (P a : DMat ℝ) (n m : Nat) (h1 : P.rows = n) (h2 : P.cols = n) (h3 : a.rows = m) (h4 : a.cols = n + 1) (hP : (P.toM n n).PosSemidef) :
    ∃ k N, Update.kalman ext noise P a = .ok k ∧ Update.newCov k.gain a P = .ok N ∧ covAlarm N = false := by
  obtain ⟨k, hk, c1, -, -, -, hpsd, -⟩ := Update.C44_kalman ext hext noise P a n m h1 h2 h3 h4 hP
  obtain ⟨N, e1, e2, e3⟩ := Update.kalman_newCov ext noise P a k hk
  refine ⟨k, N, hk, e1, covAlarm_of_psd N n (by omega) fun i hi => ?_⟩
  rw [← e3]
  exact hpsd.diag_nonneg (i := ⟨i, hi⟩)

/-- C132: nor does the propagation, for any state queued after any defined history of calls of a backend configured with noise that is not negative. -/
theorem Backend.C132_quiet (lib : ConfLib ℝ) (fs : String → Option (List Char)) (path : String) (fuel : Nat) (s s' : Conf.St ℝ) (g g' : Vec3 ℝ) (st : Motion ℝ) (b : Backend ℝ T) (r : Bool) [TimeCast T ℝ]
    (hc : configParams lib fs path fuel s g (init st) = .ok (some (r, b, g', s')))
    (h1 : 0 ≤ s'.cfg.sigmaA) (h2 : 0 ≤ s'.cfg.sigmaG) (h3 : 0 ≤ s'.cfg.sigmaWA) (h4 : 0 ≤ s'.cfg.sigmaWG)
    (hN : (b.u.w.frm.extrinsics.length + (max 1 b.u.w.frm.maxWindowSize + 1)) * 6 < two32)
    (stat : LoaderStatics T) (ops : List (BOp ℝ T)) (he : GoodSolvers ops) (p' : BProc ℝ T) (outs : List (BOut ℝ T)) (h : (⟨stat, g', b⟩ : BProc ℝ T).run ops = .ok (p', outs)) :
    ∀ i ∈ p'.b.u.q.items, covAlarm i.imuCov = false := by
  intro i hi
  have hj := (C75_covariance lib fs path fuel s s' g g' st b r hc h1 h2 h3 h4 hN stat ops he p' outs h).1 i hi
  refine covAlarm_of_psd _ 15 hj.rows fun j hj' => ?_
  exact hj.psd.diag_nonneg (i := .inl ⟨j, hj'⟩)

/-- C132: `goodOps` meets the hypotheses of `C132_window_partial`. -/
example : ∃ w', win0.run goodOps = .ok w' ∧ w'.frm.info.filterMap Line.frame? = [(2, 2)] ∧
    ∀ e ∈ w'.feat.map, e.1 = 8 → (Line.observe 2 0 ⟨3, 0⟩ : Line ℚ ℚ) ∈ (w'.feat.heap e.2).info := by
  have ha : AllowedRun (Log.empty : Log ℚ ℚ) goodOps := by
    simp [goodOps, AllowedRun, Allowed, GoodMsg, Log.empty, Log.step, trkMsg, two32]
  have hl : (Log.empty : Log ℚ ℚ).run goodOps = ⟨2, [trkMsg 2 [(8, 3), (9, 4)]]⟩ := rfl
  obtain ⟨w', h1, h2, h3⟩ := C132_window_partial win0 rfl rfl goodOps ha (by
    rw [hl]
    intro m hm o ho
    obtain rfl := List.mem_singleton.1 hm
    simp [trkMsg] at ho
    rcases ho with rfl | rfl <;> simp)
  refine ⟨w', h1, ?_, fun e he h8 => ?_⟩
  · rw [h3, hl]
    rfl
  · refine ((h2 e he).2 2 0 ⟨3, 0⟩).2 ?_
    rw [hl, h8]
    exact ⟨0, _, _, rfl, rfl, rfl, rfl⟩

/-- C132: `C132_quiet_update` for one state of variance 1, measured once.  A backend for `C132_quiet` is the one of C75. -/
example : ∃ (ext : Ext ℝ) (k : Update.Kalman ℝ) (N : DMat ℝ), Spec.GoodExt ext ∧ Update.kalman ext 1 (.ident 1) ⟨1, 2, fun _ _ => 1⟩ = .ok k ∧ Update.newCov k.gain ⟨1, 2, fun _ _ => 1⟩ (.ident 1) = .ok N ∧
    covAlarm N = false := by
  obtain ⟨ext, hext, -⟩ := Spec.exists_goodExt ⟨fun _ _ => 0, fun _ v => v, fun _ _ => ⟨0, 0⟩, fun _ _ _ => 0, fun _ _ => 0, fun _ _ _ => 0⟩
  have hI : (DMat.ident 1 : DMat ℝ).toM 1 1 = 1 := by
    ext i j
    fin_cases i; fin_cases j
    simp [DMat.toM, DMat.ident]
  obtain ⟨k, N, h⟩ := C132_quiet_update ext hext 1 (.ident 1) ⟨1, 2, fun _ _ => 1⟩ 1 1 rfl rfl rfl rfl (by rw [hI]; exact Matrix.PosSemidef.one)
  exact ⟨ext, k, N, hext, h⟩

/-- A matrix that raises the alarm. -/
example : covAlarm (⟨2, 2, fun i j => if i = 1 ∧ j = 1 then -1 else 0⟩ : DMat ℚ) = true := by decide +kernel

/-- C132: a message with one observation less than ids cannot be printed. -/
example : (FeatMsg.mk [1, 2] [⟨[(0, ⟨1, 2⟩)]⟩] 5 : FeatMsg ℚ ℚ).info = .ub .outOfRange := rfl

theorem Feature.infoFrom_length (first : Nat) (obs : List (Obs K)) (i : Nat) : (Feature.infoFrom first i obs : List (Line K T)).length = totalObs obs := by
  induction obs generalizing i with
  | nil => rfl
  | cons o rest ih => rw [Feature.infoFrom, List.length_append, ih, List.length_map]; simp [totalObs]

/-- The header lines of features: the ids. -/
def Line.header? : Line K T → Option Nat
  | .feature id _ _ _ => some id
  | _ => none

theorem Feature.info_headers (f : Feature K) : (f.info : List (Line K T)).filterMap Line.header? = [f.id] := by
  have : ∀ (obs : List (Obs K)) i, (Feature.infoFrom f.first i obs : List (Line K T)).filterMap Line.header? = [] := fun obs i => by
    rw [List.filterMap_eq_nil_iff]
    intro l hl
    obtain ⟨j, o, e, -, -, rfl⟩ := (Feature.mem_infoFrom _ _ _ _).1 hl
    rfl
  rw [Feature.info, List.filterMap_cons, this]
  rfl

/-- C132: after every history of calls of the feature manager, with any arguments, it prints one header per managed feature, under its id and in the order of the map, followed by the lines of that feature; the number in the header is the number
of these lines (modulo `2^32`).  Without features it prints that there are none. -/
theorem C132_features (ops : List (GOp K)) : ∃ s, (FMgr.init : FMgr K).run ops = .ok s ∧ (s.info : List (Line K T)).filterMap Line.header? = s.map.map (·.1) ∧
    (s.map = [] ↔ s.info = [(Line.noFeatures : Line K T)]) ∧
    ∀ e ∈ s.map, (s.heap e.2).info <:+: (s.info : List (Line K T)) ∧ ∃ first final,
      (s.heap e.2).info.head? = some (Line.feature e.1 first final (((s.heap e.2).info : List (Line K T)).tail.length % two32) : Line K T) := by
  obtain ⟨s, h1, h2⟩ := C15_observeNum ops
  refine ⟨s, h1, ?_, ?_, fun e he => ⟨?_, (s.heap e.2).first, (s.heap e.2).finalFrameID, ?_⟩⟩
  · rw [FMgr.info]
    split
    · rename_i h
      rw [List.isEmpty_iff.1 h]
      rfl
    · rw [List.filterMap_append, List.filterMap_flatMap]
      have : ∀ l : List (Nat × Nat), (∀ e ∈ l, (s.heap e.2).id = e.1) → (l.flatMap fun e => ((s.heap e.2).info : List (Line K T)).filterMap Line.header?) = l.map (·.1) := fun l hl => by
        induction l with
        | nil => rfl
        | cons a l ih =>
          rw [List.flatMap_cons, ih fun e he => hl e (List.mem_cons_of_mem _ he), Feature.info_headers, hl a List.mem_cons_self]
          rfl
      rw [this _ fun e he => (h2 e he).1]
      simp [Line.header?]
  · rw [FMgr.info]
    constructor
    · intro h
      rw [h]
      rfl
    · split
      · rename_i h
        exact fun _ => List.isEmpty_iff.1 h
      · intro h
        have := congrArg List.getLast? h
        simp at this
  · rw [FMgr.info, if_neg (by rw [List.isEmpty_iff]; exact List.ne_nil_of_mem he)]
    obtain ⟨a, b, hab⟩ := List.append_of_mem he
    rw [hab, List.flatMap_append, List.flatMap_cons]
    exact ⟨a.flatMap fun e => (s.heap e.2).info, (b.flatMap fun e => (s.heap e.2).info) ++ [.blank], by simp [List.append_assoc]⟩
  · rw [Feature.info, List.head?_cons, List.tail_cons, Feature.infoFrom_length, (h2 e he).1, (h2 e he).2.2]

/-- The lines of frames in full. -/
def Line.frameLine? : Line K T → Option (Nat × T × Nat × Quat K × Vec3 K × Vec3 K)
  | .frame id ts n q p v => some (id, ts, n, q, p, v)
  | _ => none

/-- C132: the printed frames show the rotation, position and velocity of the frames of the window, oldest first, and, after every history of the window in which no lost track is reused and every message names each id once, the number of
features that the message of that frame reports. -/
theorem C132_frames (w : Win K T) (hf : w.frm.frames = []) (hm : w.feat.map = []) (ops : List (WOp K T)) (ha : AllowedRun Log.empty ops) (hd : ∀ m ∈ (Log.empty.run ops).msgs, m.ids.Nodup) :
    ∃ w', w.run ops = .ok w' ∧ (w'.frm.info.filterMap Line.frameLine?).map (fun l => l.2.2.2) = w'.frm.frames.map (fun f => (f.q, f.p, f.v)) ∧
      (w'.frm.info.filterMap Line.frameLine?).map (fun l => l.2.2.1) = (Log.empty.run ops).msgs.map (fun m => m.ids.length) := by
  obtain ⟨w', h1, h2⟩ := rel_run Log.empty w (rel_empty w hf hm) ops ha
  generalize Log.empty.run ops = lg at *
  have e1 : w'.frm.info.filterMap Line.frameLine? = w'.frm.frames.map (fun f => (f.id, f.ts, f.features.length, f.q, f.p, f.v)) := by
    rw [FrameMgr.info]
    split
    · rename_i h
      rw [List.isEmpty_iff.1 h]
      rfl
    · rw [List.filterMap_append]
      have : ∀ l : List (Frame K T), (l.flatMap Frame.info).filterMap Line.frameLine? = l.map (fun f => (f.id, f.ts, f.features.length, f.q, f.p, f.v)) := fun l => by
        induction l with
        | nil => rfl
        | cons a l ih => rw [List.flatMap_cons, List.filterMap_append, ih]; rfl
      rw [this]
      simp [Line.frameLine?]
  refine ⟨w', h1, ?_, ?_⟩
  · rw [e1, List.map_map]
    rfl
  · rw [e1, List.map_map]
    refine List.ext_getElem (by simp [h2.len]) fun i hi hi' => ?_
    rw [List.length_map] at hi hi'
    rw [List.getElem_map, List.getElem_map]
    have hF := h2.frames i _ _ (List.getElem?_eq_getElem hi) (List.getElem?_eq_getElem hi')
    have hmem := List.getElem_mem hi'
    have hg := h2.good _ hmem
    have hlen : ((w'.frm.frames[i]).features.map (·.1)).length = (lg.msgs[i]).ids.length := by
      refine List.Perm.length_eq ((List.perm_ext_iff_of_nodup hF.nodup (hd _ hmem)).2 fun id => ?_)
      have hrep : (report lg.msgs[i] id).isSome ↔ id ∈ lg.msgs[i].ids := by
        have hz : (lg.msgs[i].ids.zip lg.msgs[i].observes).map (·.1) = lg.msgs[i].ids := List.map_fst_zip (by omega)
        rw [report]
        conv_rhs => rw [← hz]
        rw [Option.isSome_iff_ne_none, ne_eq, List.lookup_eq_none_iff]
        simp
      have hlk : id ∈ (w'.frm.frames[i]).features.map (·.1) ↔ ((w'.frm.frames[i]).features.lookup id).isSome := by
        rw [Option.isSome_iff_ne_none, ne_eq, List.lookup_eq_none_iff]
        simp
      rw [hlk, hF.link, ← hrep]
      split
      · rename_i h
        refine ⟨fun _ => h, fun _ => ?_⟩
        rw [Option.isSome_iff_ne_none]
        intro h0
        rw [h2.untracked id h0 _ hmem] at h
        cases h
      · rename_i h
        simp [h]
    rw [List.length_map] at hlen
    exact hlen

/-- The lines of samples. -/
def Line.imu? : Line K T → Option (T × Vec3 K × Vec3 K)
  | .imu ts g a => some (ts, g, a)
  | _ => none

/-- The lines of observations: features with the cameras. -/
def Line.seen? : Line K T → Option Nat
  | .seen id => some id
  | _ => none

/-- C132: a packet prints every sample, with its time, angular rate and acceleration, in order, and the ids of its image if it has one; this is for messages with as many observations as ids, as the constructor makes. -/
theorem C132_packet (m : Combined K T) (h : ∀ f, m.featMeas = some f → f.ids.length ≤ f.observes.length) :
    ∃ ls, m.info = .ok ls ∧ ls.filterMap Line.imu? = m.imuMeas.map (fun x => (x.ts, x.gyro, x.accel)) ∧ ls.filterMap Line.seen? = (m.featMeas.map (·.ids)).getD [] := by
  have hi : ∀ l : List (ImuMsg K T), (l.flatMap ImuMsg.info).filterMap Line.imu? = l.map (fun x => (x.ts, x.gyro, x.accel)) ∧ (l.flatMap ImuMsg.info).filterMap Line.seen? = [] := fun l => by
    induction l with
    | nil => exact ⟨rfl, rfl⟩
    | cons a l ih => rw [List.flatMap_cons, List.filterMap_append, List.filterMap_append, ih.1, ih.2]; exact ⟨rfl, rfl⟩
  have hs : ∀ (ids : List Nat) (os : List (Obs K)), ids.length ≤ os.length →
      ((ids.zip os).flatMap fun e => (.seen e.1 :: e.2.norms.map fun x => .camera x.1 x.2 : List (Line K T))).filterMap Line.seen? = ids ∧
      ((ids.zip os).flatMap fun e => (.seen e.1 :: e.2.norms.map fun x => .camera x.1 x.2 : List (Line K T))).filterMap Line.imu? = [] := fun ids => by
    induction ids with
    | nil => exact fun _ _ => ⟨rfl, rfl⟩
    | cons a ids ih =>
      intro os ho
      cases os with
      | nil => simp at ho
      | cons o os =>
        obtain ⟨i1, i2⟩ := ih os (by simpa using ho)
        rw [List.zip_cons_cons, List.flatMap_cons, List.filterMap_append, List.filterMap_append, i1, i2]
        simp [List.filterMap_map, Function.comp_def, Line.seen?, Line.imu?]
        rintro _ x y - rfl
        rfl
  obtain ⟨i1, i2⟩ := hi m.imuMeas
  cases hm : m.featMeas with
  | none =>
    refine ⟨m.imuMeas.flatMap ImuMsg.info, ?_, i1, i2⟩
    simp only [Combined.info, hm]
    rfl
  | some f =>
    obtain ⟨s1, s2⟩ := hs f.ids f.observes (h f hm)
    refine ⟨(.features f.ts :: (f.ids.zip f.observes).flatMap fun e => .seen e.1 :: e.2.norms.map fun x => .camera x.1 x.2) ++ m.imuMeas.flatMap ImuMsg.info, ?_, ?_, ?_⟩
    · simp only [Combined.info, hm, (C132_message f).1 (h f hm)]
      rfl
    · rw [List.filterMap_append, i1, List.filterMap_cons, s2]
      rfl
    · rw [List.filterMap_append, i2, List.filterMap_cons, s1]
      simp [Line.seen?]

/-- C132: a packet with an image of two features and two samples. -/
example : ∃ ls, (Combined.mk (some (FeatMsg.make [4, 6] [⟨[(0, ⟨1, 2⟩)]⟩, ⟨[(0, ⟨3, 4⟩)]⟩] 5)) [⟨⟨1, 0, 0⟩, ⟨0, 2, 0⟩, 3⟩, ⟨⟨1, 0, 0⟩, ⟨0, 3, 0⟩, 4⟩] : Combined ℚ ℚ).info = .ok ls ∧
    ls.filterMap Line.seen? = [4, 6] ∧ (ls.filterMap Line.imu?).length = 2 := by
  obtain ⟨ls, h1, h2, h3⟩ := C132_packet (Combined.mk (some (FeatMsg.make [4, 6] [⟨[(0, ⟨1, 2⟩)]⟩, ⟨[(0, ⟨3, 4⟩)]⟩] 5)) [⟨⟨1, 0, 0⟩, ⟨0, 2, 0⟩, 3⟩, ⟨⟨1, 0, 0⟩, ⟨0, 3, 0⟩, 4⟩] : Combined ℚ ℚ)
    (fun f hf => by cases hf; exact Nat.le_refl 2)
  exact ⟨ls, h1, h3, by rw [h2]; rfl⟩

/-- C132: `goodOps` meets the hypotheses of `C132_frames`: the remaining frame shows two features. -/
example : ∃ w', win0.run goodOps = .ok w' ∧ (w'.frm.info.filterMap Line.frameLine?).map (fun l => l.2.2.1) = [2] := by
  have ha : AllowedRun (Log.empty : Log ℚ ℚ) goodOps := by
    simp [goodOps, AllowedRun, Allowed, GoodMsg, Log.empty, Log.step, trkMsg, two32]
  have hl : (Log.empty : Log ℚ ℚ).run goodOps = ⟨2, [trkMsg 2 [(8, 3), (9, 4)]]⟩ := rfl
  obtain ⟨w', h1, -, h3⟩ := C132_frames win0 rfl rfl goodOps ha (by
    rw [hl]
    intro m hm
    obtain rfl := List.mem_singleton.1 hm
    simp [trkMsg])
  exact ⟨w', h1, by rw [h3, hl]; rfl⟩

/-- C132: a manager with one feature seen by two cameras prints a header with the number 2. -/
example : ((FMgr.init : FMgr ℚ).run [.add [7] [⟨[(0, ⟨1, 2⟩), (1, ⟨3, 4⟩)]⟩] 3]).check
    (fun s => decide ((s.info : List (Line ℚ ℚ)).filterMap Line.header? = [7]) && decide ((s.heap 0).observeNum = 2)) = true := by decide +kernel

end Vio

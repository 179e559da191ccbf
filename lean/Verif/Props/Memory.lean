/-
C111: which samples the attitude filter forgets.
-/
import Verif.Props.Safety
import Verif.Props.Restart

set_option linter.unusedSectionVars false

namespace Vio

variable {K T : Type} [Add K] [Sub K] [Mul K] [Neg K] [Div K] [Zero K] [One K] [ScalarFn K] [TimeOps T] [TimeCast T K]

namespace Backend
open WinSpec AttSpec

theorem addAll_refs (s : FMgr K) (fid : Nat) (l : List (Nat × Obs K)) : (s.addAll fid l).2.length = l.length := by
  induction l generalizing s with
  | nil => rfl
  | cons e l ih =>
    rw [FMgr.addAll]
    simp only [List.length_cons, ih]

theorem addFeatures_length (s : FMgr K) (rs : List Nat) (f : Frame K T) : (f.addFeatures s rs).features.length ≤ f.features.length + rs.length := by
  induction rs generalizing f with
  | nil => exact Nat.le_refl _
  | cons r rs ih =>
    have e : f.addFeatures s (r :: rs) = (f.addFeature s r).addFeatures s rs := rfl
    have h1 : (f.addFeature s r).features.length ≤ f.features.length + 1 := by
      unfold Frame.addFeature
      dsimp only
      split
      · omega
      · simp
    rw [e]
    have := ih (f.addFeature s r)
    simp only [List.length_cons]
    omega

/-- The frame of a message has at most as many features as the message. -/
theorem insert_frames (w : Win K T) (m : FeatMsg K T) : ∃ f, (w.insert m).frm.frames = w.frm.frames ++ [f] ∧ f.features.length ≤ m.ids.length := by
  unfold Win.insert FrameMgr.addNewFrame
  dsimp only
  refine ⟨_, by rw [List.dropLast_concat], ?_⟩
  refine (addFeatures_length _ _ _).trans ?_
  have h0 : ∀ f : FrameMgr K T, (f.setupNew (Frame.make w.frm.nextAddr m.ts)).features.length = 0 := by
    intro f
    unfold FrameMgr.setupNew
    split <;> simp [Frame.initFrame, Frame.make]
  rw [h0]
  unfold FMgr.addNewFeatures
  split
  · simp
  · simp only [addAll_refs, List.length_zip]
    omega

/-- A pop hands out the front of the queue of images or leaves the queue alone. -/
theorem pop_feats (l : Loader K T) : l.popOne.out.featMeas.toList ++ l.popOne.loader.featMeas = l.featMeas := by
  unfold Loader.popOne
  split
  · next h2 =>
    split
    · split <;> exact h2.symm
    · rfl
  · rfl
  · next h2 => exact h2.symm
  · rfl

theorem framePoints_length_eq (s : FMgr K) (f : Frame K T) : (framePoints s f).length ≤ f.features.length := List.length_filterMap_le _ _

theorem estimateFramePose_poor (ext : Ext K) (prm : PnpParam K) (w : Win K T) (f : Frame K T) (h : f.features.length < 10) : estimateFramePose ext prm w f = .ok (false, f) := by
  unfold estimateFramePose
  dsimp only
  rw [if_pos (lt_of_le_of_lt (framePoints_length_eq _ _) h)]

/-- With fewer than ten features in the second frame the initialisation fails and leaves the attitude queue alone. -/
theorem initialise_poor (env : Env K) (g : Vec3 K) (b b' : Backend K T) (r : Bool) (h : initialise env g b = .ok (r, b')) (hp : ∀ f, b.u.w.frm.frames[1]? = some f → f.features.length < 10) :
    r = false ∧ b'.att = b.att ∧ b'.u.q = b.u.q ∧ b'.status = b.status ∧ b'.loader = b.loader ∧ b'.mounted = b.mounted := by
  have hr : r = false := by
    unfold initialise at h
    split at h
    · rename_i fi fj rest hfr
      have hj := hp fj (by rw [hfr]; rfl)
      dsimp only at h
      split at h
      · cases h; rfl
      · obtain ⟨a, ha, h⟩ := Res.bind_eq_ok.1 h
        cases a with
        | none => cases h; rfl
        | some q =>
          dsimp only at h
          obtain ⟨w, hw, h⟩ := Res.bind_eq_ok.1 h
          obtain ⟨⟨good, fj'⟩, he, h⟩ := Res.bind_eq_ok.1 h
          rw [estimateFramePose_poor _ _ _ _ (by exact hj)] at he
          cases he
          cases h
          rfl
    · cases h; rfl
  subst hr
  obtain ⟨att, q, w, e, -⟩ := initialise_keep env g b b' false h
  obtain ⟨-, h2, -⟩ := initialise_queue env g b b' false h
  obtain ⟨h3, h4⟩ := h2 rfl
  exact ⟨rfl, h4, h3, by rw [e], by rw [e], by rw [e]⟩

/-- Not initialised and at most one frame in the window. -/
def Waiting (b : Backend K T) : Prop := b.status = .needInit ∧ b.u.w.frm.frames.length ≤ 1

/-- A poor image leaves a waiting backend waiting, with all its attitude items. -/
theorem onFeat_poor (env : Env K) (g : Vec3 K) (b b' : Backend K T) (m : FeatMsg K T) (hw : Waiting b) (hm : m.ids.length < 10) (h : b.onFeat env g m = .ok b') :
    Waiting b' ∧ b'.att = b.att ∧ b'.u.q = b.u.q ∧ b'.loader = b.loader := by
  obtain ⟨b1, b2, h1, h2, h3⟩ := onFeat_eq env g b b' m h
  obtain ⟨f, hf, hl⟩ := insert_frames b.u.w m
  have hs : (b.setWin (b.u.w.insert m)).status = .needInit := hw.1
  unfold tryInit at h1
  rw [hs] at h1
  dsimp only at h1
  obtain ⟨⟨good, b3⟩, hi, h1⟩ := Res.bind_eq_ok.1 h1
  have hp : ∀ f', (b.setWin (b.u.w.insert m)).u.w.frm.frames[1]? = some f' → f'.features.length < 10 := by
    intro f' hf'
    have e : (b.setWin (b.u.w.insert m)).u.w.frm.frames = b.u.w.frm.frames ++ [f] := hf
    rw [e] at hf'
    have hlen := hw.2
    have hff : f' = f := by
      cases hfr : b.u.w.frm.frames with
      | nil => rw [hfr] at hf'; simp at hf'
      | cons a l =>
        rw [hfr] at hf' hlen
        simp only [List.length_cons] at hlen
        have : l = [] := List.eq_nil_of_length_eq_zero (by omega)
        subst this
        simpa using hf'.symm
    rw [hff]
    omega
  obtain ⟨rfl, i2, i3, i4, i5, i6⟩ := initialise_poor env g _ b3 good hi hp
  simp only [Bool.false_eq_true, if_false] at h1
  have hb3 : 1 ≤ b3.u.w.frm.frames.length := by
    have := (initialise_any env g _ b3 false hi).1
    rw [this, show (b.setWin (b.u.w.insert m)).u.w.frm.frames = b.u.w.frm.frames ++ [f] from hf]
    simp
  obtain ⟨w, rfl, hw1, -⟩ := shrunk_any b3 b1 h1 hb3
  have hs1 : (b3.setWin w).status = .needInit := i4.trans hs
  unfold tryUpdate at h2
  rw [hs1] at h2
  cases h2
  unfold cleanAtt at h3
  rw [if_neg (by show ¬ w.frm.frames.length > 1; omega)] at h3
  cases h3
  exact ⟨⟨hs1, by show w.frm.frames.length ≤ 1; omega⟩, i2, i3, i5⟩

theorem onImu_items (g : Vec3 K) (b b' : Backend K T) (ms : List (ImuMsg K T)) (r : Bool) (h : b.onImu g ms = .ok (r, b')) : b.att.items <+: b'.att.items ∧ (b.status = .needInit → b'.u = b.u) := by
  have hp : ∀ m : ImuMsg K T, b.att.items <+: (b.att.propagate g m.accel m.gyro m.ts).1.items := by
    intro m
    unfold Att.propagate
    split
    · rename_i hl
      rw [List.getLast?_eq_none_iff.1 hl]
      exact List.nil_prefix
    · dsimp only
      split
      · exact List.prefix_refl _
      · exact List.prefix_append _ _
  cases ms with
  | nil => cases h; exact ⟨List.prefix_refl _, fun _ => rfl⟩
  | cons m ms =>
    unfold onImu at h
    dsimp only at h
    cases hs : b.status with
    | needInit =>
      rw [hs] at h
      cases h
      exact ⟨hp m, fun _ => rfl⟩
    | initialized =>
      rw [hs] at h
      dsimp only at h
      split at h
      · cases h
        exact ⟨hp m, fun hc => by cases hc⟩
      · cases h

/-- C111 is false: as long as images show fewer than ten features nothing is ever removed from the attitude queue, however long this lasts and whatever else is called.  The images are handled (they
replace the frame in the window), so the cleaning at the end of `RunOnce` is reached every time, but it is only done when there are two frames. -/
theorem C111_never_cleaned (ops : List (BOp K T)) : ∀ (p p' : BProc K T) (outs : List (BOut K T)), p.run ops = .ok (p', outs) → Waiting p.b → (∀ m ∈ p.b.loader.featMeas, m.ids.length < 10) →
    (∀ m ∈ featMsgs ops, m.ids.length < 10) → Waiting p'.b ∧ p.b.att.items <+: p'.b.att.items ∧ p'.b.u.q = p.b.u.q := by
  induction ops with
  | nil => intro p p' outs h hw _ _; cases h; exact ⟨hw, List.prefix_refl _, rfl⟩
  | cons op ops ih =>
    intro p p' outs h hw hl hm
    rw [BProc.run] at h
    obtain ⟨⟨p1, o⟩, h1, h⟩ := Res.bind_eq_ok.1 h
    obtain ⟨⟨p2, os⟩, h2, h⟩ := Res.bind_eq_ok.1 h
    cases h
    have hm' : ∀ m ∈ featMsgs ops, m.ids.length < 10 := by
      intro m hmm
      refine hm m ?_
      cases op <;> first | exact hmm | exact List.mem_cons_of_mem _ hmm
    suffices hs : Waiting p1.b ∧ (∀ m ∈ p1.b.loader.featMeas, m.ids.length < 10) ∧ p.b.att.items <+: p1.b.att.items ∧ p1.b.u.q = p.b.u.q by
      obtain ⟨s1, s2, s3, s4⟩ := hs
      obtain ⟨r1, r2, r3⟩ := ih p1 _ _ h2 s1 s2 hm'
      exact ⟨r1, s3.trans r2, r3.trans s4⟩
    have hpop : ∀ m ∈ p.b.loader.popOne.loader.featMeas, m.ids.length < 10 := by
      intro m hmm
      refine hl m ?_
      rw [← pop_feats p.b.loader]
      exact List.mem_append_right _ hmm
    cases op with
    | imu m => cases h1; exact ⟨hw, hl, List.prefix_refl _, rfl⟩
    | feat m =>
      cases h1
      refine ⟨hw, ?_, List.prefix_refl _, rfl⟩
      intro m' hm''
      have h10 : m.ids.length < 10 := hm m (List.mem_cons_self ..)
      change m' ∈ (Loader.pushFeatures p.statics p.b.loader m).loader.featMeas at hm''
      unfold Loader.pushFeatures at hm''
      split at hm''
      · exact hl m' hm''
      · dsimp only at hm''
        generalize (if TimeOps.isNaN p.b.loader.offset then m.ts else p.b.loader.offset) = off at hm''
        split at hm''
        · rcases List.mem_append.1 hm'' with h3 | h3
          · exact hl m' h3
          · rw [List.mem_singleton.1 h3]
            exact h10
        · exact hl m' hm''
    | run env =>
      obtain ⟨⟨r, b⟩, hb, h1⟩ := Res.bind_eq_ok.1 h1
      cases h1
      rcases runOnce_eq env p.g p.b b r hb with ⟨-, -, rfl⟩ | ⟨-, res, b1, hi, hb⟩
      · exact ⟨hw, hpop, List.prefix_refl _, rfl⟩
      · obtain ⟨k1, k2, k3, -⟩ := onImu_keep _ _ _ _ _ hi
        obtain ⟨j1, j2⟩ := onImu_items _ _ _ _ _ hi
        have hq : b1.u = p.b.u := j2 hw.1
        have hw1 : Waiting b1 := ⟨k2.trans hw.1, by rw [hq]; exact hw.2⟩
        rcases hb with ⟨-, -, rfl⟩ | ⟨m, hf, -, hb⟩
        · exact ⟨hw1, by rw [k1]; exact hpop, j1, by rw [hq]⟩
        · have h10 : m.ids.length < 10 := by
            refine hl m ?_
            rw [← pop_feats p.b.loader, hf]
            simp
          obtain ⟨f1, f2, f3, f4⟩ := onFeat_poor env p.g b1 b m hw1 h10 hb
          exact ⟨f1, by rw [f4, k1]; exact hpop, by rw [f2]; exact j1, by rw [f3, hq]⟩
    | runTest => cases h1; exact ⟨hw, hpop, List.prefix_refl _, rfl⟩
    | publishPropagate =>
      obtain ⟨s, _, h1⟩ := Res.bind_eq_ok.1 h1
      cases h1; exact ⟨hw, hl, List.prefix_refl _, rfl⟩
    | publishUpdate =>
      obtain ⟨s, _, h1⟩ := Res.bind_eq_ok.1 h1
      cases h1; exact ⟨hw, hl, List.prefix_refl _, rfl⟩
    | reset => cases h1; exact ⟨⟨rfl, hw.2⟩, hl, List.prefix_refl _, rfl⟩

/-- C111, what holds: after an image that leaves at least two frames the oldest attitude kept is at most an IMU period older than the newest frame, and if the filter runs, the oldest state in the
propagation queue is at most an IMU period older than the image.  Missing: images that leave one frame (`C111_never_cleaned`). -/
theorem C111_kept_partial (env : Env K) (g : Vec3 K) (b b' : Backend K T) (r : Bool) (m : FeatMsg K T) (hm : b.loader.popOne.out.featMeas = some m) (h : b.runOnce env g = .ok (r, b'))
    (hlt : b.u.w.frm.frames.length + 1 < two32) :
    (2 ≤ b'.u.w.frm.frames.length → ∀ f, b'.u.w.frm.frames.getLast? = some f → ∀ i, b'.att.items.head? = some i → ¬ Old f.ts (TimeCast.toK b'.loader.imuPeriod : K) i) ∧
    (b'.status = .initialized → ∀ i, b'.u.q.items.head? = some i → TimeOps.lt b'.loader.imuPeriod (TimeOps.sub m.ts i.ts) = false) := by
  rcases runOnce_eq env g b b' r h with ⟨h0, -, -⟩ | ⟨-, res, b1, him, hb⟩
  · have := (popOne_ret b.loader).1 h0
    unfold Loader.popOne at hm
    rw [this.1, this.2] at hm
    cases hm
  · rcases hb with ⟨hn, -, -⟩ | ⟨m', hm', -, hb⟩
    · rw [hn] at hm; cases hm
    · rw [hm] at hm'
      cases hm'
      obtain ⟨b2, b3, h1, h2, h3⟩ := onFeat_eq env g b1 b' m hb
      obtain ⟨c1, c2, c3, c4⟩ := cleanAtt_any b3 b' h3
      have hlo : b'.loader = b3.loader := by
        unfold cleanAtt at h3
        split at h3
        · obtain ⟨_, _, h3⟩ := Res.bind_eq_ok.1 h3
          obtain ⟨_, _, h3⟩ := Res.bind_eq_ok.1 h3
          cases h3; rfl
        · cases h3; rfl
      refine ⟨?_, ?_⟩
      · intro hl f hf i hi
        unfold cleanAtt at h3
        rw [c1] at hl hf
        rw [if_pos (by omega)] at h3
        obtain ⟨f', hb3, h3⟩ := Res.bind_eq_ok.1 h3
        obtain ⟨att, hc, h3⟩ := Res.bind_eq_ok.1 h3
        cases h3
        have hff : f' = f := by
          unfold back at hb3
          rw [hf] at hb3
          cases hb3; rfl
        subst hff
        rcases C27_clean _ _ _ _ hc with ⟨e1, rfl⟩ | ⟨old, it, new, -, -, e3, rfl⟩
        · dsimp only at hi
          rw [e1] at hi
          cases hi
        · cases hi
          exact e3
      · intro hs i hi
        have hw : (b1.setWin (b1.u.w.insert m)).u.w.frm.frames.length = b.u.w.frm.frames.length + 1 := by
          have k3 := (onImu_keep _ _ _ _ _ him).2.2.1
          have := (insert_length b1.u.w m).1
          rw [show (b1.setWin (b1.u.w.insert m)).u.w = b1.u.w.insert m from rfl, this, k3]
        obtain ⟨t1, t2, t3, -⟩ := tryInit_any env g _ b2 h1 (by rw [hw]; omega)
        obtain ⟨u1, u2, u3, u4, u5, u6, u7⟩ := tryUpdate_any env g b2 b3 m.ts h2 t2 (by rw [hw] at t1; omega)
        have hs3 : b3.status = .initialized := c2.symm.trans hs
        have hs2 : b2.status = .initialized := by
          cases hc : b2.status with
          | initialized => rfl
          | needInit =>
            rw [u4 hc, hc] at hs3
            cases hs3
        have ht := u5 hs2
        rw [c1] at hi
        have hper : b'.loader.imuPeriod = b2.loader.imuPeriod := by
          rw [hlo, (tryUpdate_keep env g b2 b3 m.ts h2).1]
        obtain ⟨old, -, -, o3, -, -⟩ := C37_reset b2.u.q m.ts b2.loader.imuPeriod
        rw [hper]
        cases hq : (b2.u.q.resetOrigin m.ts b2.loader.imuPeriod).1.items with
        | nil =>
          rw [hq] at ht
          have : b3.u.q.items = [] := List.map_eq_nil_iff.1 ht
          rw [this] at hi
          cases hi
        | cons j js =>
          rw [hq] at ht o3
          cases hq3 : b3.u.q.items with
          | nil => rw [hq3] at hi; cases hi
          | cons i' is =>
            rw [hq3] at hi ht
            cases hi
            have e : i.ts = j.ts := (List.cons.inj ht).1
            rw [e]
            exact o3 j rfl

/-! ### A dark room -/

/-- A sample and an image without features at each of the times `k`, `k + 1`, … (`n` of them), and a call of `RunOnce` for each pair. -/
def dark : Nat → Nat → List (BOp ℚ ℚ)
  | _, 0 => []
  | k, n + 1 => .imu (exImu k) :: .feat ⟨[], [], k⟩ :: .run exEnv :: dark (k + 1) n

theorem featMsgs_dark (n : Nat) : ∀ k, ∀ m ∈ featMsgs (dark k n), m.ids = [] ∧ m.observes = [] := by
  induction n with
  | zero => intro k m hm; cases hm
  | succ n ih =>
    intro k m hm
    rcases List.mem_cons.1 hm with rfl | hm
    · exact ⟨rfl, rfl⟩
    · exact ih (k + 1) m hm

theorem featMsgs_dark_length (n : Nat) : ∀ k, (featMsgs (dark k n)).length = n := by
  induction n with
  | zero => intro k; rfl
  | succ n ih => intro k; exact congrArg (· + 1) (ih (k + 1))

theorem reset_dark (n : Nat) : ∀ k, ∀ op ∈ dark k n, op ≠ .reset := by
  induction n with
  | zero => intro k op h; cases h
  | succ n ih =>
    intro k op h
    rcases List.mem_cons.1 h with rfl | h
    · simp
    · rcases List.mem_cons.1 h with rfl | h
      · simp
      · rcases List.mem_cons.1 h with rfl | h
        · simp
        · exact ih _ op h

/-- After `k` pairs in the dark: the loader is empty and the attitude queue holds `k` items. -/
structure Dark (k : Nat) (p : BProc ℚ ℚ) : Prop where
  wait : Waiting p.b
  g : p.g = ⟨0, 0, 10⟩
  imu : p.b.loader.imuMeas = []
  feat : p.b.loader.featMeas = []
  offset : p.b.loader.offset = -1
  period : p.b.loader.imuPeriod = 1/10
  lastImu : p.statics.lastImu = if k = 0 then none else some (k : ℚ)
  lastFeat : p.statics.lastFeat = if k = 0 then none else some (k : ℚ)
  bias : p.b.att.biasA = 0
  items : p.b.att.items.length = k
  last : ∀ i, p.b.att.items.getLast? = some i → i.ts = k

theorem dark_run (n : Nat) : ∀ (k : Nat) (p p' : BProc ℚ ℚ) (outs : List (BOut ℚ ℚ)), Dark k p → p.run (dark k n) = .ok (p', outs) → Dark (k + n) p' := by
  induction n with
  | zero => intro k p p' outs hd h; cases h; exact hd
  | succ n ih =>
    intro k p p' outs hd h
    rw [dark, BProc.run] at h
    obtain ⟨⟨p1, o1⟩, h1, h⟩ := Res.bind_eq_ok.1 h
    obtain ⟨⟨p2, os⟩, h2, h⟩ := Res.bind_eq_ok.1 h
    cases h
    rw [BProc.run] at h2
    obtain ⟨⟨p3, o3⟩, h3, h2⟩ := Res.bind_eq_ok.1 h2
    obtain ⟨⟨p4, os'⟩, h4, h2⟩ := Res.bind_eq_ok.1 h2
    cases h2
    rw [BProc.run] at h4
    obtain ⟨⟨p5, o5⟩, h5, h4⟩ := Res.bind_eq_ok.1 h4
    obtain ⟨⟨p6, os''⟩, h6, h4⟩ := Res.bind_eq_ok.1 h4
    cases h4
    rw [show k + (n + 1) = (k + 1) + n by omega]
    refine ih (k + 1) p5 _ _ ?_ h6
    -- the two pushes
    have hlt : ∀ o : Option ℚ, o = (if k = 0 then none else some (k : ℚ)) → TimeOps.lt (o.getD (TimeOps.sub ((k : ℚ) + 1) (TimeOps.tlit 1))) ((k : ℚ) + 1) = true := by
      rintro o rfl
      show (decide ((if k = 0 then none else some (k : ℚ)).getD ((k : ℚ) + 1 - 1) < (k : ℚ) + 1)) = true
      split
      · simp
      · simp
    have e1 : p1 = ⟨{ p.statics with lastImu := some ((k : ℚ) + 1) }, p.g, { p.b with loader := { p.b.loader with imuMeas := [⟨0, ⟨0, 0, 10⟩, (k : ℚ) + 1⟩] } }⟩ := by
      have : (Res.ok (p1, o1) : Res (BProc ℚ ℚ × BOut ℚ ℚ)) = .ok (⟨(p.b.loader.pushImu p.statics (exImu k)).statics, p.g, { p.b with loader := (p.b.loader.pushImu p.statics (exImu k)).loader }⟩, .ret true) := h1.symm
      cases this
      unfold Loader.pushImu
      have hn : TimeOps.isNaN p.b.loader.offset = false := rfl
      rw [hn]
      simp only [Bool.false_eq_true, if_false]
      have hsub : TimeOps.sub (exImu k).ts p.b.loader.offset = (k : ℚ) + 1 := by
        rw [hd.offset]
        show (k : ℚ) - (-1) = k + 1
        ring
      rw [hsub, hd.imu]
      rw [if_pos (hlt _ hd.lastImu)]
      rfl
    have e3 : p3 = ⟨⟨some ((k : ℚ) + 1), some ((k : ℚ) + 1)⟩, p.g, { p.b with loader := { p.b.loader with imuMeas := [⟨0, ⟨0, 0, 10⟩, (k : ℚ) + 1⟩], featMeas := [⟨[], [], (k : ℚ) + 1⟩] } }⟩ := by
      have : (Res.ok (p3, o3) : Res (BProc ℚ ℚ × BOut ℚ ℚ)) = .ok (⟨(p1.b.loader.pushFeatures p1.statics ⟨[], [], k⟩).statics, p1.g, { p1.b with loader := (p1.b.loader.pushFeatures p1.statics ⟨[], [], k⟩).loader }⟩,
        .ret (p1.b.loader.pushFeatures p1.statics ⟨[], [], k⟩).ret) := h3.symm
      cases this
      subst e1
      unfold Loader.pushFeatures
      rw [if_neg (by simp)]
      dsimp only
      have hn : TimeOps.isNaN p.b.loader.offset = false := rfl
      rw [hn]
      simp only [Bool.false_eq_true, if_false]
      have hsub : TimeOps.sub (k : ℚ) p.b.loader.offset = (k : ℚ) + 1 := by
        rw [hd.offset]
        show (k : ℚ) - (-1) = k + 1
        ring
      rw [hsub, hd.feat, if_pos (hlt _ hd.lastFeat)]
      rfl
    subst e3
    obtain ⟨⟨r, b⟩, hb, h5⟩ := Res.bind_eq_ok.1 h5
    cases h5
    have hpop : ∀ l : Loader ℚ ℚ, l.imuMeas = [⟨0, ⟨0, 0, 10⟩, (k : ℚ) + 1⟩] → l.featMeas = [⟨[], [], (k : ℚ) + 1⟩] → l.imuPeriod = 1/10 →
        l.popOne = ⟨{ l with featMeas := [], imuMeas := [] }, ⟨some ⟨[], [], (k : ℚ) + 1⟩, [⟨0, ⟨0, 0, 10⟩, (k : ℚ) + 1⟩]⟩, true, true⟩ := by
      intro l i1 i2 i3
      unfold Loader.popOne
      rw [i1, i2]
      dsimp only
      rw [if_pos (show TimeOps.le ((k : ℚ) + 1) ((k : ℚ) + 1) = true from decide_eq_true le_rfl), if_pos]
      show decide (|(k : ℚ) + 1 - (k + 1)| < l.imuPeriod) = true
      rw [i3]
      norm_num
    have hp := hpop { p.b.loader with imuMeas := [⟨0, ⟨0, 0, 10⟩, (k : ℚ) + 1⟩], featMeas := [⟨[], [], (k : ℚ) + 1⟩] } rfl rfl hd.period
    dsimp only at hb hp
    rcases runOnce_eq exEnv p.g _ b r hb with ⟨h0, -, -⟩ | ⟨-, res, b1, him, hb⟩
    · dsimp only at h0
      rw [hp] at h0
      cases h0
    · dsimp only at him hb
      rw [hp] at him hb
      dsimp only at him hb
      rcases hb with ⟨hc, -, -⟩ | ⟨m, hm, -, hb⟩
      · cases hc
      · cases hm
        unfold onImu at him
        dsimp only at him
        rw [hd.wait.1] at him
        cases him
        obtain ⟨f1, f2, f3, f4⟩ := onFeat_poor exEnv p.g _ b _ (by exact ⟨rfl, hd.wait.2⟩) (by decide : ([] : List Nat).length < 10) hb
        have hatt : ∃ i, (p.b.att.propagate p.g ⟨0, 0, 10⟩ 0 ((k : ℚ) + 1)).1.items = p.b.att.items ++ [i] ∧ i.ts = (k : ℚ) + 1 ∧ (p.b.att.propagate p.g ⟨0, 0, 10⟩ 0 ((k : ℚ) + 1)).1.biasA = 0 := by
          unfold Att.propagate
          cases hl : p.b.att.items.getLast? with
          | none =>
            dsimp only
            rw [hd.bias, hd.g, if_neg (by decide +kernel), List.getLast?_eq_none_iff.1 hl]
            exact ⟨_, rfl, rfl, rfl⟩
          | some i0 =>
            dsimp only
            have := hd.last i0 hl
            rw [if_neg (by rw [this]; show ¬ decide ((k : ℚ) + 1 < k) = true; simp)]
            exact ⟨_, rfl, rfl, hd.bias⟩
        obtain ⟨i, a1, a2, a3⟩ := hatt
        have k0 : k + 1 ≠ 0 := by omega
        refine ⟨f1, hd.g, by rw [f4], by rw [f4], by rw [f4]; exact hd.offset, by rw [f4]; exact hd.period, ?_, ?_, by rw [f2]; exact a3, ?_, ?_⟩
        · rw [if_neg k0]; push_cast; rfl
        · rw [if_neg k0]; push_cast; rfl
        · rw [f2]
          show ((p.b.att.propagate p.g ⟨0, 0, 10⟩ 0 ((k : ℚ) + 1)).1.items).length = k + 1
          rw [a1, List.length_append, hd.items]
          rfl
        · intro j hj
          rw [f2] at hj
          change ((p.b.att.propagate p.g ⟨0, 0, 10⟩ 0 ((k : ℚ) + 1)).1.items).getLast? = some j at hj
          rw [a1, List.getLast?_concat] at hj
          cases hj
          rw [a2]
          push_cast
          rfl

theorem continuous_nil (l : List (List Nat)) (h : ∀ x ∈ l, x = []) : Continuous l := by
  intro x y z hs id hx
  rw [h x (hs.subset (List.mem_cons_self ..))] at hx
  cases hx

/-- C111 is false: there is no bound on the attitude queue.  With `n` samples and as many images without features, all of them handled, it has `n` items, for every `n`. -/
theorem C111_unbounded (n : Nat) (hn : n + 1 < two32) : ∃ p outs, exProc.run (dark 0 n) = .ok (p, outs) ∧ p.b.att.items.length = n ∧ p.b.loader.featMeas = [] ∧ p.b.u.w.frm.frames.length ≤ 1 := by
  obtain ⟨p, outs, h⟩ := C68_tracker_partial exProc (dark 0 n) ex_fresh ex_ready (reset_dark n 0)
    (by
      intro m hm
      obtain ⟨h1, h2⟩ := featMsgs_dark n 0 m hm
      exact ⟨by rw [h1]; exact List.nodup_nil, by rw [h1, h2]; rfl, by intro o ho; rw [h2] at ho; cases ho⟩)
    (continuous_nil _ (by
      intro x hx
      obtain ⟨m, hm, rfl⟩ := List.mem_map.1 hx
      exact (featMsgs_dark n 0 m hm).1))
    (by rw [featMsgs_dark_length]; exact hn)
  have hd : Dark 0 exProc := ⟨⟨rfl, by decide⟩, rfl, rfl, rfl, rfl, rfl, rfl, rfl, rfl, rfl, by intro i hi; cases hi⟩
  have := dark_run n 0 exProc p outs hd h
  rw [Nat.zero_add] at this
  exact ⟨p, outs, h, this.items, this.feat, this.wait.2⟩

/-- The hypotheses of `C111_never_cleaned` are met by three samples and images in the dark. -/
example : Waiting exProc.b ∧ (∀ m ∈ exProc.b.loader.featMeas, m.ids.length < 10) ∧ (∀ m ∈ featMsgs (dark 0 3), m.ids.length < 10) :=
  ⟨⟨rfl, by decide⟩, (fun m hm => by cases hm), fun m hm => by rw [(featMsgs_dark 3 0 m hm).1]; decide⟩

/-- The hypotheses of `C111_kept_partial` are met by the second image of a run that initialises: two frames, an attitude queue with one of the two samples left. -/
example : (exProc.run ((exOps 10).take 5)).check (fun r => r.1.b.loader.popOne.out.featMeas.isSome && decide (r.1.b.u.w.frm.frames.length = 1) && decide (r.1.b.att.items.length = 1) &&
    (r.1.b.runOnce exEnv r.1.g).check (fun x => decide (x.2.u.w.frm.frames.length = 2) && decide (x.2.status = .initialized) && decide (x.2.att.items.length = 1))) = true := by
  decide +kernel

end Backend
end Vio

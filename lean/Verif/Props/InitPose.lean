/-
Property C95: the pose the initialisation gives the second frame.
-/
import Verif.Props.Backend
import Verif.Props.Exact
import Verif.Props.Pnp
import Verif.Lemmas.InitOk
import Verif.Lemmas.Svd

set_option linter.unusedSectionVars false

namespace Vio
open Spec

namespace Pnp

/-- A point that does not pull at the pose: its observation is exact, or it is so close to the focal plane that the solver skips it. -/
def Quiet (s : Pose ℝ) (x : Vec3 ℝ × Vec2 ℝ) : Prop := Exact s x ∨ |(s.q.inverse.rotate (x.1 - s.p)).z| < 1 / 1000000

theorem normalEq_quiet (kernel : Bool) (pts : List (Vec3 ℝ × Vec2 ℝ)) (s : Pose ℝ) (h : ∀ x ∈ pts, Quiet s x) : (normalEq kernel pts s).2 = ⟨0, 0⟩ := by
  have key : ∀ (l : List (Vec3 ℝ × Vec2 ℝ)) (hb : Mat6 ℝ × Vec6 ℝ), (∀ x ∈ l, Quiet s x) → hb.2 = ⟨0, 0⟩ →
      (l.foldl (fun hb x => addPoint kernel s hb x.1 x.2) hb).2 = ⟨0, 0⟩ := by
    intro l
    induction l with
    | nil => intro hb _ h; exact h
    | cons x l ih =>
      intro hb hx hh
      rw [List.foldl_cons]
      apply ih _ (fun y hy => hx y (List.mem_cons_of_mem _ hy))
      have hv : ∀ j : Mat23 ℝ, j.tmulVec ⟨0, 0⟩ = 0 := by
        intro j
        apply Vec3.ext <;> simp [Mat23.tmulVec]
      have h00 : (0 : Vec3 ℝ) + 0 = 0 := by apply Vec3.ext <;> simp
      unfold addPoint
      split
      · exact hh
      · rename_i hz
        rcases hx x List.mem_cons_self with ⟨hx1, hx2⟩ | hs
        · have hr : res s x.1 x.2 = ⟨0, 0⟩ := by
            simp only [res, toCam]
            ext
            · simp [hx1]
            · simp [hx2]
          dsimp only
          simp only [hr, hv, hh]
          split
          · apply Vec6.ext <;> apply Vec3.ext <;> simp
          · simp [h00]
        · exfalso
          apply hz
          simp only [toCam, ScalarFn.lt_real, ScalarFn.fabs_real, lit, decide_eq_true_eq]
          push_cast
          exact hs
  exact key pts _ h rfl

/-- A unit pose at which no point pulls is returned unchanged, with success. -/
theorem estimate_quiet (ext : Ext ℝ) (hext : ∀ H, ext.ldlt6 H ⟨0, 0⟩ = ⟨0, 0⟩) (prm : PnpParam ℝ) (kernel : Bool) (x3 : List (Vec3 ℝ)) (x2 : List (Vec2 ℝ)) (s : Pose ℝ)
    (h : x3.length = x2.length) (h' : x3 ≠ []) (hq : s.q.sqNorm = 1) (hex : ∀ x ∈ x3.zip x2, Quiet s x) : estimate ext prm kernel x3 x2 s = (true, s) := by
  have ha : apply s ⟨0, 0⟩ = s := by
    have e : Utility.deltaQ (0 : Vec3 ℝ) = Quat.one := by
      simp [Utility.deltaQ, Quat.one, Vec3.sdiv]
    simp only [apply, e, Quat.mul_one', Quat.normalized_of_unit _ hq]
    have : s.p + 0 = s.p := by apply Vec3.ext <;> simp
    rw [this]
  have hl : ∀ n, loop ext prm kernel (x3.zip x2) n s = (true, s) := by
    intro n
    induction n with
    | zero => rfl
    | succ n ih =>
      simp only [loop, normalEq_quiet kernel _ s hex, hext, ha, ScalarFn.isNaN_real, Bool.false_eq_true, ↓reduceIte, ih, ite_self]
  simp [estimate, h, h', hl]

end Pnp

namespace Backend
variable {T : Type} [TimeOps T] [TimeCast T ℝ]

/-- What the pose estimation is given: world point and camera-0 observation of the features of a frame that are triangulated and seen by camera 0. -/
theorem mem_framePoints (s : FMgr ℝ) (f : Frame ℝ T) (x : Vec3 ℝ × Vec2 ℝ) :
    x ∈ framePoints s f ↔ ∃ e ∈ f.features, (s.heap e.2).status = .solved ∧ (s.heap e.2).pw = x.1 ∧ (s.heap e.2).getNorm f.id 0 = some x.2 := by
  unfold framePoints
  rw [List.mem_filterMap]
  constructor
  · rintro ⟨e, he, h⟩
    split at h
    · obtain ⟨n, hn, rfl⟩ := Option.map_eq_some_iff.1 h
      exact ⟨e, he, by assumption, rfl, hn⟩
    · cases h
  · rintro ⟨e, he, h1, h2, h3⟩
    refine ⟨e, he, ?_⟩
    rw [if_pos h1, h3, Option.map_some, h2]

theorem zip_fst_snd {α β : Type} (l : List (α × β)) : (l.map (·.1)).zip (l.map (·.2)) = l := by
  induction l with
  | nil => rfl
  | cons x l ih => rw [List.map_cons, List.map_cons, List.zip_cons_cons, ih]

/-- C95.  The pose estimation starts at the camera-0 pose that belongs to the frame's body pose, and after success the body pose of the frame is the one whose camera-0 pose is the pose
found; on failure the frame is not touched. -/
theorem C95_camera_pose (ext : Ext ℝ) (prm : PnpParam ℝ) (w : Win ℝ T) (f f' : Frame ℝ T) (e : Extrinsic ℝ) (good : Bool) (he : w.frm.extrinsics[0]? = some e) (hq : e.q.sqNorm = 1)
    (h : estimateFramePose ext prm w f = .ok (good, f')) :
    (good = false → f' = f) ∧
    (good = true → ∃ (x3 : List (Vec3 ℝ)) (x2 : List (Vec2 ℝ)) (qc : Quat ℝ) (pc : Vec3 ℝ), x3.length = x2.length ∧
      (∀ x, x ∈ x3.zip x2 ↔ ∃ e ∈ f.features, (w.feat.heap e.2).status = .solved ∧ (w.feat.heap e.2).pw = x.1 ∧ (w.feat.heap e.2).getNorm f.id 0 = some x.2) ∧
      Pnp.estimate ext prm true x3 x2 ⟨f.q.mul e.q, f.q.rotate e.p + f.p⟩ = (true, ⟨qc, pc⟩) ∧ f'.q.mul e.q = qc ∧ f'.q.rotate e.p + f'.p = pc ∧ f' = { f with q := f'.q, p := f'.p }) := by
  unfold estimateFramePose at h
  dsimp only at h
  split at h
  · cases h; exact ⟨fun _ => rfl, nofun⟩
  obtain ⟨e', he', h⟩ := Res.bind_eq_ok.1 h
  have : e' = e := by
    unfold idx at he'
    rw [he] at he'
    cases he'
    rfl
  subst this
  split at h
  · rename_i hr
    cases h
    refine ⟨nofun, fun _ => ⟨_, _, _, _, by simp, ?_, Prod.ext hr rfl, ?_, ?_, rfl⟩⟩
    · intro x
      rw [← mem_framePoints, zip_fst_snd]
    · dsimp only
      rw [Quat.mul_assoc', Quat.inverse_mul_of_unit _ hq, Quat.mul_one']
    · dsimp only
      apply Vec3.ext <;> simp
  · cases h; exact ⟨fun _ => rfl, nofun⟩

/-- C95.  A body that rests between the first two images, seen without noise: whatever attitude the estimator gives, a successful initialisation puts both frames at the same pose, the origin
with that attitude, with velocity zero, and starts the propagation there.  Degenerate features, whose triangulation returns another point than the observed one, do no harm. -/
theorem C95_standing (env : Env ℝ) (g : Vec3 ℝ) (b b' : Backend ℝ T) (fi fj : Frame ℝ T) (rest : List (Frame ℝ T)) (q : Quat ℝ) (h : initialise env g b = .ok (true, b'))
    (hsvd : ∀ a, IsLastSingular a (env.ext.svdLast a)) (hldlt : ∀ H, env.ext.ldlt6 H ⟨0, 0⟩ = ⟨0, 0⟩)
    (hfr : b.u.w.frm.frames = fi :: fj :: rest) (ha : b.att.getAttitude fi.ts (TimeOps.mul b.loader.imuPeriod (TimeOps.tlit (55/100))) = .ok (some q)) (hq : q.sqNorm = 1)
    (hex : ∀ e ∈ b.u.w.frm.extrinsics, e.q.sqNorm = 1) (hnd : (fi.features.map (·.2)).Nodup)
    (hX : ∀ x ∈ fi.features, ∃ X,
      (∀ o, (b.u.w.feat.heap x.2).observes[sub32 fi.id (b.u.w.feat.heap x.2).first]? = some o → (∃ n, (0, n) ∈ o.norms) ∧
        ∀ c n, (c, n) ∈ o.norms → ∀ e, b.u.w.frm.extrinsics[c]? = some e → camDepth q 0 e.q e.p X ≠ 0 ∧ n = predict q 0 e.q e.p X) ∧
      (∀ n e, (b.u.w.feat.heap x.2).getNorm fj.id 0 = some n → b.u.w.frm.extrinsics[0]? = some e → n = predict q 0 e.q e.p X))
    (hnew : ∀ x ∈ fj.features, x.2 ∈ fi.features.map (·.2) ∨ (b.u.w.feat.heap x.2).status ≠ .solved) :
    ∃ fi' fj', b'.u.w.frm.frames = fi' :: fj' :: rest ∧ (fi'.p = 0 ∧ fi'.q = q ∧ fi'.v = 0) ∧ (fj'.p = 0 ∧ fj'.q = q ∧ fj'.v = 0) ∧ b'.u.q.initState = ⟨0, 0, q⟩ := by
  unfold initialise at h
  rw [hfr] at h
  dsimp only at h
  split at h
  · cases h
  rw [ha, Res.bind_ok] at h
  dsimp only at h
  obtain ⟨w, hw, h⟩ := Res.bind_eq_ok.1 h
  obtain ⟨⟨good, fj'⟩, he, h⟩ := Res.bind_eq_ok.1 h
  dsimp only at h
  split at h
  · cases h
  rename_i hg
  obtain rfl : good = true := by simpa using hg
  obtain ⟨b1, h1, h⟩ := Res.bind_eq_ok.1 h
  obtain ⟨i0, hi0, h⟩ := Res.bind_eq_ok.1 h
  cases h
  obtain ⟨att, s, rfl, hc, hr⟩ := initPropagator_keep _ _ _ _ _ h1
  obtain ⟨r1, -⟩ := replay_spec _ _ _ _ _ _ hr
  obtain ⟨t1, t2, t3⟩ := triMultiView_spec _ _ _ _ _ hw
  have t3 := t3 hnd
  have hwe : w.frm.extrinsics = b.u.w.frm.extrinsics := by rw [t1.frm]; rfl
  obtain ⟨e0, he0⟩ : ∃ e0, b.u.w.frm.extrinsics[0]? = some e0 := by
    cases hl : b.u.w.frm.extrinsics[0]? with
    | some e => exact ⟨e, rfl⟩
    | none =>
      exfalso
      unfold estimateFramePose at he
      dsimp only at he
      split at he
      · cases he
      · obtain ⟨e, hee, -⟩ := Res.bind_eq_ok.1 he
        unfold idx at hee
        rw [hwe, hl] at hee
        cases hee
  have hu0 : e0.q.sqNorm = 1 := hex e0 (List.mem_of_getElem? he0)
  obtain ⟨-, hp⟩ := C95_camera_pose env.ext b.pnp w _ fj' e0 true (by rw [hwe]; exact he0) hu0 he
  obtain ⟨x3, x2, qc, pc, p1, p2, p3, p4, p5, p6⟩ := hp rfl
  dsimp only at p2 p3
  have hne : x3 ≠ [] := by
    rintro rfl
    rw [Pnp.C57_rejected _ _ _ _ _ _ (.inr rfl)] at p3
    cases p3
  have hquiet : ∀ x ∈ x3.zip x2, Pnp.Quiet ⟨q.mul e0.q, q.rotate e0.p + 0⟩ x := by
    intro x hx
    obtain ⟨e, e1, e2, e3, e4⟩ := (p2 x).1 hx
    have hin : e.2 ∈ fi.features.map (·.2) := by
      by_contra hc
      rcases hnew e e1 with h | h
      · exact hc h
      · rw [t2 _ hc] at e2
        exact h e2
    obtain ⟨e', i1, i2⟩ := List.mem_map.1 hin
    obtain ⟨X, X1, X2⟩ := hX e' i1
    obtain ⟨o, vs, good, pw, a1, a2, a3, a4, a5⟩ := t3 e' i1
    dsimp only at a1 a2 a3
    rw [i2] at a1 a3 a4 a5 X1 X2
    obtain ⟨⟨n0, o1⟩, o2⟩ := X1 o a1
    obtain rfl : good = true := a5.1 e2
    have hmem := Update.obsViews_mem _ _ _ _ a2
    dsimp only at hmem
    have hcon := Triang.analytic_consistent env.ext vs _ pw X hsvd (by
      intro v hv
      obtain ⟨c, n, ex, v1, v2, rfl⟩ := (hmem v).1 hv
      obtain ⟨d1, d2⟩ := o2 c n v1 ex v2
      have := Update.view_camPoint { fi with q := q, p := 0 } ex hq (hex ex (List.mem_of_getElem? v2)) X
      dsimp only at this
      unfold ExactObs
      dsimp only
      rw [this, Update.camPoint_eq]
      refine ⟨d1, ?_, ?_⟩ <;> rw [d2] <;> rfl) a3 _ ((hmem _).2 ⟨0, n0, e0, o1, he0, rfl⟩)
    dsimp only at hcon
    have hsame : (w.feat.heap e.2).getNorm fj.id 0 = (b.u.w.feat.heap e.2).getNorm fj.id 0 := by
      have := t1.heap e.2
      rw [this]
      rfl
    rw [hsame] at e4
    have hn : x.2 = n0 := by rw [X2 _ e0 e4 he0, (o2 0 n0 o1 e0 he0).2]
    by_cases hz : ((q.mul e0.q).inverse.rotate (pw - (q.rotate e0.p + 0))).z = 0
    · right
      rw [← e3, a4]
      dsimp only
      rw [hz]
      norm_num
    · left
      unfold Pnp.Exact
      dsimp only
      rw [← e3, a4, hn]
      exact ⟨by rw [eq_div_iff hz]; exact hcon.1, by rw [eq_div_iff hz]; exact hcon.2⟩
  rw [Pnp.estimate_quiet env.ext hldlt b.pnp true x3 x2 _ p1 hne (by dsimp only; rw [Quat.sqNorm_mul, hq, hu0, one_mul]) hquiet] at p3
  simp only [Prod.mk.injEq, Pose.mk.injEq, true_and] at p3
  obtain ⟨rfl, rfl⟩ := p3
  have hqj : fj'.q = q := by
    have := congrArg (fun x => Quat.mul x e0.q.inverse) p4
    rwa [Quat.mul_assoc', Quat.mul_assoc', Quat.mul_inverse_of_unit _ hu0, Quat.mul_one', Quat.mul_one'] at this
  have hpj : fj'.p = 0 := by
    rw [hqj] at p5
    have h1 := congrArg Vec3.x p5
    have h2 := congrArg Vec3.y p5
    have h3 := congrArg Vec3.z p5
    apply Vec3.ext <;> simp at h1 h2 h3 ⊢ <;> assumption
  have hv : (fj'.p - 0).sdiv (TimeCast.toK (TimeOps.sub fj.ts fi.ts)) = 0 := by
    rw [hpj]
    apply Vec3.ext <;> simp [Vec3.sdiv]
  refine ⟨_, _, rfl, ⟨rfl, rfl, hv⟩, ⟨hpj, hqj, hv⟩, ?_⟩
  show s.initState = _
  rw [r1]
  dsimp only
  rw [hv]


/-! ### When the initialisation succeeds -/

/-- Number of features of a frame that have a position and an observation by camera 0 in the frame. -/
def known (s : FMgr ℝ) (f : Frame ℝ T) : Nat := (f.features.filter (fun e => decide ((s.heap e.2).status = .solved) && ((s.heap e.2).getNorm f.id 0).isSome)).length

theorem framePoints_length (s : FMgr ℝ) (f : Frame ℝ T) : (framePoints s f).length = known s f := by
  unfold framePoints known
  induction f.features with
  | nil => rfl
  | cons e l ih =>
    rw [List.filterMap_cons, List.filter_cons]
    by_cases h1 : (s.heap e.2).status = .solved
    · cases h2 : (s.heap e.2).getNorm f.id 0 with
      | none => simpa [h1, h2] using ih
      | some n => simpa [h1, h2] using ih
    · simpa [h1] using ih

theorem estimateFramePose_good (ext : Ext ℝ) (prm : PnpParam ℝ) (w : Win ℝ T) (f : Frame ℝ T) (good : Bool) (f' : Frame ℝ T) (h : estimateFramePose ext prm w f = .ok (good, f')) :
    good = true ↔ 10 ≤ known w.feat f := by
  unfold estimateFramePose at h
  dsimp only at h
  rw [framePoints_length] at h
  split at h
  · cases h
    constructor
    · nofun
    · intro; omega
  · rename_i hl
    obtain ⟨e, -, h⟩ := Res.bind_eq_ok.1 h
    have hne : framePoints w.feat f ≠ [] := by
      intro hc
      have := framePoints_length w.feat f
      rw [hc] at this
      simp at this
      omega
    split at h
    · cases h
      exact ⟨fun _ => not_lt.1 hl, fun _ => rfl⟩
    · rename_i hr
      exfalso
      rw [Bool.not_eq_true, Pnp.C57_false_iff] at hr
      rcases hr with h | h
      · simp at h
      · exact hne (List.map_eq_nil_iff.1 h)

/-- C95.  With exact arithmetic the initialisation succeeds exactly when the two times differ, the attitude estimator has an attitude for the first image, and at least ten features of the second
image have a position and are seen there by camera 0. -/
theorem C95_success_iff (env : Env ℝ) (g : Vec3 ℝ) (b b' : Backend ℝ T) (fi fj : Frame ℝ T) (rest : List (Frame ℝ T)) (good : Bool) (h : initialise env g b = .ok (good, b'))
    (hfr : b.u.w.frm.frames = fi :: fj :: rest) :
    good = true ↔ TimeOps.lt (TimeOps.fabs (TimeOps.sub fj.ts fi.ts)) (TimeCast.ofK (zeroTol : ℝ)) = false ∧
      (∃ q, b.att.getAttitude fi.ts (TimeOps.mul b.loader.imuPeriod (TimeOps.tlit (55/100))) = .ok (some q)) ∧ 10 ≤ known b'.u.w.feat fj := by
  unfold initialise at h
  rw [hfr] at h
  dsimp only at h
  split at h
  · rename_i hd
    cases h
    simp [hd]
  rename_i hd
  obtain ⟨a, ha, h⟩ := Res.bind_eq_ok.1 h
  rw [ha]
  cases a with
  | none =>
    cases h
    simp
  | some q =>
    dsimp only at h
    obtain ⟨w, hw, h⟩ := Res.bind_eq_ok.1 h
    obtain ⟨⟨gd, fj'⟩, he, h⟩ := Res.bind_eq_ok.1 h
    dsimp only at h
    have hk := estimateFramePose_good _ _ _ _ _ _ he
    have hk' : gd = true ↔ 10 ≤ known w.feat fj := hk
    rw [Bool.not_eq_true] at hd
    split at h
    · rename_i hg
      cases h
      obtain rfl : gd = false := by simpa using hg
      show false = true ↔ _ ∧ _ ∧ 10 ≤ known w.feat fj
      rw [← hk']
      simp
    · rename_i hg
      obtain rfl : gd = true := by simpa using hg
      obtain ⟨b1, h1, h⟩ := Res.bind_eq_ok.1 h
      obtain ⟨i0, hi0, h⟩ := Res.bind_eq_ok.1 h
      cases h
      obtain ⟨att, s, rfl, -, -⟩ := initPropagator_keep _ _ _ _ _ h1
      exact ⟨fun _ => ⟨hd, ⟨q, rfl⟩, hk'.1 rfl⟩, fun _ => rfl⟩

/-! A body at rest with two cameras that sees ten features at `(0, 0, 2)`. -/

/-- What both cameras see. -/
noncomputable def exRestObs : Obs ℝ := ⟨[(0, ⟨0, 0⟩), (1, Triang.exN 2)]⟩

/-- A frame with ten features. -/
noncomputable def exRestFrame (id : Nat) (t : ℝ) : Frame ℝ ℝ := { Frame.make id t with id := id, features := (List.range 10).map (fun i => (i, i)) }

/-- The backend before `Initialize`. -/
noncomputable def exRest : Backend ℝ ℝ :=
  let b : Backend ℝ ℝ := init ⟨0, 0, .one⟩
  { b with
    loader := { b.loader with imuPeriod := 1/10 }
    att := { b.att with items := [⟨.one, ⟨0, 0, 10⟩, 0, 0⟩] }
    u := { b.u with
      q := { PropQueue.init ⟨0, 0, .one⟩ with Q := PropQueue.noiseMatrix 1 2 3 4, biasA := 0, biasG := 0 }
      w := ⟨⟨fun i => ⟨i, 1, [exRestObs, exRestObs], 4, 0, .unsolved⟩, 10, (List.range 10).map (fun i => (i, i))⟩,
        { b.u.w.frm with extrinsics := [⟨.one, 0⟩, ⟨.one, ⟨1, 0, 0⟩⟩], frames := [exRestFrame 1 0, exRestFrame 2 1] }⟩ }
    mounted := true }

/-- An environment whose decomposition meets the specification. -/
theorem exRest_env : ∃ env : Env ℝ, (∀ a, IsLastSingular a (env.ext.svdLast a)) ∧ ∀ H, env.ext.ldlt6 H ⟨0, 0⟩ = ⟨0, 0⟩ := by
  obtain ⟨f, hf⟩ := exists_svd
  exact ⟨⟨⟨f, fun _ v => v, fun _ v => v, fun _ _ _ => 0, fun _ _ => 0, fun _ _ _ => 0⟩, id, id, fun _ _ => 0⟩, hf, fun _ => rfl⟩

theorem one_rotate (v : Vec3 ℝ) : (Quat.one : Quat ℝ).rotate v = v := by apply Vec3.ext <;> simp [Quat.one, Quat.rotate, Quat.vec]

/-- The triangulation of one feature of the example. -/
theorem exRest_tri (ext : Ext ℝ) (hsvd : ∀ a, IsLastSingular a (ext.svdLast a)) (pw : Vec3 ℝ) :
    Triang.analytic ext [.one, .one] [0, ⟨1, 0, 0⟩] [⟨0, 0⟩, Triang.exN 2] pw = .ok (true, ⟨0, 0, 2⟩) :=
  Triang.C54_exact_partial ext _ _ _ pw ⟨0, 0, 2⟩ rfl rfl (by simp) (Triang.ex_obs 2 (by norm_num)) (fun rows e => ⟨(Triang.ex_sys 2 (by norm_num) rows e).1, hsvd _⟩)
    (by norm_num [Vec3.sqNorm])

theorem exRest_att : exRest.att.getAttitude (exRestFrame 1 0).ts (TimeOps.mul exRest.loader.imuPeriod (TimeOps.tlit (55/100))) = .ok (some .one) := by
  simp [Att.getAttitude, exRest, exRestFrame, Frame.make]

theorem exRest_first (x : Nat) : (exRest.u.w.feat.heap x).observes[sub32 (exRestFrame 1 0).id (exRest.u.w.feat.heap x).first]? = some exRestObs := by
  have : sub32 (exRestFrame 1 0).id (exRest.u.w.feat.heap x).first = 0 := by show sub32 1 1 = 0; decide
  rw [this]
  rfl

theorem exRest_norm (x : Nat) : (exRest.u.w.feat.heap x).getNorm (exRestFrame 2 1).id 0 = some ⟨0, 0⟩ := by
  have : sub32 2 1 = 1 := by decide
  simp [Feature.getNorm, exRest, exRestFrame, this, exRestObs, Obs.getNorm, List.lookup]

/-- The initialisation of the example succeeds. -/
theorem exRest_success (env : Env ℝ) (hsvd : ∀ a, IsLastSingular a (env.ext.svdLast a)) (g : Vec3 ℝ) : ∃ b', initialise env g exRest = .ok (true, b') := by
  have key : ∃ good b', initialise env g exRest = .ok (good, b') ∧ (good = true ∨ known b'.u.w.feat (exRestFrame 2 1) = 10) := by
    have hfr : exRest.u.w.frm.frames = [exRestFrame 1 0, exRestFrame 2 1] := rfl
    unfold initialise
    rw [hfr]
    dsimp only
    rw [if_neg (by simp [exRestFrame, Frame.make, zeroTol, lit]; norm_num), exRest_att, Res.bind_ok]
    dsimp only
    obtain ⟨w, hw⟩ := triMultiView_ok env.ext { exRestFrame 1 0 with q := .one, p := 0 } (exRestFrame 1 0).features
      (setFrames exRest.u.w { exRestFrame 1 0 with q := .one, p := 0 } (exRestFrame 2 1) []) (by
        intro e _
        refine ⟨exRestObs, exRest_first _, ?_⟩
        intro x hx
        have : x = (0, ⟨0, 0⟩) ∨ x = (1, Triang.exN 2) := by simpa [exRestObs] using hx
        rcases this with rfl | rfl <;> simp [setFrames, exRest])
    rw [hw, Res.bind_ok]
    obtain ⟨t1, t2, t3⟩ := triMultiView_spec _ _ _ _ _ hw
    have hnd : ((exRestFrame 1 0).features.map (·.2)).Nodup := by
      show (((List.range 10).map (fun i => (i, i))).map (·.2)).Nodup
      decide
    have hsolved : ∀ e ∈ (exRestFrame 1 0).features, (w.feat.heap e.2).status = .solved ∧ (w.feat.heap e.2).getNorm 2 0 = some ⟨0, 0⟩ := by
      intro e he
      obtain ⟨o, vs, good, pw, a1, a2, a3, a4, a5⟩ := t3 hnd e he
      obtain rfl : exRestObs = o := by
        have : _ = some o := a1
        simpa using (exRest_first _).symm.trans this
      have hv : Update.obsViews (setFrames exRest.u.w { exRestFrame 1 0 with q := .one, p := 0 } (exRestFrame 2 1) []).frm { exRestFrame 1 0 with q := .one, p := 0 } exRestObs.norms =
          .ok [⟨.one, 0, ⟨0, 0⟩⟩, ⟨.one, ⟨1, 0, 0⟩, Triang.exN 2⟩] := by
        simp only [exRestObs, Update.obsViews, setFrames, exRest, idx, Res.bind_ok, List.getElem?_cons_zero, List.getElem?_cons_succ, one_rotate, Quat.mul_one']
        congr 3 <;> (congr 1; apply Vec3.ext <;> simp)
      rw [hv] at a2
      cases a2
      have := exRest_tri env.ext hsvd (exRest.u.w.feat.heap e.2).pw
      have a3 : Triang.analytic env.ext [.one, .one] [0, ⟨1, 0, 0⟩] [⟨0, 0⟩, Triang.exN 2] (exRest.u.w.feat.heap e.2).pw = .ok (good, pw) := a3
      rw [this] at a3
      cases a3
      refine ⟨a5.2 rfl, ?_⟩
      rw [t1.heap e.2]
      exact exRest_norm e.2
    have hk : known w.feat (exRestFrame 2 1) = 10 := by
      unfold known
      rw [List.filter_eq_self.2]
      · rfl
      · intro e he
        obtain ⟨s1, s2⟩ := hsolved e he
        have s2' : (w.feat.heap e.2).getNorm (exRestFrame 2 1).id 0 = some ⟨0, 0⟩ := s2
        rw [s1, s2']
        rfl
    have hex : w.frm.extrinsics = [⟨.one, 0⟩, ⟨.one, ⟨1, 0, 0⟩⟩] := by rw [t1.frm]; rfl
    obtain ⟨gd, fj', he⟩ : ∃ gd fj', estimateFramePose env.ext exRest.pnp w { exRestFrame 2 1 with q := .one, p := 0 } = .ok (gd, fj') := by
      unfold estimateFramePose
      dsimp only
      split
      · exact ⟨_, _, rfl⟩
      · rw [hex]
        have : idx [(⟨.one, 0⟩ : Extrinsic ℝ), ⟨.one, ⟨1, 0, 0⟩⟩] 0 = .ok ⟨.one, 0⟩ := rfl
        rw [this, Res.bind_ok]
        split <;> exact ⟨_, _, rfl⟩
    rw [he, Res.bind_ok]
    dsimp only
    split
    · exact ⟨_, _, rfl, .inr hk⟩
    · have hclean : ∀ W : Win ℝ ℝ, (exRest.setWin W).att.cleanOldItems (exRestFrame 1 0).ts (TimeCast.toK (exRest.setWin W).loader.imuPeriod) = .ok exRest.att := by
        intro W
        have hc : ScalarFn.lt (TimeCast.toK (1/10 : ℝ) : ℝ) (TimeCast.toK (TimeOps.sub (0 : ℝ) 0)) = false := by simp
        show (Att.cleanLoop (0 : ℝ) (TimeCast.toK (1/10 : ℝ) : ℝ) [⟨.one, ⟨0, 0, 10⟩, 0, 0⟩]).bind _ = _
        rw [Att.cleanLoop, if_neg (by rw [hc]; decide)]
        rfl
      unfold initPropagator
      rw [hclean, Res.bind_ok]
      exact ⟨_, _, rfl, .inl rfl⟩
  obtain ⟨good, b', h, hk⟩ := key
  cases good with
  | true => exact ⟨b', h⟩
  | false =>
    exfalso
    rcases hk with hk | hk
    · cases hk
    · have := (C95_success_iff env g exRest b' _ _ _ false h rfl).2 ⟨by simp [exRestFrame, Frame.make, zeroTol, lit]; norm_num, ⟨_, exRest_att⟩, hk.ge⟩
      cases this

/-- C95: the example meets the hypotheses of `C95_standing`, and both frames are found at the origin. -/
example : ∃ env : Env ℝ, ∃ b', initialise env ⟨0, 0, 10⟩ exRest = .ok (true, b') ∧
    ∃ fi fj, b'.u.w.frm.frames = [fi, fj] ∧ (fi.p = 0 ∧ fi.q = .one ∧ fi.v = 0) ∧ (fj.p = 0 ∧ fj.q = .one ∧ fj.v = 0) ∧ b'.u.q.initState = ⟨0, 0, .one⟩ := by
  obtain ⟨env, h1, h2⟩ := exRest_env
  obtain ⟨b', h⟩ := exRest_success env h1 ⟨0, 0, 10⟩
  refine ⟨env, b', h, C95_standing env ⟨0, 0, 10⟩ exRest b' _ _ _ .one h h1 h2 rfl exRest_att (by simp [Quat.one, Quat.sqNorm]) ?_ ?_ ?_ ?_⟩
  · intro e he
    have : e = ⟨.one, 0⟩ ∨ e = ⟨.one, ⟨1, 0, 0⟩⟩ := by simpa [exRest] using he
    rcases this with rfl | rfl <;> simp [Quat.one, Quat.sqNorm]
  · show (((List.range 10).map (fun i => (i, i))).map (·.2)).Nodup
    decide
  · have hp0 : predict .one 0 .one 0 ⟨0, 0, 2⟩ = (⟨0, 0⟩ : Vec2 ℝ) := by simp [predict, Quat.one, Quat.inverse, Quat.rotate, Quat.sqNorm, Quat.vec]
    intro x _
    refine ⟨⟨0, 0, 2⟩, ?_, ?_⟩
    · intro o ho
      obtain rfl : exRestObs = o := by
        simpa using (exRest_first _).symm.trans ho
      refine ⟨⟨_, List.mem_cons_self⟩, ?_⟩
      intro c n hcn e he
      have : (c, n) = (0, ⟨0, 0⟩) ∨ (c, n) = (1, Triang.exN 2) := by simpa [exRestObs] using hcn
      rcases this with hc | hc
      · cases hc
        obtain rfl : e = ⟨.one, 0⟩ := by simpa [exRest] using he.symm
        exact ⟨by simp [camDepth, Quat.one, Quat.inverse, Quat.rotate, Quat.sqNorm, Quat.vec], hp0.symm⟩
      · cases hc
        obtain rfl : e = ⟨.one, ⟨1, 0, 0⟩⟩ := by simpa [exRest] using he.symm
        exact ⟨by simp [camDepth, Quat.one, Quat.inverse, Quat.rotate, Quat.sqNorm, Quat.vec],
          by simp [predict, Triang.exN, Quat.one, Quat.inverse, Quat.rotate, Quat.sqNorm, Quat.vec]⟩
    · intro n e hn he
      obtain rfl : e = ⟨.one, 0⟩ := by simpa [exRest] using he.symm
      rw [hp0]
      simpa using hn.symm.trans (exRest_norm _)
  · intro x hx
    exact .inl (List.mem_map_of_mem hx)

end Backend
end Vio

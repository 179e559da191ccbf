/-
C120: two successive good images start the filter.
-/
import Verif.Props.InitPose
import Verif.Props.TwoViews
import Verif.Props.Running
import Verif.Props.Gauge
import Verif.Lemmas.TurnUpd

set_option linter.unusedSectionVars false

namespace Vio
open Spec WinSpec AttSpec Update

/-- An observation that determines its point: all cameras that report it see the same point in front of them, without noise, at most a million units away, and two of them along rays
that are not parallel.  The point is given in the body frame. -/
def StereoExact (exts : List (Extrinsic ℝ)) (o : Obs ℝ) : Prop :=
  ∃ X : Vec3 ℝ, 1 + X.sqNorm ≤ 1000000 ^ 2 ∧
    (∀ c n, (c, n) ∈ o.norms → ∀ e, exts[c]? = some e → ExactObs e.q e.p X n ∧ 0 < depth e.q e.p X) ∧
    ∃ c n c' n' e e', (c, n) ∈ o.norms ∧ (c', n') ∈ o.norms ∧ exts[c]? = some e ∧ exts[c']? = some e' ∧ (X - e.p).cross (X - e'.p) ≠ 0

namespace Triang

/-- `C54_two_rays_partial` for a list of views. -/
theorem analytic_views (ext : Ext ℝ) (vs : List (View ℝ)) (pw x : Vec3 ℝ) (hobs : ∀ v ∈ vs, ExactObs v.q v.p x v.n ∧ 0 < depth v.q v.p x) (hsvd : ∀ a, IsLastSingular a (ext.svdLast a))
    (v v' : View ℝ) (hv : v ∈ vs) (hv' : v' ∈ vs) (u : v.q.sqNorm = 1) (u' : v'.q.sqNorm = 1) (hray : (x - v.p).cross (x - v'.p) ≠ 0) (hnear : 1 + x.sqNorm ≤ 1000000 ^ 2) :
    analytic ext (vs.map (·.q)) (vs.map (·.p)) (vs.map (·.n)) pw = .ok (true, x) := by
  obtain ⟨i, hi, rfl⟩ := List.getElem_of_mem hv
  obtain ⟨j, hj, rfl⟩ := List.getElem_of_mem hv'
  refine C54_two_rays_partial ext _ _ _ pw x (by simp) (by simp) ?_ hsvd i j (by simpa using hi) (by simpa using hj) (by simpa using u) (by simpa using u') (by simpa using hray) hnear
  intro k hk
  have hk : k < vs.length := by simpa using hk
  simpa using hobs _ (List.getElem_mem hk)

end Triang

namespace Backend
variable {T : Type} [TimeOps T] [TimeCast T ℝ]

theorem inverse_rotate_rotate (q : Quat ℝ) (hq : q.sqNorm = 1) (v : Vec3 ℝ) : q.inverse.rotate (q.rotate v) = v := by
  rw [← Quat.rotate_mul _ _ (Quat.sqNorm_inverse_of_unit q hq) hq, Quat.inverse_mul_of_unit q hq, Quat.rotate_one]

/-- Such an observation is triangulated from any body pose at the origin. -/
theorem stereo_solved (ext : Ext ℝ) (hsvd : ∀ a, IsLastSingular a (ext.svdLast a)) (m : FrameMgr ℝ T) (f : Frame ℝ T) (hq : f.q.sqNorm = 1) (hp : f.p = 0)
    (hex : ∀ e ∈ m.extrinsics, e.q.sqNorm = 1) (o : Obs ℝ) (ho : StereoExact m.extrinsics o) (vs : List (Triang.View ℝ)) (hv : obsViews m f o.norms = .ok vs) (pw : Vec3 ℝ) :
    ∃ x, Triang.analytic ext (vs.map (·.q)) (vs.map (·.p)) (vs.map (·.n)) pw = .ok (true, x) := by
  obtain ⟨X, hX, h1, c, n, c', n', e, e', m1, m2, m3, m4, m5⟩ := ho
  have hmem := obsViews_mem m f o.norms vs hv
  have hcam : ∀ e : Extrinsic ℝ, e.q.sqNorm = 1 → (f.q.mul e.q).inverse.rotate (f.q.rotate X - (f.q.rotate e.p + f.p)) = e.q.inverse.rotate (X - e.p) := by
    intro e he
    rw [view_camPoint f e hq he, camPoint_eq, hp]
    have : f.q.rotate X - 0 = f.q.rotate X := by apply Vec3.ext <;> simp
    rw [this, inverse_rotate_rotate _ hq]
  have hsub : ∀ e : Extrinsic ℝ, f.q.rotate X - (f.q.rotate e.p + f.p) = f.q.rotate (X - e.p) := by
    intro e
    rw [hp, Quat.rotate_sub]
    apply Vec3.ext <;> simp
  refine ⟨f.q.rotate X, Triang.analytic_views ext vs pw _ ?_ hsvd _ _ ((hmem _).2 ⟨c, n, e, m1, m3, rfl⟩) ((hmem _).2 ⟨c', n', e', m2, m4, rfl⟩) ?_ ?_ ?_ ?_⟩
  · intro v hv
    obtain ⟨c, n, e, a1, a2, rfl⟩ := (hmem v).1 hv
    obtain ⟨b1, b2⟩ := h1 c n a1 e a2
    have := hcam e (hex e (List.mem_of_getElem? a2))
    unfold ExactObs depth at *
    dsimp only at *
    rw [this]
    exact ⟨b1, b2⟩
  · dsimp only; rw [Quat.sqNorm_mul, hq, hex e (List.mem_of_getElem? m3), one_mul]
  · dsimp only; rw [Quat.sqNorm_mul, hq, hex e' (List.mem_of_getElem? m4), one_mul]
  · dsimp only
    rw [hsub, hsub, ← Quat.rotate_cross _ hq]
    intro hc
    apply m5
    rw [← inverse_rotate_rotate _ hq ((X - e.p).cross (X - e'.p)), hc]
    apply Vec3.ext <;> simp [Quat.rotate, Quat.vec]
  · have : (f.q.rotate X).sqNorm = X.sqNorm := dot_turn f.q hq X X
    rwa [this]

/-- Ten features common to the two images, determined by the first and seen by camera 0 in the second, have a position after the triangulation. -/
theorem enough_known (ext : Ext ℝ) (hsvd : ∀ a, IsLastSingular a (ext.svdLast a)) {l : Log ℝ T} {W : Win ℝ T} (hr : Rel l W) (m0 m : FeatMsg ℝ T) (hl : l.msgs = [m0, m]) (fi fj : Frame ℝ T)
    (hfr : W.frm.frames = [fi, fj]) (hex : ∀ e ∈ W.frm.extrinsics, e.q.sqNorm = 1) (ids : List Nat) (hnd : ids.Nodup) (h10 : 10 ≤ ids.length)
    (hids : ∀ id ∈ ids, (∃ o, report m0 id = some o ∧ StereoExact W.frm.extrinsics o) ∧ ∃ o n, report m id = some o ∧ o.getNorm 0 = some n) (q : Quat ℝ) (hq : q.sqNorm = 1) (w : Win ℝ T)
    (hw : triMultiView ext { fi with q := q, p := 0 } (setFrames W { fi with q := q, p := 0 } fj []) fi.features = .ok w) : 10 ≤ known w.feat fj := by
  obtain ⟨t1, -, t3⟩ := triMultiView_spec _ _ _ _ _ hw
  have t3 := t3 (rel_refsNodup hr fi (by rw [hfr]; simp))
  have f0 := hr.frames 0 fi m0 (by rw [hfr]; rfl) (by rw [hl]; rfl)
  have f1 := hr.frames 1 fj m (by rw [hfr]; rfl) (by rw [hl]; rfl)
  have key : ∀ id ∈ ids, ∃ r, (id, r) ∈ fj.features ∧ (w.feat.heap r).status = .solved ∧ ((w.feat.heap r).getNorm fj.id 0).isSome = true := by
    intro id hid
    obtain ⟨⟨o0, r0, hs⟩, o1, n, r1, hn⟩ := hids id hid
    obtain ⟨r, hlk⟩ : ∃ r, W.feat.map.lookup id = some r := by
      refine Option.ne_none_iff_exists'.1 fun hc => ?_
      have := hr.untracked id hc m (by rw [hl]; simp)
      rw [r1] at this
      cases this
    have ht := hr.tracks id r hlk
    have e0 : (id, r) ∈ fi.features := mem_of_lookup (by rw [f0.link, r0]; simpa using hlk)
    have e1 : (id, r) ∈ fj.features := mem_of_lookup (by rw [f1.link, r1]; simpa using hlk)
    refine ⟨r, e1, ?_, ?_⟩
    · obtain ⟨o, vs, good, pw, a1, a2, a3, -, a5⟩ := t3 (id, r) e0
      have hrep := ht.rep 0 m0 (by rw [hl]; rfl)
      rw [r0] at hrep
      split at hrep
      · rename_i hle
        have hlo := ht.lo
        have hlt := hr.lt
        have s1 : sub32 fi.id (W.feat.heap r).first = 0 := by
          rw [f0.id_eq, sub32_of_le (by omega) (by omega)]; omega
        have s2 : l.base + 0 - (W.feat.heap r).first = 0 := by omega
        have a1 : (W.feat.heap r).observes[sub32 fi.id (W.feat.heap r).first]? = some o := a1
        rw [s1] at a1
        rw [s2, a1] at hrep
        cases hrep
        obtain ⟨x, hx⟩ := stereo_solved ext hsvd (setFrames W { fi with q := q, p := 0 } fj []).frm { fi with q := q, p := 0 } hq rfl hex o0 hs vs a2 (W.feat.heap r).pw
        have a3 : Triang.analytic ext (vs.map (·.q)) (vs.map (·.p)) (vs.map (·.n)) (W.feat.heap r).pw = .ok (good, pw) := a3
        rw [hx] at a3
        cases a3
        exact a5.2 rfl
      · cases hrep
    · have : (w.feat.heap r).getNorm fj.id 0 = (W.feat.heap r).getNorm fj.id 0 := by
        rw [t1.heap r]; rfl
      rw [this, f1.id_eq, tracks_getNorm l id _ ht hr.lt 1 m (by rw [hl]; rfl), r1]
      simp [hn]
  unfold known
  have hsub : ids ⊆ (fj.features.filter (fun e => decide ((w.feat.heap e.2).status = .solved) && ((w.feat.heap e.2).getNorm fj.id 0).isSome)).map (·.1) := by
    intro id hid
    obtain ⟨r, k1, k2, k3⟩ := key id hid
    exact List.mem_map.2 ⟨(id, r), List.mem_filter.2 ⟨k1, by simp [k2, k3]⟩, rfl⟩
  have := (List.subperm_of_subset hnd hsub).length_le
  rw [List.length_map] at this
  omega

/-- Then the initialisation succeeds. -/
theorem initialise_starts (env : Env ℝ) (g : Vec3 ℝ) (b b' : Backend ℝ T) (good : Bool) (h : initialise env g b = .ok (good, b')) (hsvd : ∀ a, IsLastSingular a (env.ext.svdLast a))
    {l : Log ℝ T} (hr : Rel l b.u.w) (m0 m : FeatMsg ℝ T) (hl : l.msgs = [m0, m]) (hex : ∀ e ∈ b.u.w.frm.extrinsics, e.q.sqNorm = 1) (ids : List Nat) (hnd : ids.Nodup)
    (h10 : 10 ≤ ids.length)
    (hids : ∀ id ∈ ids, (∃ o, report m0 id = some o ∧ StereoExact b.u.w.frm.extrinsics o) ∧ ∃ o n, report m id = some o ∧ o.getNorm 0 = some n)
    (hdiff : TimeOps.lt (TimeOps.fabs (TimeOps.sub m.ts m0.ts)) (TimeCast.ofK (zeroTol : ℝ)) = false)
    (hatt : ∃ q : Quat ℝ, b.att.getAttitude m0.ts (TimeOps.mul b.loader.imuPeriod (TimeOps.tlit (55/100))) = .ok (some q) ∧ q.sqNorm = 1) : good = true := by
  obtain ⟨fi, fj, hfr⟩ : ∃ fi fj, b.u.w.frm.frames = [fi, fj] := by
    have := hr.len
    rw [hl] at this
    exact List.length_eq_two.1 this
  have f0 := hr.frames 0 fi m0 (by rw [hfr]; rfl) (by rw [hl]; rfl)
  have f1 := hr.frames 1 fj m (by rw [hfr]; rfl) (by rw [hl]; rfl)
  obtain ⟨q, ha, hq⟩ := hatt
  unfold initialise at h
  rw [hfr] at h
  dsimp only at h
  rw [f0.ts_eq, f1.ts_eq, hdiff, if_neg Bool.false_ne_true, ha, Res.bind_ok] at h
  dsimp only at h
  obtain ⟨w, hw, h⟩ := Res.bind_eq_ok.1 h
  obtain ⟨⟨gd, fj'⟩, he, h⟩ := Res.bind_eq_ok.1 h
  dsimp only at h
  have hw' : triMultiView env.ext { fi with q := q, p := 0 } (setFrames b.u.w { fi with q := q, p := 0 } fj []) fi.features = .ok w := by
    rw [← hw, ← f0.ts_eq]
  have hk : gd = true := (estimateFramePose_good _ _ _ _ _ _ he).2 (enough_known env.ext hsvd hr m0 m hl fi fj hfr hex ids hnd h10 hids q hq w hw')
  rw [hk] at h
  simp only [Bool.not_true, Bool.false_eq_true, if_false] at h
  obtain ⟨b1, -, h⟩ := Res.bind_eq_ok.1 h
  obtain ⟨i0, -, h⟩ := Res.bind_eq_ok.1 h
  cases h
  rfl

/-! ### Unit attitudes -/

/-- All attitudes of the attitude filter are unit quaternions. -/
def UnitAtt (b : Backend ℝ T) : Prop := ∀ i ∈ b.att.items, i.q.sqNorm = 1

theorem propagate_unit (s : Att ℝ T) (g a w : Vec3 ℝ) (t : T) (h : ∀ i ∈ s.items, i.q.sqNorm = 1) : ∀ i ∈ (s.propagate g a w t).1.items, i.q.sqNorm = 1 := by
  unfold Att.propagate
  split
  · dsimp only
    split
    · exact h
    · intro i hi
      obtain rfl := List.mem_singleton.1 hi
      exact Att.initQuat_unit _ _
  · rename_i i0 h0
    split
    · exact h
    · intro i hi
      rcases List.mem_append.1 hi with hi | hi
      · exact h i hi
      · obtain rfl := List.mem_singleton.1 hi
        dsimp only [Att.stepQuat]
        refine Quat.sqNorm_normalized _ ?_
        rw [Quat.sqNorm_mul, h i0 (List.mem_of_getLast? h0), one_mul]
        exact lt_of_lt_of_le one_pos (Quat.sqNorm_deltaQ_pos _)

theorem onImu_att (g : Vec3 ℝ) (b b' : Backend ℝ T) (ms : List (ImuMsg ℝ T)) (r : Bool) (h : b.onImu g ms = .ok (r, b')) :
    ms = [] ∧ b' = b ∨ ∃ m ms', ms = m :: ms' ∧ b'.att = (b.att.propagate g m.accel m.gyro m.ts).1 := by
  cases ms with
  | nil => cases h; exact .inl ⟨rfl, rfl⟩
  | cons m ms =>
    refine .inr ⟨m, ms, rfl, ?_⟩
    rw [onImu] at h
    generalize b.att.propagate g m.accel m.gyro m.ts = ar at h
    obtain ⟨att, res⟩ := ar
    dsimp only at h
    split at h
    · cases h; rfl
    · split at h
      · cases h; rfl
      · cases h

theorem onFeat_att (env : Env ℝ) (g : Vec3 ℝ) (b b' : Backend ℝ T) (m : FeatMsg ℝ T) (h : b.onFeat env g m = .ok b') (hlt : b.u.w.frm.frames.length + 1 < two32) :
    b'.att.items <:+ b.att.items := by
  obtain ⟨b1, b2, h1, h2, h3⟩ := onFeat_eq env g b b' m h
  have i1 : (b.setWin (b.u.w.insert m)).u.w.frm.frames.length = b.u.w.frm.frames.length + 1 := (insert_length b.u.w m).1
  obtain ⟨t1, t2, -, t4, -⟩ := tryInit_any env g _ b1 h1 (by omega)
  obtain ⟨-, -, r3, -⟩ := tryUpdate_any env g b1 b2 m.ts h2 t2 (by omega)
  obtain ⟨-, -, c3, -⟩ := cleanAtt_any _ _ h3
  rw [r3] at c3
  exact c3.trans t4

theorem runOnce_unit (env : Env ℝ) (g : Vec3 ℝ) (b b' : Backend ℝ T) (r : Bool) (h : b.runOnce env g = .ok (r, b')) (hlt : b.u.w.frm.frames.length + 1 < two32) (hu : UnitAtt b) :
    UnitAtt b' := by
  rcases runOnce_eq env g b b' r h with ⟨-, -, rfl⟩ | ⟨-, res, b1, e1, e2⟩
  · exact hu
  · have k := (onImu_keep _ _ _ _ _ e1).2.2.1
    have k : b1.u.w = b.u.w := k
    have h1 : UnitAtt b1 := by
      rcases onImu_att _ _ _ _ _ e1 with ⟨-, rfl⟩ | ⟨m, ms, -, e⟩
      · exact hu
      · unfold UnitAtt
        rw [e]
        exact propagate_unit _ _ _ _ _ hu
    rcases e2 with ⟨-, -, rfl⟩ | ⟨m, -, -, e2⟩
    · exact h1
    · exact fun i hi => h1 i ((onFeat_att env g b1 b' m e2 (by rw [k]; exact hlt)).subset hi)

section Time
variable [LinearOrder T] [TimeLaws T] [CastLaws T ℝ]

/-! ### One call -/

/-- Times of the attitudes of the attitude filter when the next call looks at its image: those there are, and that of the IMU sample of the call. -/
def attTimes (b : Backend ℝ T) : List T := b.att.items.map (·.ts) ++ b.loader.popOne.out.imuMeas.map (·.ts)

/-- What the second of two successive images needs to start the filter.  `exts` are the extrinsics, `per` is the IMU period, `ts` are the times of the attitudes: the times of the images differ;
ten features occur in both images, are determined by the first and seen by camera 0 in the second; there are two attitudes, one of them near the first image and one of them not too old for the
second. -/
structure GoodPair (exts : List (Extrinsic ℝ)) (per : T) (ts : List T) (m0 m : FeatMsg ℝ T) : Prop where
  differ : TimeOps.lt (TimeOps.fabs (TimeOps.sub m.ts m0.ts)) (TimeCast.ofK (zeroTol : ℝ)) = false
  common : ∃ ids : List Nat, ids.Nodup ∧ 10 ≤ ids.length ∧ ∀ id ∈ ids, (∃ o, report m0 id = some o ∧ StereoExact exts o) ∧ ∃ o n, report m id = some o ∧ o.getNorm 0 = some n
  two : 2 ≤ ts.length
  near : ∃ t ∈ ts, TimeOps.fabs (TimeOps.sub t m0.ts) < TimeOps.mul per (TimeOps.tlit (55/100))
  recent : ∃ t ∈ ts, TimeOps.sub m.ts t ≤ per

theorem second_image (env : Env ℝ) (g : Vec3 ℝ) {nc N U : Nat} {l : Log ℝ T} {b : Backend ℝ T} (h : Stable False nc N U l b) (hfit : Fits nc (max 1 N + 1) U)
    (h0 : TimeOps.tlit 0 ≤ b.loader.imuPeriod) (h1 : TimeOps.mul b.loader.imuPeriod (TimeOps.tlit (55/100)) ≤ b.loader.imuPeriod)
    (hm : ∀ m, b.loader.popOne.out.featMeas = some m → GoodMsg l m ∧ GoodObs nc m ∧ l.base + l.msgs.length + 1 < two32) (hs : b.status = .needInit) (hu : UnitAtt b)
    (hex : ∀ e ∈ b.u.w.frm.extrinsics, e.q.sqNorm = 1) (hsvd : ∀ a, IsLastSingular a (env.ext.svdLast a)) (m0 m : FeatMsg ℝ T) (hl : l.msgs = [m0])
    (hpop : b.loader.popOne.out.featMeas = some m) (hord : ∀ s ∈ b.loader.popOne.out.imuMeas, ∀ a ∈ b.att.items, a.ts ≤ s.ts) (hne : b.att.items ≠ [])
    (hgood : GoodPair b.u.w.frm.extrinsics b.loader.imuPeriod (attTimes b) m0 m) {r : Bool} {b' : Backend ℝ T} (hb' : b.runOnce env g = .ok (r, b')) : b'.status = .initialized := by
  obtain ⟨r', b2, l', e, hst, -⟩ := runOnce_ok False env g h hfit h0 h1 hm (fun hc => hc.elim)
  rw [hb'] at e
  cases e
  obtain ⟨c1, c2, c3⟩ := hm m hpop
  rcases runOnce_eq env g b b' r hb' with ⟨p1, -, -⟩ | ⟨-, res, b1, e1, e2⟩
  · exfalso
    revert p1 hpop
    unfold Loader.popOne
    split
    · split
      · split <;> exact fun _ => (nomatch ·)
      · exact fun _ => (nomatch ·)
    · exact fun _ => (nomatch ·)
    · exact fun _ => (nomatch ·)
    · exact (nomatch ·)
  rcases e2 with ⟨q1, -⟩ | ⟨m', q1, -, e2⟩
  · rw [hpop] at q1; cases q1
  rw [hpop] at q1
  cases q1
  -- the IMU part
  obtain ⟨k1, k2, k3, -⟩ := onImu_keep _ _ _ _ _ e1
  have k2 : b1.status = .needInit := k2.trans hs
  have k3 : b1.u.w = b.u.w := k3
  have k1 : b1.loader.imuPeriod = b.loader.imuPeriod := by rw [k1]; exact pop_period _
  have hu1 : UnitAtt b1 := by
    rcases onImu_att _ _ _ _ _ e1 with ⟨-, rfl⟩ | ⟨s, ms, -, e⟩
    · exact hu
    · unfold UnitAtt
      rw [e]
      exact propagate_unit _ _ _ _ _ hu
  have htimes : b1.att.items.map (·.ts) = attTimes b := by
    unfold attTimes
    rcases popOne_short b.loader with hc | ⟨s, hc⟩
    · rw [hc] at e1 ⊢
      cases e1
      simp
    · rw [hc] at e1 hord ⊢
      rcases onImu_att _ _ _ _ _ e1 with ⟨hc, -⟩ | ⟨s', ms, hc, e⟩
      · cases hc
      · cases hc
        obtain ⟨a, ha⟩ := Option.ne_none_iff_exists'.1 (mt List.getLast?_eq_none_iff.1 hne)
        have hlt : TimeOps.lt s.ts a.ts = false := by
          by_contra hc
          exact absurd ((TimeLaws.lt_iff _ _).1 (by simpa using hc)) (not_lt.2 (hord s (by simp) a (List.mem_of_getLast? ha)))
        obtain ⟨q, hq, -⟩ := C24_accepted b.att g s.accel s.gyro s.ts a ha hlt
        have e : b1.att.items = (b.att.propagate g s.accel s.gyro s.ts).1.items := by rw [e]
        rw [e, hq]
        simp
  obtain ⟨r1, b1', e1', hst1, -⟩ := onImu_ok False g b.loader.popOne.out.imuMeas (stable_loader h b.loader.popOne.loader) (fun hc => hc.elim)
  rw [e1] at e1'
  cases e1'
  -- the image
  obtain ⟨d1, d2, -⟩ := core_insert hst1.toCore m c1 c2 c3
  obtain ⟨b2, b3, t1, t2, t3⟩ := onFeat_eq env g b1 b' m e2
  have hext : (b1.setWin (b1.u.w.insert m)).u.w.frm.extrinsics = b.u.w.frm.extrinsics := by
    show (b1.u.w.insert m).frm.extrinsics = _
    rw [insert_eq b1.u.w m c1.2.1, k3]
  have hsort : Sorted b1.att.items := hst1.sorted
  have hb2 : b2.status = .initialized := by
    have hs1 : (b1.setWin (b1.u.w.insert m)).status = .needInit := k2
    unfold tryInit at t1
    rw [hs1] at t1
    dsimp only at t1
    obtain ⟨⟨good, b4⟩, hi, t1⟩ := Res.bind_eq_ok.1 t1
    obtain ⟨ids, i1, i2, i3⟩ := hgood.common
    have hg : good = true := by
      refine initialise_starts env g _ b4 good hi hsvd d1.rel m0 m (by rw [d2, hl]; rfl) (by rw [hext]; exact hex) ids i1 i2 (by rw [hext]; exact i3) hgood.differ ?_
      show ∃ q, b1.att.getAttitude m0.ts (TimeOps.mul b1.loader.imuPeriod (TimeOps.tlit (55/100))) = .ok (some q) ∧ q.sqNorm = 1
      rw [k1]
      have h2 : 2 ≤ b1.att.items.length := by
        have := hgood.two
        rw [← htimes, List.length_map] at this
        exact this
      obtain ⟨x, hx, hxn⟩ := C25_nearest b1.att m0.ts (TimeOps.mul b.loader.imuPeriod (TimeOps.tlit (55/100))) hsort h2
      obtain ⟨q, hq⟩ := (C25_success_iff b1.att m0.ts (TimeOps.mul b.loader.imuPeriod (TimeOps.tlit (55/100))) hsort h2).2 (by
        obtain ⟨t, ht, ht2⟩ := hgood.near
        rw [← htimes] at ht
        obtain ⟨it, hit, rfl⟩ := List.mem_map.1 ht
        exact ⟨it, hit, ht2⟩)
      rw [hx] at hq
      cases hq
      obtain ⟨it, j1, j2, -⟩ := hxn
      exact ⟨q, hx, by rw [← j2]; exact hu1 it j1⟩
    rw [hg] at t1
    cases t1
    rfl
  -- the update in the same call
  have i1 : (b1.setWin (b1.u.w.insert m)).u.w.frm.frames.length = b1.u.w.frm.frames.length + 1 := (insert_length b1.u.w m).1
  have hlen : b1.u.w.frm.frames.length = 1 := by rw [k3, h.rel.len, hl]; rfl
  obtain ⟨s1, s2, -, s4, s5, -, s7⟩ := tryInit_any env g _ b2 t1 (by omega)
  have hper2 : b2.loader.imuPeriod = b.loader.imuPeriod := by
    rw [(tryInit_keep _ _ _ _ t1).1]; exact k1
  have hq2 : times b2.u.q.items = b2.att.items.map (·.ts) := by
    rcases s7 hb2 with ⟨hc, -⟩ | ⟨-, -, s7⟩
    · have : (b1.setWin (b1.u.w.insert m)).status = .needInit := k2
      rw [this] at hc
      cases hc
    · have : (b1.setWin (b1.u.w.insert m)).u.q.items = [] := (hst1.idle k2).2
      rw [s7, this]
      rfl
  obtain ⟨-, -, -, -, u5, -⟩ := tryUpdate_any env g b2 b3 m.ts t2 s2 (by have : two32 = 4294967296 := rfl; omega)
  obtain ⟨v1, v2, -⟩ := cleanAtt_any _ _ t3
  have u5 := u5 hb2
  rw [← v1] at u5
  cases hb : b'.status with
  | initialized => rfl
  | needInit =>
    exfalso
    rw [(hst.idle hb).2] at u5
    have hall := (reset_nil_iff b2.u.q m.ts b2.loader.imuPeriod).1 (List.map_eq_nil_iff.1 u5.symm)
    rw [hq2, hper2] at hall
    have hne1 : b1.att.items ≠ [] := by
      intro hc
      have := hgood.two
      rw [← htimes, hc] at this
      simp at this
    obtain ⟨z, hz⟩ := Option.ne_none_iff_exists'.1 (mt List.getLast?_eq_none_iff.1 hne1)
    have hz2 : b2.att.items.getLast? = some z := s5.trans hz
    have hzt := hall z.ts (List.mem_map.2 ⟨z, List.mem_of_getLast? hz2, rfl⟩)
    obtain ⟨t, ht, ht2⟩ := hgood.recent
    rw [← htimes] at ht
    obtain ⟨x, hx, rfl⟩ := List.mem_map.1 ht
    exact absurd (lt_of_lt_of_le hzt (TimeLaws.sub_le_sub_right _ _ _ (sorted_le_last _ hsort z hz x hx))) (not_lt.2 ht2)

/-! ### Histories -/

/-- What holds after every good history with IMU samples in time order: `l` is what the window holds, `fut` are the times of the samples to come. -/
structure Reached (nc N U : Nat) (l : Log ℝ T) (fut : List T) (p : BProc ℝ T) : Prop where
  stable : Stable False nc N U l p.b
  unit : UnitAtt p.b
  time : TimeInv p.b
  ord : OrdInv fut p.b
  period : TimeOps.tlit 0 ≤ p.b.loader.imuPeriod
  half : TimeOps.mul p.b.loader.imuPeriod (TimeOps.tlit (55/100)) ≤ p.b.loader.imuPeriod

/-- A call that is no image. -/
def NoImageCall (p : BProc ℝ T) (op : BOp ℝ T) : Prop := ∀ env, op = .run env → p.b.loader.popOne.out.featMeas = none

/-- No call of the history handles an image. -/
def NoImage : BProc ℝ T → List (BOp ℝ T) → Prop
  | _, [] => True
  | p, op :: ops => NoImageCall p op ∧ ∀ p' o, p.step op = .ok (p', o) → NoImage p' ops

theorem reached_step {nc N U : Nat} (hfit : Fits nc (max 1 N + 1) U) {l : Log ℝ T} {p p' : BProc ℝ T} {op : BOp ℝ T} {ops : List (BOp ℝ T)} {o : BOut ℝ T}
    (h : Reached nc N U l (imuTimes (op :: ops)) p) (hc : CallOk nc p op) (hord : (imuTimes (op :: ops)).Pairwise (· ≤ ·)) (hn : ∀ t ∈ imuTimes (op :: ops), TimeOps.isNaN t = false)
    (hs : p.step op = .ok (p', o)) : ∃ l', Reached nc N U l' (imuTimes ops) p' ∧ (NoImageCall p op → l' = l ∧ p'.b.status = p.b.status) ∧
      ∀ env m, op = .run env → p.b.loader.popOne.out.featMeas = some m → p'.b.status = .needInit → l'.msgs = [m] := by
  have hN := hfit.cols
  cases op with
  | run env =>
    obtain ⟨⟨r, b'⟩, hb', e⟩ := Res.bind_eq_ok.1 hs
    cases e
    have hbd : Bounded N p.b := ⟨h.stable.size, by rw [h.stable.rel.len]; exact h.stable.len⟩
    have hlt : p.b.u.w.frm.frames.length + 1 < two32 := by have := hbd.2; omega
    obtain ⟨t1, t2, -⟩ := runOnce_time env p.g N (by omega) _ p.b b' r hbd h.time h.ord hb'
    have hu := runOnce_unit env p.g p.b b' r hb' hlt h.unit
    have hper : b'.loader.imuPeriod = p.b.loader.imuPeriod := by rw [runOnce_loader _ _ _ _ _ hb', pop_period]
    have h0 : TimeOps.tlit 0 ≤ b'.loader.imuPeriod := by rw [hper]; exact h.period
    have h1 : TimeOps.mul b'.loader.imuPeriod (TimeOps.tlit (55/100)) ≤ b'.loader.imuPeriod := by rw [hper]; exact h.half
    cases hf : p.b.loader.popOne.out.featMeas with
    | none =>
      have key : Stable False nc N U l b' ∧ b'.status = p.b.status := by
        rcases runOnce_eq env p.g p.b b' r hb' with ⟨-, -, rfl⟩ | ⟨-, res, b1, e1, e2⟩
        · exact ⟨stable_loader h.stable _, rfl⟩
        · rcases e2 with ⟨-, -, rfl⟩ | ⟨m, q1, -⟩
          · obtain ⟨r1, b1', e1', hst1, -⟩ := onImu_ok False p.g p.b.loader.popOne.out.imuMeas (stable_loader h.stable p.b.loader.popOne.loader) (fun hc => hc.elim)
            rw [e1] at e1'
            cases e1'
            exact ⟨hst1, (onImu_keep _ _ _ _ _ e1).2.1⟩
          · rw [hf] at q1; cases q1
      exact ⟨l, ⟨key.1, hu, t1, t2, h0, h1⟩, fun _ => ⟨rfl, key.2⟩, fun _ m _ hm => by cases hm⟩
    | some m =>
      obtain ⟨l2, h2, hb1⟩ := stable_base h.stable
      obtain ⟨r', b2, l', e, hst, -, -, x1, -⟩ := runOnce_ok False env p.g h2 hfit h.period h.half (callOk_msg h2 hb1 env hc) (fun hc => hc.elim)
      rw [hb'] at e
      cases e
      refine ⟨l', ⟨hst, hu, t1, t2, h0, h1⟩, fun hno => ?_, ?_⟩
      · have := hno env rfl
        rw [hf] at this
        cases this
      · intro env' m' _ hm hst'
        cases hm
        obtain ⟨y1, y2⟩ := x1 m hf
        have y2 := y2 hst'
        obtain ⟨z, hz⟩ := List.length_eq_one_iff.1 y2
        rw [hz] at y1 ⊢
        simpa using y1
  | imu m =>
    cases hs
    obtain ⟨hp1, -⟩ := List.pairwise_cons.1 hord
    exact ⟨l, ⟨stable_loader h.stable _, h.unit, ⟨h.time.last, h.time.ne⟩, OrdInv.pushImu m h.ord hp1 (hn m.ts (by simp [imuTimes])) p.statics, h.period, h.half⟩,
      fun _ => ⟨rfl, rfl⟩, fun _ _ e => by cases e⟩
  | feat m =>
    cases hs
    have hp : (p.b.loader.pushFeatures p.statics m).loader.imuPeriod = p.b.loader.imuPeriod := push_period _ _ _
    exact ⟨l, ⟨stable_loader h.stable _, h.unit, ⟨h.time.last, h.time.ne⟩, OrdInv.pushFeatures m h.ord p.statics, by dsimp only; rw [hp]; exact h.period, by dsimp only; rw [hp]; exact h.half⟩,
      fun _ => ⟨rfl, rfl⟩, fun _ _ e => by cases e⟩
  | runTest =>
    cases hs
    exact ⟨l, ⟨stable_loader h.stable _, h.unit, ⟨h.time.last, h.time.ne⟩, h.ord.pop, by dsimp only [runOnceTest]; rw [pop_period]; exact h.period,
      by dsimp only [runOnceTest]; rw [pop_period]; exact h.half⟩, fun _ => ⟨rfl, rfl⟩, fun _ _ e => by cases e⟩
  | publishPropagate =>
    obtain ⟨_, _, e⟩ := Res.bind_eq_ok.1 hs
    cases e
    exact ⟨l, h, fun _ => ⟨rfl, rfl⟩, fun _ _ e => by cases e⟩
  | publishUpdate =>
    obtain ⟨_, _, e⟩ := Res.bind_eq_ok.1 hs
    cases e
    exact ⟨l, h, fun _ => ⟨rfl, rfl⟩, fun _ _ e => by cases e⟩
  | reset => exact hc.elim

theorem reached_run {nc N U : Nat} (hfit : Fits nc (max 1 N + 1) U) (later ops : List (BOp ℝ T)) : ∀ {l : Log ℝ T} {p p' : BProc ℝ T} {outs : List (BOut ℝ T)},
    Reached nc N U l (imuTimes (ops ++ later)) p → GoodRun nc p ops → (imuTimes (ops ++ later)).Pairwise (· ≤ ·) → (∀ t ∈ imuTimes (ops ++ later), TimeOps.isNaN t = false) →
    p.run ops = .ok (p', outs) → ∃ l', Reached nc N U l' (imuTimes later) p' ∧ (NoImage p ops → l' = l ∧ p'.b.status = p.b.status) := by
  induction ops with
  | nil => intro l p p' outs h _ _ _ e; cases e; exact ⟨l, h, fun _ => ⟨rfl, rfl⟩⟩
  | cons op ops ih =>
    intro l p p' outs h hg hord hn e
    rw [BProc.run] at e
    obtain ⟨⟨p1, o1⟩, e1, e⟩ := Res.bind_eq_ok.1 e
    obtain ⟨⟨p2, os⟩, e2, e⟩ := Res.bind_eq_ok.1 e
    cases e
    obtain ⟨l1, h1, hno, -⟩ := reached_step hfit h hg.1 hord hn e1
    have hsub : (imuTimes (ops ++ later)).Sublist (imuTimes (op :: ops ++ later)) := by
      cases op <;> first | exact List.Sublist.refl _ | exact List.sublist_cons_self _ _
    obtain ⟨l2, h2, hno2⟩ := ih h1 (hg.2 p1 o1 e1) (hord.sublist hsub) (fun t ht => hn t (hsub.subset ht)) e2
    refine ⟨l2, h2, fun hq => ?_⟩
    obtain ⟨x1, x2⟩ := hno hq.1
    obtain ⟨y1, y2⟩ := hno2 (hq.2 p1 o1 e1)
    exact ⟨y1.trans x1, y2.trans x2⟩

theorem imuTimes_append (a b : List (BOp ℝ T)) : imuTimes (a ++ b) = imuTimes a ++ imuTimes b := by
  induction a with
  | nil => rfl
  | cons op a ih => cases op <;> simp [imuTimes, ih]

theorem GoodRun.prefix {nc : Nat} (a b : List (BOp ℝ T)) : ∀ p : BProc ℝ T, GoodRun nc p (a ++ b) → GoodRun nc p a := by
  induction a with
  | nil => intro p _; trivial
  | cons op a ih => exact fun p h => ⟨h.1, fun p' o e => ih p' (h.2 p' o e)⟩

theorem fresh_reached (p : BProc ℝ T) (fut : List T) (hf : Fresh p.b) (hr : Ready p.b) :
    Reached p.b.u.w.frm.extrinsics.length p.b.u.w.frm.maxWindowSize p.b.maxUsed Log.empty fut p := by
  refine ⟨fresh_stable p.b hf hr, ?_, ⟨?_, ?_⟩, ⟨?_, ?_, ?_, ?_⟩, hr.period, hr.half⟩
  · unfold UnitAtt; rw [hf.att]; simp
  · rw [hf.states]; simp
  · rw [hf.status]; exact (nomatch ·)
  · rw [hf.imu]; exact .nil
  · rw [hf.att]; simp
  · rw [hf.att, hf.imu]; simp
  · exact fun _ => ⟨hf.imu, hf.att⟩

/-- C120.  Two successive good images start the filter.  A good history from a fresh backend, IMU samples in time order; some call handles image `m0` and leaves the filter idle, whatever
came before; then, with no image in between, a call handles image `m`.  If the attitude filter has started and the pair is good, then the filter runs after that call.  Exact arithmetic; the
decomposition used by the triangulation meets its specification. -/
theorem C120_second_image (p p1 p2 p3 p4 : BProc ℝ T) (a mid : List (BOp ℝ T)) (env0 env : Env ℝ) (o1 o3 : List (BOut ℝ T)) (o2 o4 : BOut ℝ T) (m0 m : FeatMsg ℝ T)
    (hf : Fresh p.b) (hr : Ready p.b) (hg : GoodRun p.b.u.w.frm.extrinsics.length p (a ++ .run env0 :: (mid ++ [.run env])))
    (hord : (imuTimes (a ++ .run env0 :: (mid ++ [.run env]))).Pairwise (· ≤ ·)) (hn : ∀ t ∈ imuTimes (a ++ .run env0 :: (mid ++ [.run env])), TimeOps.isNaN t = false)
    (ha : p.run a = .ok (p1, o1)) (h0 : p1.b.loader.popOne.out.featMeas = some m0) (h12 : p1.step (.run env0) = .ok (p2, o2)) (hs : p2.b.status = .needInit)
    (hmid : p2.run mid = .ok (p3, o3)) (hno : NoImage p2 mid) (hm : p3.b.loader.popOne.out.featMeas = some m) (h34 : p3.step (.run env) = .ok (p4, o4))
    (hatt : p3.b.att.items ≠ []) (hex : ∀ e ∈ p3.b.u.w.frm.extrinsics, e.q.sqNorm = 1) (hsvd : ∀ x, IsLastSingular x (env.ext.svdLast x))
    (hgood : GoodPair p3.b.u.w.frm.extrinsics p3.b.loader.imuPeriod (attTimes p3.b) m0 m) : p4.b.status = .initialized := by
  obtain ⟨g1, g2, -⟩ := GoodRun.split a _ p p1 o1 hg ha
  obtain ⟨l1, r1, -⟩ := reached_run hr.fits (.run env0 :: (mid ++ [.run env])) a (fresh_reached p _ hf hr) g1 hord hn ha
  have hsub : (imuTimes (mid ++ [.run env])).Sublist (imuTimes (a ++ .run env0 :: (mid ++ [.run env]))) := by
    rw [imuTimes_append a]
    exact List.sublist_append_right _ (imuTimes (.run env0 :: (mid ++ [.run env])))
  have hord' := hord.sublist hsub
  have hn' : ∀ t ∈ imuTimes (mid ++ [.run env]), TimeOps.isNaN t = false := fun t ht => hn t (hsub.subset ht)
  obtain ⟨l2, r2, -, hl2⟩ := reached_step (op := BOp.run env0) (ops := mid ++ [BOp.run env]) hr.fits r1 g2.1 hord' hn' h12
  have hl2 := hl2 env0 m0 rfl h0 hs
  have g3 := g2.2 p2 o2 h12
  obtain ⟨g4, g5, -⟩ := GoodRun.split mid _ p2 p3 o3 g3 hmid
  obtain ⟨l3, r3, hq⟩ := reached_run hr.fits [.run env] mid r2 g4 hord' hn' hmid
  obtain ⟨rfl, q2⟩ := hq hno
  obtain ⟨⟨r, b'⟩, hb', e⟩ := Res.bind_eq_ok.1 h34
  cases e
  refine second_image env p3.g r3.stable hr.fits r3.period r3.half (callOk_msg r3.stable (by rw [hl2]; exact (nomatch ·)) env g5.1) (q2.trans hs) r3.unit hex hsvd m0 m hl2 hm ?_ hatt hgood hb'
  intro s hs' x hx
  exact r3.ord.att x hx s (by rw [← (popOne_imu p3.b.loader).1]; simp [hs'])

/-- C120 and C119 together: if moreover every image comes after an IMU sample that is not newer and at most the IMU period older, the filter runs from the second good image to the end. -/
theorem C120_runs_on (p p1 p2 p3 p4 p5 : BProc ℝ T) (a mid later : List (BOp ℝ T)) (env0 env : Env ℝ) (o1 o3 o5 : List (BOut ℝ T)) (o2 o4 : BOut ℝ T) (m0 m : FeatMsg ℝ T)
    (hf : Fresh p.b) (hr : Ready p.b) (hg : GoodRun p.b.u.w.frm.extrinsics.length p (a ++ .run env0 :: (mid ++ .run env :: later)))
    (hord : (imuTimes (a ++ .run env0 :: (mid ++ .run env :: later))).Pairwise (· ≤ ·)) (hn : ∀ t ∈ imuTimes (a ++ .run env0 :: (mid ++ .run env :: later)), TimeOps.isNaN t = false)
    (hnan : TimeOps.isNaN p.b.loader.offset = false) (hper : TimeOps.tlit 0 < p.b.loader.imuPeriod)
    (h1 : ∀ t ∈ imuTimes (a ++ .run env0 :: (mid ++ .run env :: later)), TimeOps.sub (TimeOps.sub t p.b.loader.offset) (TimeOps.tlit 1) < TimeOps.sub t p.b.loader.offset)
    (hlast : ∀ y, p.statics.lastImu = some y → ∀ t ∈ imuTimes (a ++ .run env0 :: (mid ++ .run env :: later)), y < TimeOps.sub t p.b.loader.offset)
    (hnt : ∀ op ∈ a ++ .run env0 :: (mid ++ .run env :: later), op ≠ .runTest) (hsv : Served p.b.loader.offset p.b.loader.imuPeriod [] (a ++ .run env0 :: (mid ++ .run env :: later)))
    (ha : p.run a = .ok (p1, o1)) (h0 : p1.b.loader.popOne.out.featMeas = some m0) (h12 : p1.step (.run env0) = .ok (p2, o2)) (hs : p2.b.status = .needInit)
    (hmid : p2.run mid = .ok (p3, o3)) (hno : NoImage p2 mid) (hm : p3.b.loader.popOne.out.featMeas = some m) (h34 : p3.step (.run env) = .ok (p4, o4))
    (hatt : p3.b.att.items ≠ []) (hex : ∀ e ∈ p3.b.u.w.frm.extrinsics, e.q.sqNorm = 1) (hsvd : ∀ x, IsLastSingular x (env.ext.svdLast x))
    (hgood : GoodPair p3.b.u.w.frm.extrinsics p3.b.loader.imuPeriod (attTimes p3.b) m0 m) (h5 : p4.run later = .ok (p5, o5)) : p5.b.status = .initialized := by
  have hst := C119_stays p _ hf hr hg hnan hper hord hn h1 hlast hnt hsv
  have hst := (Stays.tail a _ p p1 o1 hst ha p2 o2 h12).2
  have hst := (Stays.tail mid _ p2 p3 o3 hst hmid p4 o4 h34).2
  have e : a ++ .run env0 :: (mid ++ .run env :: later) = (a ++ .run env0 :: (mid ++ [.run env])) ++ later := by simp
  rw [e] at hg hord hn
  have hsub : (imuTimes (a ++ .run env0 :: (mid ++ [.run env]))).Sublist (imuTimes ((a ++ .run env0 :: (mid ++ [.run env])) ++ later)) := by
    rw [imuTimes_append (a ++ _) later]
    exact List.sublist_append_left _ _
  exact Stays.run later p4 p5 o5 hst (C120_second_image p p1 p2 p3 p4 a mid env0 env o1 o3 o2 o4 m0 m hf hr (GoodRun.prefix _ _ p hg) (hord.sublist hsub) (fun t ht => hn t (hsub.subset ht))
    ha h0 h12 hs hmid hno hm h34 hatt hex hsvd hgood) h5

end Time

/-! ### A concrete case: a body at rest with two cameras that sees ten features at `(0, 0, 2)` -/

/-- The first image leaves the filter idle, and keeps the extrinsics and the newest attitude. -/
theorem first_image (env : Env ℝ) (g : Vec3 ℝ) (b b' : Backend ℝ T) (m : FeatMsg ℝ T) (hs : b.status = .needInit) (h0 : b.u.w.frm.frames = []) (hl : m.ids.length = m.observes.length)
    (h : b.onFeat env g m = .ok b') : b'.status = .needInit ∧ b'.u.w.frm.extrinsics = b.u.w.frm.extrinsics ∧ b'.att.items.getLast? = b.att.items.getLast? := by
  refine ⟨?_, ?_, onFeat_last env g b b' m h (by rw [h0]; show 0 + 1 < two32; decide)⟩
  all_goals
    obtain ⟨b1, b2, t1, t2, t3⟩ := onFeat_eq env g b b' m h
    have i1 : (b.setWin (b.u.w.insert m)).u.w.frm.frames.length = b.u.w.frm.frames.length + 1 := (insert_length b.u.w m).1
    obtain ⟨-, -, -, -, -, -, k⟩ := tryInit_keep env g _ b1 t1
    have hs1 : b1.status = .needInit := by
      cases hc : b1.status with
      | needInit => rfl
      | initialized =>
        have := (k hs hc).1
        rw [i1, h0] at this
        simp at this
    unfold tryUpdate at t2
    rw [hs1] at t2
    cases t2
    obtain ⟨v1, v2, -⟩ := cleanAtt_any _ _ t3
  · rw [v2, hs1]
  · rw [v1, tryInit_ext env g _ b1 t1]
    show (b.u.w.insert m).frm.extrinsics = _
    rw [insert_eq b.u.w m hl]

/-- The configured filter. -/
noncomputable def exStart : Backend ℝ ℝ :=
  let b : Backend ℝ ℝ := init ⟨0, 0, .one⟩
  { b with
    loader := { b.loader with imuPeriod := 1/10 }
    u := { b.u with
      q := { PropQueue.init ⟨0, 0, .one⟩ with Q := PropQueue.noiseMatrix 1 2 3 4, biasA := 0, biasG := 0 }
      w := { b.u.w with frm := { b.u.w.frm with extrinsics := [⟨.one, 0⟩, ⟨.one, ⟨1, 0, 0⟩⟩], maxWindowSize := 2 } } }
    mounted := true }

/-- Its image. -/
noncomputable def exStartMsg (t : ℝ) : FeatMsg ℝ ℝ := ⟨List.range 10, List.replicate 10 exRestObs, t⟩

/-- A sample at rest, with the body tilted. -/
noncomputable def exStartImu (t : ℝ) : ImuMsg ℝ ℝ := ⟨0, ⟨6, 0, 8⟩, t⟩

/-- The history: two images and another sample. -/
noncomputable def exStartOps (env : Env ℝ) : List (BOp ℝ ℝ) :=
  [.imu (exStartImu 0), .run env, .imu (exStartImu 1), .feat (exStartMsg 1)] ++ .run env :: ([.imu (exStartImu 2), .feat (exStartMsg 2)] ++ .run env :: [.imu (exStartImu 3), .run env])

theorem exStart_obs : StereoExact [⟨.one, 0⟩, ⟨.one, ⟨1, 0, 0⟩⟩] exRestObs := by
  refine ⟨⟨0, 0, 2⟩, by norm_num [Vec3.sqNorm], ?_, 0, _, 1, _, _, _, List.mem_cons_self, List.mem_cons_of_mem _ List.mem_cons_self, rfl, rfl, ?_⟩
  · intro c n hc e he
    have : (c, n) = (0, ⟨0, 0⟩) ∨ (c, n) = (1, Triang.exN 2) := by simpa [exRestObs] using hc
    rcases this with hc | hc
    · cases hc
      obtain rfl : e = ⟨.one, 0⟩ := by simpa using he.symm
      simp [ExactObs, depth, Quat.one, Quat.inverse, Quat.rotate, Quat.sqNorm, Quat.vec]
    · cases hc
      obtain rfl : e = ⟨.one, ⟨1, 0, 0⟩⟩ := by simpa using he.symm
      simp [ExactObs, depth, Triang.exN, Quat.one, Quat.inverse, Quat.rotate, Quat.sqNorm, Quat.vec]
  · intro h
    have := congrArg Vec3.y h
    norm_num [Vec3.cross] at this

theorem exStart_report (t : ℝ) : ∀ id ∈ List.range 10, report (exStartMsg t) id = some exRestObs := by
  intro id hid
  have : id < 10 := by simpa using hid
  unfold report exStartMsg
  interval_cases id <;> rfl

theorem ex_pushImu (l : Loader ℝ ℝ) (st : LoaderStatics ℝ) (t : ℝ) (ho : l.offset = -1) (hl : st.lastImu.getD t < t + 1) :
    (l.pushImu st (exStartImu t)).loader = { l with imuMeas := l.imuMeas ++ [exStartImu (t + 1)] } ∧ (l.pushImu st (exStartImu t)).statics = { st with lastImu := some (t + 1) } := by
  have e1 : TimeOps.sub t (-1 : ℝ) = t + 1 := by show t - -1 = t + 1; ring
  have e2 : TimeOps.sub (t + 1) (TimeOps.tlit 1 : ℝ) = t := by show t + 1 - ((1 : ℚ) : ℝ) = t; push_cast; ring
  have e3 : (if TimeOps.isNaN l.offset then t else l.offset) = -1 := by rw [ho]; rfl
  have hlt : TimeOps.lt (st.lastImu.getD t) (t + 1) = true := (TimeLaws.lt_iff _ _).2 hl
  unfold Loader.pushImu exStartImu
  dsimp only
  rw [e3, e1, e2, if_pos hlt, ← ho]
  exact ⟨rfl, rfl⟩

theorem ex_pushFeat (l : Loader ℝ ℝ) (st : LoaderStatics ℝ) (t : ℝ) (ho : l.offset = -1) (hl : st.lastFeat.getD t < t + 1) :
    (l.pushFeatures st (exStartMsg t)).loader = { l with featMeas := l.featMeas ++ [exStartMsg (t + 1)] } ∧ (l.pushFeatures st (exStartMsg t)).statics = { st with lastFeat := some (t + 1) } := by
  have e1 : TimeOps.sub t (-1 : ℝ) = t + 1 := by show t - -1 = t + 1; ring
  have e2 : TimeOps.sub (t + 1) (TimeOps.tlit 1 : ℝ) = t := by show t + 1 - ((1 : ℚ) : ℝ) = t; push_cast; ring
  have e3 : (if TimeOps.isNaN l.offset then t else l.offset) = -1 := by rw [ho]; rfl
  have hlt : TimeOps.lt (st.lastFeat.getD t) (t + 1) = true := (TimeLaws.lt_iff _ _).2 hl
  unfold Loader.pushFeatures exStartMsg
  dsimp only
  rw [if_neg (by simp), e3, e1, e2, if_pos hlt, ← ho]
  exact ⟨rfl, rfl⟩

theorem ex_runImu (env : Env ℝ) (g : Vec3 ℝ) (b b' : Backend ℝ ℝ) (r : Bool) (s : ImuMsg ℝ ℝ) (hs : b.status = .needInit) (h1 : b.loader.imuMeas = [s]) (h2 : b.loader.featMeas = [])
    (h : b.runOnce env g = .ok (r, b')) : b' = { b with loader := { b.loader with imuMeas := [] }, att := (b.att.propagate g s.accel s.gyro s.ts).1 } := by
  unfold runOnce at h
  have hp : b.loader.popOne = ⟨{ b.loader with imuMeas := [] }, ⟨none, [s]⟩, true, false⟩ := by
    unfold Loader.popOne
    rw [h1, h2]
    dsimp only
    rw [h2]
  rw [hp] at h
  dsimp only at h
  rw [if_pos rfl, onImu] at h
  dsimp only at h
  rw [hs] at h
  cases h
  simp [hs]

theorem ex_popBoth (l : Loader ℝ ℝ) (s : ImuMsg ℝ ℝ) (m : FeatMsg ℝ ℝ) (h1 : l.imuMeas = [s]) (h2 : l.featMeas = [m]) (ht : m.ts = s.ts) (hp : 0 < l.imuPeriod) :
    l.popOne.out = ⟨some m, [s]⟩ ∧ l.popOne.loader = { l with featMeas := [], imuMeas := [] } ∧ l.popOne.ret = true := by
  unfold Loader.popOne
  rw [h1, h2]
  dsimp only
  have e1 : TimeOps.le m.ts s.ts = true := (TimeLaws.le_iff _ _).2 ht.le
  have e2 : TimeOps.lt (TimeOps.fabs (TimeOps.sub m.ts s.ts)) l.imuPeriod = true := by
    refine (TimeLaws.lt_iff _ _).2 ?_
    show |m.ts - s.ts| < l.imuPeriod
    rw [ht, sub_self, abs_zero]
    exact hp
  rw [if_pos e1, if_pos e2]
  exact ⟨rfl, rfl, rfl⟩

theorem run_cons (op : BOp ℝ ℝ) (ops : List (BOp ℝ ℝ)) (p p' : BProc ℝ ℝ) (outs : List (BOut ℝ ℝ)) (h : p.run (op :: ops) = .ok (p', outs)) :
    ∃ p1 o os, p.step op = .ok (p1, o) ∧ p1.run ops = .ok (p', os) := by
  rw [BProc.run] at h
  obtain ⟨⟨p1, o⟩, h1, h⟩ := Res.bind_eq_ok.1 h
  obtain ⟨⟨p2, os⟩, h2, h⟩ := Res.bind_eq_ok.1 h
  cases h
  exact ⟨p1, o, os, h1, h2⟩

theorem ex_stepImu (p p1 : BProc ℝ ℝ) (o : BOut ℝ ℝ) (t : ℝ) (h : p.step (.imu (exStartImu t)) = .ok (p1, o)) (ho : p.b.loader.offset = -1) (hl : p.statics.lastImu.getD t < t + 1) :
    p1 = ⟨{ p.statics with lastImu := some (t + 1) }, p.g, { p.b with loader := { p.b.loader with imuMeas := p.b.loader.imuMeas ++ [exStartImu (t + 1)] } }⟩ := by
  obtain ⟨x1, x2⟩ := ex_pushImu p.b.loader p.statics t ho hl
  rw [BProc.step] at h
  dsimp only at h
  rw [x1, x2] at h
  cases h
  rfl

theorem ex_stepFeat (p p1 : BProc ℝ ℝ) (o : BOut ℝ ℝ) (t : ℝ) (h : p.step (.feat (exStartMsg t)) = .ok (p1, o)) (ho : p.b.loader.offset = -1) (hl : p.statics.lastFeat.getD t < t + 1) :
    p1 = ⟨{ p.statics with lastFeat := some (t + 1) }, p.g, { p.b with loader := { p.b.loader with featMeas := p.b.loader.featMeas ++ [exStartMsg (t + 1)] } }⟩ := by
  obtain ⟨x1, x2⟩ := ex_pushFeat p.b.loader p.statics t ho hl
  rw [BProc.step] at h
  dsimp only at h
  rw [x1, x2] at h
  cases h
  rfl

theorem ex_stepRun (p p1 : BProc ℝ ℝ) (o : BOut ℝ ℝ) (env : Env ℝ) (h : p.step (.run env) = .ok (p1, o)) : p1.statics = p.statics ∧ p1.g = p.g ∧ ∃ r, p.b.runOnce env p.g = .ok (r, p1.b) := by
  rw [BProc.step] at h
  obtain ⟨⟨r, b⟩, h1, h⟩ := Res.bind_eq_ok.1 h
  cases h
  exact ⟨rfl, rfl, r, h1⟩

theorem ex_att0 : ∃ it : AttItem ℝ ℝ, (exStart.att.propagate ⟨0, 0, 10⟩ ⟨6, 0, 8⟩ 0 1).1.items = [it] ∧ it.ts = 1 := by
  have e : (⟨6, 0, 8⟩ : Vec3 ℝ) - exStart.att.biasA = ⟨6, 0, 8⟩ := by
    refine Vec3.ext_iff.2 ⟨?_, ?_, ?_⟩ <;> simp [exStart, init, Att.init]
  have n : (⟨6, 0, 8⟩ : Vec3 ℝ).norm = (⟨0, 0, 10⟩ : Vec3 ℝ).norm := by
    show ScalarFn.sqrt _ = ScalarFn.sqrt _
    congr 1
    norm_num [Vec3.sqNorm, Vec3.dot]
  unfold Att.propagate
  rw [show exStart.att.items.getLast? = none from rfl]
  dsimp only
  rw [e, n, if_neg]
  · exact ⟨_, rfl, rfl⟩
  · rw [TimeLaws.lt_iff, sub_self]
    show ¬ ((4 / 100 : ℚ) : ℝ) < |(0 : ℝ)|
    norm_num

theorem ex_att1 (s : Att ℝ ℝ) (g a w : Vec3 ℝ) (t : ℝ) (it : AttItem ℝ ℝ) (h : s.items.getLast? = some it) (ht : it.ts ≤ t) :
    ∃ it' : AttItem ℝ ℝ, (s.propagate g a w t).1.items = s.items ++ [it'] ∧ it'.ts = t := by
  unfold Att.propagate
  rw [h]
  dsimp only
  rw [if_neg (by rw [TimeLaws.lt_iff]; exact not_lt.2 ht)]
  exact ⟨_, rfl, rfl⟩

theorem ex_firstRun (env : Env ℝ) (g : Vec3 ℝ) (b b' : Backend ℝ ℝ) (r : Bool) (s : ImuMsg ℝ ℝ) (t : ℝ) (it : AttItem ℝ ℝ) (h1 : b.loader.imuMeas = [s]) (h2 : b.loader.featMeas = [exStartMsg t])
    (ht : t = s.ts) (hp : 0 < b.loader.imuPeriod) (hs : b.status = .needInit) (h0 : b.u.w.frm.frames = []) (ha : b.att.items.getLast? = some it) (hi : it.ts ≤ s.ts)
    (h : b.runOnce env g = .ok (r, b')) : b'.loader = { b.loader with featMeas := [], imuMeas := [] } ∧ b.loader.popOne.out.featMeas = some (exStartMsg t) ∧ b'.status = .needInit ∧
      b'.u.w.frm.extrinsics = b.u.w.frm.extrinsics ∧ ∃ it', b'.att.items.getLast? = some it' ∧ it'.ts = s.ts := by
  obtain ⟨y1, y2, y3⟩ := ex_popBoth b.loader s (exStartMsg t) h1 h2 ht hp
  refine ⟨(runOnce_loader env g b b' r h).trans y2, by rw [y1], ?_⟩
  rcases runOnce_eq env g b b' r h with ⟨z, -, -⟩ | ⟨-, res, c1, z1, z2⟩
  · rw [y3] at z; cases z
  · rw [y1] at z1 z2
    obtain ⟨-, k1, k2, -⟩ := onImu_keep _ _ _ _ _ z1
    have k3 : ∃ it', c1.att.items.getLast? = some it' ∧ it'.ts = s.ts := by
      rcases onImu_att _ _ _ _ _ z1 with ⟨z, -⟩ | ⟨q, q', z, z3⟩
      · cases z
      · cases z
        obtain ⟨it', w1, w2⟩ := ex_att1 b.att g s.accel s.gyro s.ts it ha hi
        exact ⟨it', by rw [z3]; show ((b.att.propagate _ _ _ _).1.items).getLast? = _; rw [w1]; simp, w2⟩
    rcases z2 with ⟨z, -⟩ | ⟨m', z, -, z4⟩
    · cases z
    · cases z
      obtain ⟨v1, v2, v3⟩ := first_image env g c1 b' (exStartMsg t) (k1.trans hs) (by rw [k2]; exact h0) (by simp [exStartMsg]) z4
      exact ⟨v1, by rw [v2, k2], by rw [v3]; exact k3⟩

/-- The process. -/
noncomputable def exStartProc : BProc ℝ ℝ := ⟨{}, ⟨0, 0, 10⟩, exStart⟩

/-- C120: the history meets the hypotheses of `C120_runs_on`, hence those of `C120_second_image`; the filter runs after the second image. -/
example : ∃ env : Env ℝ, ∃ p' outs, exStartProc.run (exStartOps env) = .ok (p', outs) ∧ p'.b.status = .initialized := by
  obtain ⟨env, hsvd, -⟩ := exRest_env
  refine ⟨env, ?_⟩
  have hf : Fresh exStartProc.b := ⟨rfl, rfl, rfl, rfl, rfl, rfl, rfl⟩
  have hr : Ready exStartProc.b := by
    refine ⟨rfl, ?_, ?_, ⟨by decide, by decide, by decide⟩⟩
    · show (((0 : ℚ) : ℝ)) ≤ 1 / 10; norm_num
    · show (1 / 10 : ℝ) * ((55 / 100 : ℚ) : ℝ) ≤ 1 / 10; norm_num
  have hg : GoodRun 2 exStartProc (exStartOps env) := by
    refine tracker_goodRun exStartProc (exStartOps env) hf hr ?_ ?_ ?_ (by show 2 + 1 < two32; decide)
    · intro op hop h; subst h; revert hop; simp [exStartOps]
    · intro m hm
      have : m = exStartMsg 1 ∨ m = exStartMsg 2 := by simpa [exStartOps, featMsgs] using hm
      have ho : ∀ t, MsgOk 2 (exStartMsg t) := by
        intro t
        refine ⟨by show (List.range 10).Nodup; decide, by simp [exStartMsg], ?_⟩
        intro o ho
        obtain rfl : o = exRestObs := by simpa [exStartMsg] using ho
        simp [exRestObs]
      rcases this with rfl | rfl <;> exact ho _
    · intro x y z h
      have := h.length_le
      simp [exStartOps, featMsgs] at this
  obtain ⟨p', outs, h⟩ := C68_no_ub_partial exStartProc (exStartOps env) hf hr hg
  refine ⟨p', outs, h, ?_⟩
  obtain ⟨pa, oa, osa, ha, h⟩ := run_cons _ _ _ _ _ h
  obtain ⟨pb, ob, osb, hb, h⟩ := run_cons _ _ _ _ _ h
  obtain ⟨pc, oc, osc, hc, h⟩ := run_cons _ _ _ _ _ h
  obtain ⟨pd, od, osd, hd, h⟩ := run_cons _ _ _ _ _ h
  obtain ⟨pe, oe, ose, he, h⟩ := run_cons _ _ _ _ _ h
  obtain ⟨pf, of, osf, hff, h⟩ := run_cons _ _ _ _ _ h
  obtain ⟨pg, og, osg, hgg, h⟩ := run_cons _ _ _ _ _ h
  obtain ⟨ph, oh, osh, hh, hend⟩ := run_cons _ _ _ _ _ h
  have h0 : (exStart.loader.offset : ℝ) = -1 := by show ((-1 : ℚ) : ℝ) = -1; norm_num
  have ka := ha
  have kb := hb
  have kc := hc
  have kd := hd
  -- the attitude filter starts
  obtain rfl := ex_stepImu _ _ _ 0 ha h0 (by norm_num [exStartProc])
  obtain ⟨b1, b2, r1, b3⟩ := ex_stepRun _ _ _ _ hb
  have b4 := ex_runImu env _ _ _ _ (exStartImu (0 + 1)) rfl rfl rfl b3
  obtain ⟨it, i1, i2⟩ := ex_att0
  have a1 : pb.b.att.items = [it] := by
    rw [b4, ← i1]
    show (exStart.att.propagate ⟨0, 0, 10⟩ ⟨6, 0, 8⟩ 0 (0 + 1)).1.items = _
    rw [zero_add]
  have l1 : pb.b.loader = { exStart.loader with imuMeas := [], featMeas := [] } := by rw [b4]; rfl
  have s1 : pb.b.status = .needInit := by rw [b4]; rfl
  have f1 : pb.b.u.w.frm.frames = [] := by rw [b4]; rfl
  have x1 : pb.b.u.w.frm.extrinsics = [⟨.one, 0⟩, ⟨.one, ⟨1, 0, 0⟩⟩] := by rw [b4]; rfl
  have t1 : pb.statics = { lastImu := some (0 + 1) } := b1
  clear b4 b3
  -- the first image
  obtain rfl := ex_stepImu _ _ _ 1 hc (by rw [l1]; exact h0) (by norm_num [t1])
  obtain rfl := ex_stepFeat _ _ _ 1 hd (by rw [l1]; exact h0) (by norm_num [t1])
  obtain ⟨d1, d2, r2, d3⟩ := ex_stepRun _ _ _ _ he
  obtain ⟨l2, y1, s2, x2, it2, a2, a3⟩ := ex_firstRun env _ _ _ _ (exStartImu (1 + 1)) (1 + 1) it (by show pb.b.loader.imuMeas ++ _ = _; rw [l1]; rfl)
    (by show pb.b.loader.featMeas ++ _ = _; rw [l1]; rfl) rfl (by show 0 < pb.b.loader.imuPeriod; rw [l1]; show (0 : ℝ) < 1 / 10; norm_num) (by exact s1) (by exact f1) (by show pb.b.att.items.getLast? = _; rw [a1]; rfl)
    (by show it.ts ≤ 1 + 1; rw [i2]; norm_num) d3
  have o2 : pe.b.loader.offset = -1 := by rw [l2]; show pb.b.loader.offset = -1; rw [l1]; exact h0
  have p2 : pe.b.loader.imuPeriod = 1 / 10 := by rw [l2]; show pb.b.loader.imuPeriod = 1 / 10; rw [l1]; rfl
  have q2 : pe.b.loader.imuMeas = [] := by rw [l2]
  have q3 : pe.b.loader.featMeas = [] := by rw [l2]
  have t2 : pe.statics = { lastImu := some (1 + 1), lastFeat := some (1 + 1) } := by rw [d1]
  have x2 : pe.b.u.w.frm.extrinsics = [⟨.one, 0⟩, ⟨.one, ⟨1, 0, 0⟩⟩] := x2.trans x1
  -- the second image
  have e1 := ex_stepImu _ _ _ 2 hff o2 (by norm_num [t2])
  have e2 := ex_stepFeat _ _ _ 2 hgg (by rw [e1]; exact o2) (by norm_num [e1, t2])
  have hpop' := ex_popBoth pg.b.loader (exStartImu (2 + 1)) (exStartMsg (2 + 1)) (by rw [e2, e1]; show pe.b.loader.imuMeas ++ _ = _; rw [q2]; rfl)
    (by rw [e2, e1]; show pe.b.loader.featMeas ++ _ = _; rw [q3]; rfl) rfl (by rw [e2, e1]; show 0 < pe.b.loader.imuPeriod; rw [p2]; norm_num)
  have hattb : pg.b.att = pe.b.att := by rw [e2, e1]
  have hper : pg.b.loader.imuPeriod = 1 / 10 := by rw [e2, e1]; exact p2
  have hext : pg.b.u.w.frm.extrinsics = [⟨.one, 0⟩, ⟨.one, ⟨1, 0, 0⟩⟩] := by rw [e2, e1]; exact x2
  obtain ⟨pre, hpre⟩ := List.getLast?_eq_some_iff.1 a2
  have htimes : attTimes pg.b = pre.map (·.ts) ++ [1 + 1, 2 + 1] := by
    unfold attTimes
    rw [hattb, hpop'.1, hpre]
    simp [a3, exStartImu]
  refine C120_runs_on exStartProc _ pe pg ph p' [.imu (exStartImu 0), .run env, .imu (exStartImu 1), .feat (exStartMsg 1)] [.imu (exStartImu 2), .feat (exStartMsg 2)]
    [.imu (exStartImu 3), .run env] env env [oa, ob, oc, od] [of, og] osh oe oh (exStartMsg (1 + 1)) (exStartMsg (2 + 1)) hf hr hg ?_ (fun _ _ => rfl) rfl ?_ ?_ ?_ ?_ ?_ ?_ ?_ he s2 ?_ ?_ ?_ hh
    ?_ ?_ hsvd ?_ hend
  · norm_num [imuTimes, exStartImu]
  · show ((0 : ℚ) : ℝ) < 1 / 10
    norm_num
  · intro t _
    show _ - ((1 : ℚ) : ℝ) < _
    norm_num
  · intro y hy; cases hy
  · intro op hop hc
    subst hc
    revert hop
    simp
  · have hz : ∀ t : ℝ, TimeOps.sub t exStartProc.b.loader.offset ≤ TimeOps.sub t exStartProc.b.loader.offset ∧
        TimeOps.sub (TimeOps.sub t exStartProc.b.loader.offset) (TimeOps.sub t exStartProc.b.loader.offset) ≤ exStartProc.b.loader.imuPeriod := by
      intro t
      refine ⟨le_refl _, ?_⟩
      show (t - _) - (t - _) ≤ (1 / 10 : ℝ)
      rw [sub_self]
      norm_num
    exact ⟨⟨1, List.mem_cons_self, hz 1⟩, ⟨2, List.mem_cons_self, hz 2⟩, trivial⟩
  · simp only [BProc.run, ka, kb, kc, kd, Res.bind_ok]
  · exact y1
  · simp only [BProc.run, hff, hgg, Res.bind_ok]
  · refine ⟨?_, fun _ _ _ => ⟨?_, fun _ _ _ => trivial⟩⟩
    · intro _ hc; cases hc
    · intro _ hc; cases hc
  · rw [hpop'.1]
  · rw [hattb, hpre]; simp
  · rw [hext]
    intro e he
    have : e = ⟨.one, 0⟩ ∨ e = ⟨.one, ⟨1, 0, 0⟩⟩ := by simpa using he
    rcases this with rfl | rfl <;> simp [Quat.one, Quat.sqNorm]
  · rw [hext, hper, htimes]
    refine ⟨?_, ⟨List.range 10, by decide, by decide, fun id hid => ⟨⟨_, exStart_report _ id hid, exStart_obs⟩, ⟨_, _, exStart_report _ id hid, rfl⟩⟩⟩, by simp, ⟨1 + 1, by simp, ?_⟩, ⟨2 + 1, by simp, ?_⟩⟩
    · rw [← Bool.not_eq_true, TimeLaws.lt_iff, not_lt]
      show zeroTol ≤ |(2 + 1 : ℝ) - (1 + 1)|
      rw [zeroTol]
      show ((1 / 10000000000 : ℚ) : ℝ) ≤ _
      norm_num
    · show |(1 + 1 : ℝ) - (1 + 1)| < 1 / 10 * ((55 / 100 : ℚ) : ℝ)
      norm_num
    · show (2 + 1 : ℝ) - (2 + 1) ≤ 1 / 10
      norm_num

end Backend
end Vio

/-
C69, C76, C77: malformed tracker input, Reset, and the bias at a second initialisation.
-/
import Verif.Props.Safety

set_option linter.unusedSectionVars false

namespace Vio
open Spec WinSpec AttSpec Update

variable {K T : Type} [Add K] [Sub K] [Mul K] [Neg K] [Div K] [Zero K] [One K] [ScalarFn K]
  [TimeOps T] [TimeCast T K]

namespace Backend

/-! ### Attempts to initialise -/

/-- The sample of an attitude. -/
def attSample (a : AttItem K T) : Vec3 K × Vec3 K × T := (a.accel, a.gyro, a.ts)

theorem replay_sample (mounted : Bool) (nExt : Nat) (g : Vec3 K) (its : List (AttItem K T)) : ∀ s s' : PropQueue K T, replay mounted nExt g s its = .ok s' →
    s'.items.map sample = s.items.map sample ++ its.map attSample ∧
    ∀ c, s.items ≠ [] → (∀ i ∈ s.items, i.imuEx.cols = c) → s'.items ≠ [] ∧ ∀ i ∈ s'.items, i.imuEx.cols = c := by
  induction its with
  | nil => intro s s' h; cases h; exact ⟨by simp, fun c h1 h2 => ⟨h1, h2⟩⟩
  | cons it its ih =>
    intro s s' h
    rw [replay] at h
    split at h
    · obtain ⟨h1, h2⟩ := ih _ _ h
      rcases List.eq_nil_or_concat s.items with hs | ⟨l, z, hs⟩
      · refine ⟨?_, fun c hc => absurd hs hc⟩
        rw [h1]
        unfold PropQueue.propagate
        simp [hs, sample, attSample]
      · rw [List.concat_eq_append] at hs
        have e : (s.propagate nExt g it.accel it.gyro it.ts).items = s.items ++ [s.stepItem g z it.accel it.gyro it.ts] := by
          unfold PropQueue.propagate
          simp only [hs, List.getLast?_concat]
        refine ⟨?_, ?_⟩
        · rw [h1, e]
          simp [sample, attSample, PropQueue.stepItem]
        · intro c _ hc
          refine h2 c (by rw [e]; simp) ?_
          rw [e]
          intro i hi
          rcases List.mem_append.1 hi with hi | hi
          · exact hc i hi
          · rw [List.mem_singleton.1 hi]
            show z.imuEx.cols = c
            exact hc z (by rw [hs]; simp)
    · cases h

/-- What an attempt to initialise does to queue and attitudes. -/
theorem initialise_queue (env : Env K) (g : Vec3 K) (b b' : Backend K T) (r : Bool) (h : initialise env g b = .ok (r, b')) :
    b'.u.w.frm.extrinsics = b.u.w.frm.extrinsics ∧ (r = false → b'.u.q = b.u.q ∧ b'.att = b.att) ∧
    (r = true → ∃ st t, b.att.cleanOldItems t (TimeCast.toK b.loader.imuPeriod) = .ok b'.att ∧
      replay b.mounted b.u.w.frm.extrinsics.length g { b.u.q with initState := st } b'.att.items = .ok b'.u.q) := by
  unfold initialise at h
  split at h
  · rename_i fi fj rest hfr
    dsimp only at h
    split at h
    · cases h; exact ⟨rfl, fun _ => ⟨rfl, rfl⟩, by simp⟩
    · obtain ⟨a, ha, h⟩ := Res.bind_eq_ok.1 h
      cases a with
      | none => cases h; exact ⟨rfl, fun _ => ⟨rfl, rfl⟩, by simp⟩
      | some q =>
        obtain ⟨w, hw, h⟩ := Res.bind_eq_ok.1 h
        have hfrm := (triMultiView_spec _ _ _ _ _ hw).1.frm
        have hex : w.frm.extrinsics = b.u.w.frm.extrinsics := by rw [hfrm]; rfl
        obtain ⟨⟨good, fj'⟩, he, h⟩ := Res.bind_eq_ok.1 h
        dsimp only at h
        split at h
        · cases h; exact ⟨hex, fun _ => ⟨rfl, rfl⟩, by simp⟩
        · obtain ⟨b1, h1, h⟩ := Res.bind_eq_ok.1 h
          obtain ⟨i0, hi0, h⟩ := Res.bind_eq_ok.1 h
          cases h
          obtain ⟨att, s, rfl, hc, hr⟩ := initPropagator_keep _ _ _ _ _ h1
          have hr : replay b.mounted w.frm.extrinsics.length g { b.u.q with initState := _ } att.items = .ok s := hr
          rw [hex] at hr
          exact ⟨hex, by simp, fun _ => ⟨_, _, hc, hr⟩⟩
  · cases h; exact ⟨rfl, fun _ => ⟨rfl, rfl⟩, by simp⟩

theorem clean_bias (s s' : Att K T) (ts : T) (thr : K) (h : s.cleanOldItems ts thr = .ok s') : s'.biasA = s.biasA ∧ s'.biasG = s.biasG ∧ s'.items <:+ s.items := by
  rcases C27_clean s s' ts thr h with ⟨h1, rfl⟩ | ⟨old, it, new, h1, -, -, rfl⟩
  · exact ⟨rfl, rfl, List.suffix_refl _⟩
  · exact ⟨rfl, rfl, old, h1.symm⟩

theorem cleanAtt_bias (b b' : Backend K T) (h : b.cleanAtt = .ok b') : b'.att.biasA = b.att.biasA ∧ b'.att.biasG = b.att.biasG ∧ b'.att.items <:+ b.att.items ∧ b'.u = b.u ∧ b'.status = b.status ∧
    b'.loader = b.loader := by
  unfold cleanAtt at h
  split at h
  · obtain ⟨_, _, h⟩ := Res.bind_eq_ok.1 h
    obtain ⟨att, hc, h⟩ := Res.bind_eq_ok.1 h
    cases h
    obtain ⟨c1, c2, c3⟩ := clean_bias _ _ _ _ hc
    exact ⟨c1, c2, c3, rfl, rfl, rfl⟩
  · cases h
    exact ⟨rfl, rfl, List.suffix_refl _, rfl, rfl, rfl⟩

theorem att_propagate (s : Att K T) (g a w : Vec3 K) (t : T) :
    (s.propagate g a w t).1.biasA = s.biasA ∧ (s.propagate g a w t).1.biasG = s.biasG ∧
    ((s.propagate g a w t).1.items = s.items ∨ ∃ q, (s.propagate g a w t).1.items = s.items ++ [⟨q, a - s.biasA, w - s.biasG, t⟩]) := by
  unfold Att.propagate
  split
  · next h =>
    have he := List.getLast?_eq_none_iff.1 h
    dsimp only
    split
    · exact ⟨rfl, rfl, .inl rfl⟩
    · exact ⟨rfl, rfl, .inr ⟨_, by rw [he]; rfl⟩⟩
  · dsimp only
    split
    · exact ⟨rfl, rfl, .inl rfl⟩
    · exact ⟨rfl, rfl, .inr ⟨_, rfl⟩⟩

/-! ### C77 -/

/-- Accelerometer and gyroscope readings pushed by a history. -/
def readings : List (BOp K T) → List (Vec3 K × Vec3 K)
  | [] => []
  | .imu m :: ops => (m.accel, m.gyro) :: readings ops
  | _ :: ops => readings ops

/-- No call takes an initialised backend back to the start. -/
def Stays : BProc K T → List (BOp K T) → Prop
  | _, [] => True
  | p, op :: ops => ∀ p' o, p.step op = .ok (p', o) → (p.b.status = .initialized → p'.b.status = .initialized) ∧ Stays p' ops

/-- Attitudes hold readings from which nothing was subtracted. -/
def AttRaw (R : List (Vec3 K × Vec3 K)) (a : Att K T) : Prop := a.biasA = 0 ∧ a.biasG = 0 ∧ ∀ i ∈ a.items, (i.accel, i.gyro) ∈ R

/-- The queue holds unchanged readings; the attitudes too, until the backend is initialised. -/
structure RawInv (R : List (Vec3 K × Vec3 K)) (b : Backend K T) : Prop where
  imu : ∀ m ∈ b.loader.imuMeas, (m.accel, m.gyro) ∈ R
  items : ∀ i ∈ b.u.q.items, (i.accel, i.gyro) ∈ R
  att : b.status = .needInit → AttRaw R b.att

theorem raw_of_sample {R : List (Vec3 K × Vec3 K)} {l l' : List (PropItem K T)} (h : l'.map sample = l.map sample) (hl : ∀ i ∈ l, (i.accel, i.gyro) ∈ R) :
    ∀ i ∈ l', (i.accel, i.gyro) ∈ R := by
  intro i hi
  have : sample i ∈ l.map sample := by rw [← h]; exact List.mem_map_of_mem hi
  obtain ⟨j, hj, e⟩ := List.mem_map.1 this
  simp only [sample, Prod.mk.injEq] at e
  rw [← e.1, ← e.2.1]
  exact hl j hj

theorem AttRaw.suffix {R : List (Vec3 K × Vec3 K)} {a a' : Att K T} (h : AttRaw R a) (h1 : a'.biasA = a.biasA) (h2 : a'.biasG = a.biasG) (h3 : a'.items <:+ a.items) : AttRaw R a' :=
  ⟨h1.trans h.1, h2.trans h.2.1, fun i hi => h.2.2 i (h3.subset hi)⟩

theorem onImu_raw (hz : ∀ v : Vec3 K, v - 0 = v) {R : List (Vec3 K × Vec3 K)} (g : Vec3 K) (b b' : Backend K T) (ms : List (ImuMsg K T)) (r : Bool) (h : b.onImu g ms = .ok (r, b')) (hi : RawInv R b)
    (hms : ∀ m ∈ ms, (m.accel, m.gyro) ∈ R) : RawInv R b' := by
  cases ms with
  | nil => cases h; exact hi
  | cons m ms =>
    rw [onImu] at h
    obtain ⟨p1, p2, p3⟩ := att_propagate b.att g m.accel m.gyro m.ts
    generalize b.att.propagate g m.accel m.gyro m.ts = ar at h p1 p2 p3
    obtain ⟨att, res⟩ := ar
    dsimp only at h p1 p2 p3
    have hm := hms m List.mem_cons_self
    split at h
    · cases h
      refine ⟨hi.imu, hi.items, fun hs => ?_⟩
      obtain ⟨a1, a2, a3⟩ := hi.att hs
      refine ⟨p1.trans a1, p2.trans a2, ?_⟩
      intro i hii
      rcases p3 with p3 | ⟨q, p3⟩
      · dsimp only at hii; rw [p3] at hii; exact a3 i hii
      · dsimp only at hii
        rw [p3] at hii
        rcases List.mem_append.1 hii with hii | hii
        · exact a3 i hii
        · rw [List.mem_singleton.1 hii, a1, a2]
          show (m.accel - 0, m.gyro - 0) ∈ R
          rw [hz, hz]; exact hm
    · rename_i hs
      split at h
      · cases h
        refine ⟨hi.imu, ?_, fun hc => absurd (hs.symm.trans hc) (by decide)⟩
        intro i hii
        dsimp only at hii
        unfold PropQueue.propagate at hii
        split at hii
        · rw [List.mem_singleton.1 hii]; exact hm
        · rcases List.mem_append.1 hii with hii | hii
          · exact hi.items i hii
          · rw [List.mem_singleton.1 hii]; exact hm
      · cases h

theorem onFeat_raw {R : List (Vec3 K × Vec3 K)} (env : Env K) (g : Vec3 K) (b b' : Backend K T) (m : FeatMsg K T) (h : b.onFeat env g m = .ok b') (hi : RawInv R b)
    (hst : b.status = .initialized → b'.status = .initialized) : RawInv R b' := by
  have hld := (onFeat_keep env g b b' m h).1
  obtain ⟨b1, b2, h1, h2, h3⟩ := onFeat_eq env g b b' m h
  have k1 : (∀ i ∈ b1.u.q.items, (i.accel, i.gyro) ∈ R) ∧ (b.status = .needInit → AttRaw R b1.att) ∧ (b1.status = .needInit → b.status = .needInit) := by
    unfold tryInit at h1
    split at h1
    · rename_i hs
      have hs : b.status = .needInit := hs
      obtain ⟨⟨good, c⟩, hc, h1⟩ := Res.bind_eq_ok.1 h1
      obtain ⟨-, q2, q3⟩ := initialise_queue _ _ _ _ _ hc
      dsimp only at h1
      split at h1
      · rename_i hg
        cases h1
        obtain ⟨st, t, c1, c2⟩ := q3 hg
        obtain ⟨d1, d2, d3⟩ := clean_bias _ _ _ _ c1
        have har : AttRaw R c.att := (hi.att hs).suffix d1 d2 d3
        refine ⟨?_, fun _ => har, fun _ => hs⟩
        have e := (replay_sample _ _ _ _ _ _ c2).1
        intro i hii
        have : sample i ∈ c.u.q.items.map sample := List.mem_map_of_mem hii
        rw [e] at this
        rcases List.mem_append.1 this with this | this
        · obtain ⟨j, hj, e⟩ := List.mem_map.1 this
          simp only [sample, Prod.mk.injEq] at e
          rw [← e.1, ← e.2.1]
          exact hi.items j hj
        · obtain ⟨j, hj, e⟩ := List.mem_map.1 this
          simp only [sample, attSample, Prod.mk.injEq] at e
          rw [← e.1, ← e.2.1]
          exact har.2.2 j hj
      · rename_i hg
        obtain ⟨e1, e2⟩ := q2 (by simpa using hg)
        obtain ⟨w, rfl, -⟩ := shrunk_keep _ _ h1
        refine ⟨?_, fun _ => ?_, fun _ => hs⟩
        · show ∀ i ∈ c.u.q.items, _
          rw [e1]; exact hi.items
        · show AttRaw R c.att
          rw [e2]; exact hi.att hs
    · rename_i hs
      have hs : b.status = .initialized := hs
      cases h1
      exact ⟨hi.items, fun hc => absurd (hs.symm.trans hc) (by decide), id⟩
  obtain ⟨f1, f2, f3, f4, f5, -⟩ := cleanAtt_bias _ _ h3
  refine ⟨by rw [hld]; exact hi.imu, ?_, ?_⟩
  · rw [f4]
    unfold tryUpdate at h2
    split at h2
    · cases h2; exact k1.1
    · split at h2
      · obtain ⟨⟨good, u⟩, hu, h2⟩ := Res.bind_eq_ok.1 h2
        obtain ⟨u1, -⟩ := update_any _ _ _ _ _ _ _ _ _ hu
        obtain ⟨old, o1, -⟩ := C37_reset b1.u.q m.ts b1.loader.imuPeriod
        have hq : ∀ i ∈ u.q.items, (i.accel, i.gyro) ∈ R :=
          raw_of_sample u1 (fun i hii => k1.1 i (by rw [o1]; exact List.mem_append_right _ hii))
        dsimp only at h2
        split at h2
        · obtain ⟨w, hw, h2⟩ := Res.bind_eq_ok.1 h2
          cases h2
          exact hq
        · obtain ⟨w, rfl, -⟩ := shrunk_keep _ _ h2
          exact hq
      · cases h2
  · intro hs
    have hb : b.status = .needInit := by
      cases hbs : b.status with
      | needInit => rfl
      | initialized => exact absurd ((hst hbs).symm.trans hs) (by decide)
    rw [f5] at hs
    have : AttRaw R b2.att := by
      unfold tryUpdate at h2
      split at h2
      · cases h2; exact k1.2.1 hb
      · rename_i hs1
        split at h2
        · obtain ⟨⟨good, u⟩, hu, h2⟩ := Res.bind_eq_ok.1 h2
          dsimp only at h2
          split at h2
          · obtain ⟨w, hw, h2⟩ := Res.bind_eq_ok.1 h2
            cases h2
            exact absurd (hs1.symm.trans hs) (by decide)
          · obtain ⟨w, rfl, -⟩ := shrunk_keep _ _ h2
            exact k1.2.1 hb
        · cases h2
    exact this.suffix f1 f2 f3

theorem pop_imu (l : Loader K T) : (∀ m ∈ l.popOne.out.imuMeas, m ∈ l.imuMeas) ∧ ∀ m ∈ l.popOne.loader.imuMeas, m ∈ l.imuMeas := by
  unfold Loader.popOne
  split
  · next h1 _ =>
    rw [h1]
    split
    · split <;> simp +contextual
    · simp +contextual
  · next h1 _ => rw [h1]; simp +contextual
  · next h1 _ => simp [h1]
  · simp [Combined.cleared]

/-- C77, partial.  In a history from a fresh backend without restart every queued state carries the readings of a pushed sample unchanged, so that the propagator, which
subtracts its bias from the queued readings, removes it exactly once.  Missing: restarts, after which it is false (`C77_twice`). -/
theorem C77_once_partial (hz : ∀ v : Vec3 K, v - 0 = v) (R : List (Vec3 K × Vec3 K)) (ops : List (BOp K T)) : ∀ (p p' : BProc K T) (outs : List (BOut K T)), RawInv R p.b → (∀ x ∈ readings ops, x ∈ R) →
    Stays p ops → p.run ops = .ok (p', outs) → RawInv R p'.b := by
  induction ops with
  | nil => intro p p' outs hi _ _ h; cases h; exact hi
  | cons op ops ih =>
    intro p p' outs hi hR hst h
    rw [BProc.run] at h
    obtain ⟨⟨p1, o⟩, hs, h⟩ := Res.bind_eq_ok.1 h
    obtain ⟨⟨p2, os⟩, hr, h⟩ := Res.bind_eq_ok.1 h
    cases h
    obtain ⟨hst1, hst2⟩ := hst p1 o hs
    have hR' : ∀ x ∈ readings ops, x ∈ R := by
      intro x hx
      refine hR x ?_
      cases op <;> first | exact List.mem_cons_of_mem _ hx | exact hx
    refine ih p1 p' os ?_ hR' hst2 hr
    cases op with
    | imu m =>
      cases hs
      refine ⟨?_, hi.items, hi.att⟩
      intro x hx
      dsimp only [Loader.pushImu] at hx
      generalize (if TimeOps.isNaN p.b.loader.offset = true then m.ts else p.b.loader.offset) = off at hx
      split at hx
      · rcases List.mem_append.1 hx with hx | hx
        · exact hi.imu x hx
        · rw [List.mem_singleton.1 hx]; exact hR _ List.mem_cons_self
      · exact hi.imu x hx
    | feat m =>
      cases hs
      refine ⟨?_, hi.items, hi.att⟩
      have : (p.b.loader.pushFeatures p.statics m).loader.imuMeas = p.b.loader.imuMeas := by
        unfold Loader.pushFeatures
        split <;> rfl
      show ∀ x ∈ (p.b.loader.pushFeatures p.statics m).loader.imuMeas, _
      rw [this]; exact hi.imu
    | run env =>
      obtain ⟨⟨r, b'⟩, hb', hs⟩ := Res.bind_eq_ok.1 hs
      cases hs
      obtain ⟨m1, m2⟩ := pop_imu p.b.loader
      have hi' : RawInv R { p.b with loader := p.b.loader.popOne.loader } := ⟨fun m hm => hi.imu m (m2 m hm), hi.items, hi.att⟩
      rcases runOnce_eq env p.g p.b b' r hb' with ⟨-, -, rfl⟩ | ⟨-, res, b1, j1, j2⟩
      · exact hi'
      · have hk := onImu_raw hz p.g _ b1 _ res j1 hi' (fun m hm => hi.imu m (m1 m hm))
        have hks := (onImu_keep _ _ _ _ _ j1).2.1
        rcases j2 with ⟨-, -, rfl⟩ | ⟨m, -, -, j2⟩
        · exact hk
        · exact onFeat_raw env p.g b1 b' m j2 hk (fun hc => hst1 (hks.symm.trans hc))
    | runTest =>
      cases hs
      exact ⟨fun m hm => hi.imu m ((pop_imu p.b.loader).2 m hm), hi.items, hi.att⟩
    | publishPropagate =>
      obtain ⟨s, -, hs⟩ := Res.bind_eq_ok.1 hs
      cases hs; exact hi
    | publishUpdate =>
      obtain ⟨s, -, hs⟩ := Res.bind_eq_ok.1 hs
      cases hs; exact hi
    | reset =>
      cases hs
      refine ⟨hi.imu, hi.items, fun _ => hi.att ?_⟩
      cases hbs : p.b.status with
      | needInit => rfl
      | initialized => exact nomatch hst1 hbs

/-! ### C76 -/

/-- After `Reset` and a failed attempt: one frame, and states whose covariance belongs to a window of another size. -/
structure Stuck (nc c : Nat) (b : Backend K T) : Prop where
  status : b.status = .needInit
  ext : b.u.w.frm.extrinsics.length = nc
  frames : b.u.w.frm.frames.length = 1
  ne : b.u.q.items ≠ []
  cols : ∀ i ∈ b.u.q.items, i.imuEx.cols = c

theorem shrink_ext (n : Nat) : ∀ w w' : Win K T, shrink n w = .ok w' → w'.frm.extrinsics = w.frm.extrinsics := by
  induction n with
  | zero => intro w w' h; cases h; rfl
  | succ n ih =>
    intro w w' h
    rw [shrink] at h
    split at h
    · obtain ⟨w1, hm, h⟩ := Res.bind_eq_ok.1 h
      exact (ih _ _ h).trans (marginalize_keep _ _ _ hm).1
    · cases h; rfl

/-- An update whose states have a covariance of the wrong size fails; it drops states that are too old and changes nothing else in queue and window. -/
theorem update_wrong_size (env : Env K) (noise : K) (maxUsed : Nat) (g : Vec3 K) (u u' : Upd K T) (ts thr : T) (good : Bool) (c : Nat)
    (h : update env noise maxUsed g u ts thr = .ok (good, u')) (hc : ∀ i ∈ u.q.items, i.imuEx.cols = c)
    (hne : c ≠ mul32 (sub32 (u.w.frm.extrinsics.length + u.w.frm.frames.length) 1) 6) :
    good = false ∧ u'.w = u.w ∧ u'.q = (u.q.resetOrigin ts thr).1 := by
  obtain ⟨old, o1, -, -, -, -⟩ := C37_reset u.q ts thr
  unfold update at h
  generalize u.q.resetOrigin ts thr = q at h o1 ⊢
  obtain ⟨s, found⟩ := q
  dsimp only at h o1 ⊢
  split at h
  · cases h; exact ⟨rfl, rfl, rfl⟩
  · obtain ⟨policy, -, h⟩ := Res.bind_eq_ok.1 h
    obtain ⟨⟨g2, cov⟩, h2, h⟩ := Res.bind_eq_ok.1 h
    have hg2 : g2 = false := by
      unfold constructCov at h2
      obtain ⟨item, hi, h2⟩ := Res.bind_eq_ok.1 h2
      have hit : item ∈ s.items := by
        revert hi
        cases s.items with
        | nil => intro hi; cases hi
        | cons x xs => intro hi; cases hi; exact List.mem_cons_self
      have hcol : item.imuEx.cols = c := hc item (by rw [o1]; exact List.mem_append_right _ hit)
      dsimp only at h2
      rw [if_pos (by rw [hcol]; exact hne)] at h2
      cases h2
      rfl
    subst hg2
    dsimp only at h
    cases h
    exact ⟨rfl, rfl, rfl⟩

/-- One call: a stuck backend stays stuck, unless the update finds all states too old and drops them. -/
theorem stuck_step {nc c : Nat} (hnc : (nc + 2) * 6 < two32) (hne : c ≠ 6 * (nc + 1)) (p p' : BProc K T) (op : BOp K T) (o : BOut K T) (h : p.step op = .ok (p', o)) (hs : Stuck nc c p.b) :
    Stuck nc c p'.b ∨ p'.b.u.q.items = [] := by
  cases op with
  | imu m => cases h; exact .inl ⟨hs.status, hs.ext, hs.frames, hs.ne, hs.cols⟩
  | feat m => cases h; exact .inl ⟨hs.status, hs.ext, hs.frames, hs.ne, hs.cols⟩
  | runTest => cases h; exact .inl ⟨hs.status, hs.ext, hs.frames, hs.ne, hs.cols⟩
  | reset => cases h; exact .inl ⟨rfl, hs.ext, hs.frames, hs.ne, hs.cols⟩
  | publishPropagate =>
    obtain ⟨s, -, h⟩ := Res.bind_eq_ok.1 h
    cases h; exact .inl hs
  | publishUpdate =>
    obtain ⟨s, -, h⟩ := Res.bind_eq_ok.1 h
    cases h; exact .inl hs
  | run env =>
    obtain ⟨⟨r, b'⟩, hb', h⟩ := Res.bind_eq_ok.1 h
    cases h
    show Stuck nc c b' ∨ b'.u.q.items = []
    rcases runOnce_eq env p.g p.b b' r hb' with ⟨-, -, rfl⟩ | ⟨-, res, b1, j1, j2⟩
    · exact .inl ⟨hs.status, hs.ext, hs.frames, hs.ne, hs.cols⟩
    · have hs1 : Stuck nc c b1 := by
        revert j1
        cases p.b.loader.popOne.out.imuMeas with
        | nil => intro j1; cases j1; exact ⟨hs.status, hs.ext, hs.frames, hs.ne, hs.cols⟩
        | cons m ms =>
          intro j1
          rw [onImu] at j1
          generalize p.b.att.propagate p.g m.accel m.gyro m.ts = ar at j1
          obtain ⟨att, rr⟩ := ar
          dsimp only at j1
          rw [hs.status] at j1
          cases j1
          exact ⟨rfl, hs.ext, hs.frames, hs.ne, hs.cols⟩
      rcases j2 with ⟨-, -, rfl⟩ | ⟨m, -, -, j2⟩
      · exact .inl hs1
      · obtain ⟨b2, b3, f1, f2, f3⟩ := onFeat_eq env p.g b1 b' m j2
        obtain ⟨-, -, -, e4, e5, -⟩ := cleanAtt_bias _ _ f3
        have i1 : (b1.setWin (b1.u.w.insert m)).u.w.frm.frames.length = 2 := (insert_length b1.u.w m).1.trans (by rw [hs1.frames])
        have i2 : (b1.setWin (b1.u.w.insert m)).u.w.frm.extrinsics.length = nc := hs1.ext
        suffices hsuf : Stuck nc c b3 ∨ b3.u.q.items = [] by
          rcases hsuf with q | q
          · exact .inl ⟨e5.trans q.status, by rw [e4]; exact q.ext, by rw [e4]; exact q.frames, by rw [e4]; exact q.ne, by rw [e4]; exact q.cols⟩
          · exact .inr (by rw [e4]; exact q)
        unfold tryInit at f1
        rw [show (b1.setWin (b1.u.w.insert m)).status = .needInit from hs1.status] at f1
        dsimp only at f1
        obtain ⟨⟨good, b4⟩, hi, f1⟩ := Res.bind_eq_ok.1 f1
        obtain ⟨q1, q2, q3⟩ := initialise_queue _ _ _ _ _ hi
        obtain ⟨a1, -, -, -, a5, -⟩ := initialise_any _ _ _ _ _ hi
        rw [i1] at a1
        dsimp only at f1
        split at f1
        · rename_i hg
          cases f1
          obtain ⟨st, t, -, c2⟩ := q3 hg
          obtain ⟨c3, c4⟩ := (replay_sample _ _ _ _ _ _ c2).2 c hs1.ne hs1.cols
          unfold tryUpdate at f2
          dsimp only at f2
          split at f2
          · obtain ⟨⟨gu, u⟩, hu, f2⟩ := Res.bind_eq_ok.1 f2
            obtain ⟨rfl, v2, v3⟩ := update_wrong_size _ _ _ _ _ _ _ _ _ c hu c4 (by
              rw [a1, q1, i2]
              have e1 : sub32 (nc + 2) 1 = nc + 1 := by
                rw [sub32_of_le (by omega) (by omega)]; rfl
              rw [e1, mul32, Nat.mod_eq_of_lt (by omega)]
              omega)
            obtain ⟨old, o1, -⟩ := C37_reset b4.u.q m.ts b4.loader.imuPeriod
            dsimp only at f2
            rw [if_neg (by decide)] at f2
            obtain ⟨w, rfl, s1, s2⟩ := shrunk_any _ _ f2 (by dsimp only; rw [v2, a1]; omega)
            obtain ⟨w', e, sh⟩ := shrunk_keep _ _ f2
            have ew : w = w' := congrArg (fun b : Backend K T => b.u.w) e
            by_cases hk : u.q.items = []
            · exact .inr hk
            · refine .inl ⟨rfl, ?_, s1, hk, ?_⟩
              · show w.frm.extrinsics.length = nc
                rw [ew, shrink_ext _ _ _ sh]
                dsimp only
                rw [v2, q1, i2]
              · show ∀ i ∈ u.q.items, _
                rw [v3]
                intro i hii
                exact c4 i (by rw [o1]; exact List.mem_append_right _ hii)
          · cases f2
        · rename_i hg
          obtain ⟨e1, -⟩ := q2 (by simpa using hg)
          obtain ⟨w, rfl, s1, -⟩ := shrunk_any _ _ f1 (by omega)
          obtain ⟨w', e, sh⟩ := shrunk_keep _ _ f1
          have ew : w = w' := congrArg (fun b : Backend K T => b.u.w) e
          have hst : (b4.setWin w).status = .needInit := a5.trans hs1.status
          unfold tryUpdate at f2
          rw [hst] at f2
          cases f2
          refine .inl ⟨hst, ?_, s1, ?_, ?_⟩
          · show w.frm.extrinsics.length = nc
            rw [ew, shrink_ext _ _ _ sh, q1, i2]
          · show b4.u.q.items ≠ []
            rw [e1]; exact hs1.ne
          · show ∀ i ∈ b4.u.q.items, _
            rw [e1]; exact hs1.cols

/-- C76 is false in general: a stuck backend is never initialised again, whatever is pushed, before a gap in the IMU data lets the queue of stale states run empty. -/
theorem C76_stuck {nc c : Nat} (hnc : (nc + 2) * 6 < two32) (hne : c ≠ 6 * (nc + 1)) (ops : List (BOp K T)) : ∀ (p p' : BProc K T) (outs : List (BOut K T)), Stuck nc c p.b →
    p.run ops = .ok (p', outs) → p'.b.status = .initialized →
    ∃ ops1 ops2 p1 outs1, ops = ops1 ++ ops2 ∧ p.run ops1 = .ok (p1, outs1) ∧ p1.b.u.q.items = [] := by
  induction ops with
  | nil => intro p p' outs hs h hi; cases h; exact absurd (hs.status.symm.trans hi) (by decide)
  | cons op ops ih =>
    intro p p' outs hs h hi
    rw [BProc.run] at h
    obtain ⟨⟨p1, o⟩, h1, h⟩ := Res.bind_eq_ok.1 h
    obtain ⟨⟨p2, os⟩, hr, h⟩ := Res.bind_eq_ok.1 h
    cases h
    rcases stuck_step hnc hne p p1 op o h1 hs with hs1 | he
    · obtain ⟨o1, o2, q, qs, e1, e2, e3⟩ := ih p1 p' os hs1 hr hi
      refine ⟨op :: o1, o2, q, o :: qs, by rw [e1]; rfl, ?_, e3⟩
      rw [BProc.run, h1, Res.bind_ok]
      dsimp only
      rw [e2, Res.bind_ok]
    · refine ⟨[op], ops, p1, [o], rfl, ?_, he⟩
      rw [BProc.run, h1, Res.bind_ok]
      rfl

/-- C76, partial: on a backend that is not initialised `Reset` changes nothing; on any other it changes nothing but the status: window, states, covariance, attitudes and biases stay. -/
theorem C76_reset_partial (b : Backend K T) : (b.status = .needInit → b.reset = b) ∧
    (b.reset.status = .needInit ∧ b.reset.u = b.u ∧ b.reset.att = b.att ∧ b.reset.loader = b.loader) := by
  refine ⟨fun h => ?_, rfl, rfl, rfl, rfl⟩
  unfold reset
  cases b
  dsimp only at h
  rw [h]

/-! ### Concrete cases -/

/-- The undefined behaviour a result stands for. -/
def ubIs {α : Type} (t : UB) : Res α → Bool
  | .ok _ => false
  | .ub s => decide (s = t)

theorem eq_ub {α : Type} {t : UB} {r : Res α} (h : ubIs t r = true) : r = .ub t := by
  cases r with
  | ok _ => cases h
  | ub s => rw [of_decide_eq_true h]

/-- A message in which every feature has the same observation. -/
def exSame (ids : List Nat) (o : Obs ℚ) (t : ℚ) : FeatMsg ℚ ℚ := ⟨ids, ids.map (fun _ => o), t⟩

/-- An observation by both cameras. -/
def exObs : Obs ℚ := ⟨[(0, ⟨0, 0⟩), (1, ⟨1, 0⟩)]⟩

/-- An IMU sample, a features message of that time, and a `RunOnce`. -/
def exRun (t : ℚ) (m : FeatMsg ℚ ℚ) : List (BOp ℚ ℚ) := [.imu (exImu t), .feat m, .run exEnv]

/-- C69 is false: an observation by a camera that does not exist. -/
theorem C69_unknown_camera : exProc.run (exRun 0 (exSame [0] ⟨[(5, ⟨0, 0⟩)]⟩ 0) ++ exRun 1 (exSame [0] exObs 1)) = .ub .outOfRange :=
  eq_ub (by decide +kernel)

/-- C69 is false: an observation by no camera. -/
theorem C69_empty_observation : exProc.run (exRun 0 (exSame [0] exObs 0) ++ exRun 1 (exSame [0] ⟨[]⟩ 1) ++ exRun 2 (exSame [0] exObs 2)) = .ub .outOfRange :=
  eq_ub (by decide +kernel)

/-- C69 is false: an id twice in a message. -/
theorem C69_repeated_id : exProc.run (exRun 0 (exSame (List.range 10) exObs 0) ++ exRun 1 (exSame (List.range 10 ++ [0]) exObs 1)) = .ub .nullDeref :=
  eq_ub (by decide +kernel)

/-- C69 is false: a track that is lost and found again while its first frame is in the window; the IMU data of the third message come late. -/
theorem C69_refound_track : exProc.run (exRun 0 (exSame (List.range 11) exObs 0) ++ exRun 1 (exSame (List.range 10) exObs 1) ++
    [.feat (exSame [10] exObs 2), .run exEnv, .imu (exImu 2), .run exEnv] ++ exRun 3 (exSame [0] exObs 3)) = .ub .outOfRange :=
  eq_ub (by decide +kernel)

/-- No features are used for the update, and the filter starts from an accelerometer bias. -/
def exBias : BProc ℚ ℚ := { exProc with b := { exProc.b with maxUsed := 0, u := { exProc.b.u with q := { exProc.b.u.q with biasA := ⟨0, 0, 1⟩ } } } }

/-- A history that initialises, updates, loses the IMU data and initialises again. -/
def exTwice : List (BOp ℚ ℚ) :=
  exRun 0 (exMsg 10 0) ++ exRun 1 (exMsg 10 1) ++ [.feat (exMsg 10 4), .run exEnv, .imu (exImu 4), .run exEnv] ++ exRun 5 (exMsg 10 5)

/-- C77 is false: after the second initialisation the queue holds readings from which the bias (0, 0, 1) was already subtracted; `PropagateMotionNominalState` subtracts it again.
All pushed samples read (0, 0, 10). -/
theorem C77_twice : (exBias.run exTwice).check (fun r => decide (r.1.b.status = .initialized) && decide (r.1.b.u.q.biasA.z = 1) &&
      r.1.b.u.q.items.any (fun i => decide (i.accel.z = 9))) = true ∧ ∀ x ∈ readings exTwice, x.1.z = 10 := by
  refine ⟨by decide +kernel, ?_⟩
  have : (readings exTwice).all (fun x => decide (x.1.z = 10)) = true := by decide +kernel
  simpa using this

/-- C76 is false: with the same two messages a fresh backend initialises, a backend after `Reset` does not: it is stuck. -/
theorem C76_not_fresh : (exProc.run (exRun 2 (exMsg 10 2) ++ exRun 3 (exMsg 10 3))).check (fun r => decide (r.1.b.status = .initialized)) = true ∧
    (exBias.run (exRun 2 (exMsg 10 2) ++ exRun 3 (exMsg 10 3))).check (fun r => decide (r.1.b.status = .initialized)) = true ∧
    (exBias.run (exRun 0 (exMsg 10 0) ++ exRun 1 (exMsg 10 1) ++ [.reset] ++ exRun 2 (exMsg 10 2) ++ exRun 3 (exMsg 10 3))).check
      (fun r => decide (r.1.b.status = .needInit)) = true :=
  ⟨by decide +kernel, by decide +kernel, by decide +kernel⟩

/-- The state after `Reset` and one message meets the hypotheses of `C76_stuck`. -/
theorem C76_reaches_stuck : ∃ p' outs, exBias.run (exRun 0 (exMsg 10 0) ++ exRun 1 (exMsg 10 1) ++ [.reset] ++ exRun 2 (exMsg 10 2)) = .ok (p', outs) ∧ Stuck 2 24 p'.b := by
  have h : (exBias.run (exRun 0 (exMsg 10 0) ++ exRun 1 (exMsg 10 1) ++ [.reset] ++ exRun 2 (exMsg 10 2))).check
      (fun r => decide (r.1.b.status = .needInit) && (decide (r.1.b.u.w.frm.extrinsics.length = 2) && (decide (r.1.b.u.w.frm.frames.length = 1) &&
        (!r.1.b.u.q.items.isEmpty && r.1.b.u.q.items.all (fun i => decide (i.imuEx.cols = 24)))))) = true := by decide +kernel
  obtain ⟨⟨p', outs⟩, h1, h2⟩ := Res.exists_of_check h
  simp only [Bool.and_eq_true, decide_eq_true_eq, Bool.not_eq_true', List.isEmpty_eq_false_iff, List.all_eq_true] at h2
  exact ⟨p', outs, h1, h2.1, h2.2.1, h2.2.2.1, h2.2.2.2.1, h2.2.2.2.2⟩

/-- `Stays` by evaluation. -/
def staysB (p : BProc K T) : List (BOp K T) → Bool
  | [] => true
  | op :: ops => match p.step op with
    | .ok (p', _) => decide (p.b.status = .initialized → p'.b.status = .initialized) && staysB p' ops
    | .ub _ => true

theorem stays_of_check (ops : List (BOp K T)) : ∀ p : BProc K T, staysB p ops = true → Stays p ops := by
  induction ops with
  | nil => intro p _; trivial
  | cons op ops ih =>
    intro p h p' o hs
    rw [staysB, hs] at h
    simp only [Bool.and_eq_true, decide_eq_true_eq] at h
    exact ⟨h.1, ih p' h.2⟩

/-- C77: the hypotheses hold for a history that initialises and updates twice. -/
example : RawInv (readings (exRun 0 (exMsg 10 0) ++ exRun 1 (exMsg 10 1) ++ exRun 2 (exMsg 10 2))) exBias.b ∧
    Stays exBias (exRun 0 (exMsg 10 0) ++ exRun 1 (exMsg 10 1) ++ exRun 2 (exMsg 10 2)) ∧ ∀ v : Vec3 ℚ, v - 0 = v := by
  refine ⟨⟨fun m (hm : m ∈ ([] : List (ImuMsg ℚ ℚ))) => absurd hm List.not_mem_nil, fun i (hi : i ∈ ([] : List (PropItem ℚ ℚ))) => absurd hi List.not_mem_nil,
    fun _ => ⟨rfl, rfl, fun i (hi : i ∈ ([] : List (AttItem ℚ ℚ))) => absurd hi List.not_mem_nil⟩⟩, stays_of_check _ _ (by decide +kernel), ?_⟩
  intro v
  cases v
  show Vec3.mk _ _ _ = _
  simp

/-! ### C69: what is survived -/

/-- The calls without the features messages whose numbers of ids and observations differ. -/
def dropUneven : List (BOp K T) → List (BOp K T)
  | [] => []
  | .feat m :: ops => if m.ids.length ≠ m.observes.length then dropUneven ops else .feat m :: dropUneven ops
  | op :: ops => op :: dropUneven ops

theorem run_dropUneven (ops : List (BOp K T)) : ∀ (p p' : BProc K T) (outs : List (BOut K T)), p.run (dropUneven ops) = .ok (p', outs) → ∃ outs', p.run ops = .ok (p', outs') := by
  induction ops with
  | nil => intro p p' outs h; exact ⟨outs, h⟩
  | cons op ops ih =>
    intro p p' outs h
    have keep : dropUneven (op :: ops) = op :: dropUneven ops → ∃ outs', p.run (op :: ops) = .ok (p', outs') := by
      intro e
      rw [e, BProc.run] at h
      obtain ⟨⟨p1, o⟩, hs, h⟩ := Res.bind_eq_ok.1 h
      obtain ⟨⟨p2, os⟩, hr, h⟩ := Res.bind_eq_ok.1 h
      cases h
      obtain ⟨os', h'⟩ := ih p1 p' os hr
      refine ⟨o :: os', ?_⟩
      rw [BProc.run, hs, Res.bind_ok]
      dsimp only
      rw [h', Res.bind_ok]
    cases op with
    | feat m =>
      by_cases hm : m.ids.length ≠ m.observes.length
      · rw [dropUneven, if_pos hm] at h
        obtain ⟨os', h'⟩ := ih p p' outs h
        have hs : p.step (.feat m) = .ok (p, .ret true) := by
          have e : p.b.loader.pushFeatures p.statics m = ⟨p.statics, p.b.loader, false, m⟩ := by
            unfold Loader.pushFeatures
            rw [if_pos hm]
          rw [BProc.step, e]
        refine ⟨.ret true :: os', ?_⟩
        rw [BProc.run, hs, Res.bind_ok]
        dsimp only
        rw [h', Res.bind_ok]
      · exact keep (by rw [dropUneven, if_neg hm])
    | _ => exact keep rfl

/-- C69, partial: messages with different numbers of ids and observations are survived, at any place of a history that is otherwise well formed.
Missing: the other kinds of malformed input, for which it is false (`C69_unknown_camera`, `C69_empty_observation`, `C69_repeated_id`, `C69_refound_track`). -/
theorem C69_uneven_partial [LinearOrder T] [TimeLaws T] [CastLaws T K] (p : BProc K T) (ops : List (BOp K T)) (hf : Fresh p.b) (hr : Ready p.b) (hres : ∀ op ∈ dropUneven ops, op ≠ .reset)
    (hm : ∀ m ∈ featMsgs (dropUneven ops), MsgOk p.b.u.w.frm.extrinsics.length m) (hc : Continuous ((featMsgs (dropUneven ops)).map (·.ids)))
    (hn : (featMsgs (dropUneven ops)).length + 1 < two32) : ∃ p' outs, p.run ops = .ok (p', outs) := by
  obtain ⟨p', outs, h⟩ := C68_tracker_partial p _ hf hr hres hm hc hn
  obtain ⟨outs', h'⟩ := run_dropUneven ops p p' outs h
  exact ⟨p', outs', h'⟩

/-- A history with an uneven message to which it applies. -/
example : ∃ p' outs, exProc.run (.feat ⟨[7], [], 0⟩ :: exOps 10) = .ok (p', outs) := by
  have he : dropUneven (.feat ⟨[7], [], 0⟩ :: exOps 10) = exOps 10 := rfl
  refine C69_uneven_partial exProc _ ex_fresh ex_ready ?_ ?_ ?_ ?_ <;> rw [he]
  · intro op hop h; subst h; revert hop; simp [exOps]
  · intro m hm
    have : m = exMsg 10 0 ∨ m = exMsg 10 1 := by simpa [exOps, featMsgs] using hm
    rcases this with rfl | rfl
    · exact ex_msgOk _ (by decide) rfl rfl
    · exact ex_msgOk _ (by decide) rfl rfl
  · intro x y z h
    have := h.length_le
    simp [exOps, featMsgs] at this
  · decide

end Backend
end Vio

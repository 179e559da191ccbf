/-
Two histories side by side that differ only in the environments of the `RunOnce` calls: if the updates agree, all outputs are equal.
-/
import Verif.Lemmas.Agree
import Verif.Props.Backend
import Verif.Spec.Runs

set_option linter.unusedSectionVars false

namespace Vio
open Spec WinSpec Update Res DMat

variable {K T : Type} [Add K] [Sub K] [Mul K] [Neg K] [Div K] [Zero K] [One K] [ScalarFn K]
  [TimeOps T] [TimeCast T K]

namespace Backend

/-- Backends equal up to the entries outside the matrices. -/
structure BSame (b b' : Backend K T) : Prop where
  loader : b.loader = b'.loader
  u : USame b.u b'.u
  att : b.att = b'.att
  noise : b.noise = b'.noise
  maxUsed : b.maxUsed = b'.maxUsed
  mounted : b.mounted = b'.mounted
  pnp : b.pnp = b'.pnp
  status : b.status = b'.status

theorem USame.setW {u u' : Upd K T} (h : USame u u') (w : Win K T) : USame { u with w := w } { u' with w := w } := ⟨h.q, rfl, h.policy, h.cov, h.pos⟩

theorem BSame.setWin {b b' : Backend K T} (h : BSame b b') (w : Win K T) : BSame (b.setWin w) (b'.setWin w) :=
  ⟨h.loader, USame.setW h.u w, h.att, h.noise, h.maxUsed, h.mounted, h.pnp, h.status⟩

theorem analytic_ext (ext ext' : Ext K) (h : ext.svdLast = ext'.svdLast) (qs : List (Quat K)) (ps : List (Vec3 K)) (ns : List (Vec2 K)) (pw : Vec3 K) :
    Triang.analytic ext qs ps ns pw = Triang.analytic ext' qs ps ns pw := by
  unfold Triang.analytic
  rw [h]

theorem triMultiView_ext (ext ext' : Ext K) (h : ext.svdLast = ext'.svdLast) (f : Frame K T) (l : List (Nat × Nat)) : ∀ w : Win K T, triMultiView ext f w l = triMultiView ext' f w l := by
  induction l with
  | nil => intro w; rfl
  | cons e l ih =>
    intro w
    rw [triMultiView, triMultiView]
    simp only [analytic_ext ext ext' h, ih]

theorem loop_ext (ext ext' : Ext K) (h : ext.ldlt6 = ext'.ldlt6) (prm : PnpParam K) (kernel : Bool) (pts : List (Vec3 K × Vec2 K)) (n : Nat) : ∀ s : Pose K,
    Pnp.loop ext prm kernel pts n s = Pnp.loop ext' prm kernel pts n s := by
  induction n with
  | zero => intro s; rfl
  | succ n ih =>
    intro s
    rw [Pnp.loop, Pnp.loop]
    simp only [h, ih]

theorem estimateFramePose_ext (ext ext' : Ext K) (h : ext.ldlt6 = ext'.ldlt6) (prm : PnpParam K) (w : Win K T) (f : Frame K T) :
    estimateFramePose ext prm w f = estimateFramePose ext' prm w f := by
  unfold estimateFramePose Pnp.estimate
  simp only [loop_ext ext ext' h]

theorem initPropagator_same {b b' : Backend K T} (h : BSame b b') (g : Vec3 K) (st : Motion K) (t : T) : Both BSame (initPropagator g b st t) (initPropagator g b' st t) := by
  unfold initPropagator
  dsimp only
  rw [← h.att, ← h.loader, ← h.mounted, ← h.u.w]
  refine (Both.refl (R := Eq) (fun _ => rfl) _).bind (fun att _ _ _ e => ?_); subst e
  refine (replay_same b.mounted _ g att.items { b.u.q with initState := st } { b'.u.q with initState := st }
    ⟨h.u.q.items, h.u.q.exCam, h.u.q.biasA, h.u.q.biasG, rfl, h.u.q.F, h.u.q.G, h.u.q.Q, h.u.q.f1, h.u.q.f2, h.u.q.g1⟩).bind (fun s s' _ _ hs => ?_)
  exact ⟨rfl, ⟨hs, rfl, h.u.policy, h.u.cov, h.u.pos⟩, rfl, h.noise, h.maxUsed, rfl, h.pnp, h.status⟩

theorem initialise_same (env env' : Env K) (h1 : env.ext.svdLast = env'.ext.svdLast) (h2 : env.ext.ldlt6 = env'.ext.ldlt6) (g : Vec3 K) {b b' : Backend K T} (h : BSame b b') :
    Both (fun x y => x.1 = y.1 ∧ BSame x.2 y.2) (initialise env g b) (initialise env' g b') := by
  unfold initialise
  rw [← h.u.w]
  split
  · rename_i fi fj rest hf
    dsimp only
    rw [← h.att, ← h.loader, ← h.pnp]
    split
    · exact ⟨rfl, h⟩
    refine (Both.refl (R := Eq) (fun _ => rfl) _).bind (fun a _ _ _ e => ?_); subst e
    cases a with
    | none => exact ⟨rfl, h⟩
    | some q =>
      dsimp only
      rw [triMultiView_ext env.ext env'.ext h1]
      refine (Both.refl (R := Eq) (fun _ => rfl) _).bind (fun w _ _ _ e => ?_); subst e
      rw [estimateFramePose_ext env.ext env'.ext h2]
      refine (Both.refl (R := Eq) (fun _ => rfl) _).bind (fun x _ _ _ e => ?_); subst e
      obtain ⟨good, fj'⟩ := x
      dsimp only
      split
      · exact ⟨rfl, h.setWin _⟩
      · refine (initPropagator_same (h.setWin _) g _ _).bind (fun b1 b1' _ _ hb => ?_)
        refine (front_same hb.u.q).bind (fun _ _ _ _ _ => ?_)
        exact ⟨rfl, hb⟩
  · exact ⟨rfl, h⟩

theorem shrunk_same {b b' : Backend K T} (h : BSame b b') : Both BSame b.shrunk b'.shrunk := by
  unfold shrunk
  rw [← h.u.w]
  refine (Both.refl (R := Eq) (fun _ => rfl) _).bind (fun w _ _ _ e => ?_); subst e
  exact h.setWin w

theorem tryInit_same (env env' : Env K) (h1 : env.ext.svdLast = env'.ext.svdLast) (h2 : env.ext.ldlt6 = env'.ext.ldlt6) (g : Vec3 K) {b b' : Backend K T} (h : BSame b b') :
    Both BSame (b.tryInit env g) (b'.tryInit env' g) := by
  unfold tryInit
  rw [← h.status]
  cases hs : b.status with
  | needInit =>
    refine (initialise_same env env' h1 h2 g h).bind (fun ⟨r, b1⟩ ⟨r', b1'⟩ _ _ e => ?_)
    obtain ⟨e1, e2⟩ := e
    dsimp only at e1 e2 ⊢
    subst e1
    split
    · exact ⟨e2.loader, e2.u, e2.att, e2.noise, e2.maxUsed, e2.mounted, e2.pnp, rfl⟩
    · exact shrunk_same e2
  | initialized => exact h

theorem tryUpdate_same (env env' : Env K) (g : Vec3 K) {b b' : Backend K T} (ts : T) (h : BSame b b')
    (hu : b.status = .initialized → Both (fun x y => x.1 = y.1 ∧ USame x.2 y.2) (update env b.noise b.maxUsed g b.u ts b.loader.imuPeriod) (update env' b.noise b.maxUsed g b'.u ts b.loader.imuPeriod)) :
    Both BSame (b.tryUpdate env g ts) (b'.tryUpdate env' g ts) := by
  unfold tryUpdate
  rw [← h.status, ← h.mounted, ← h.noise, ← h.maxUsed, ← h.loader]
  cases hs : b.status with
  | needInit => exact h
  | initialized =>
    dsimp only
    split
    · refine (hu hs).bind (fun ⟨r, u⟩ ⟨r', u'⟩ _ _ e => ?_)
      obtain ⟨e1, e2⟩ := e
      dsimp only at e1 e2 ⊢
      subst e1
      split
      · rw [← e2.w, ← e2.policy]
        refine (Both.refl (R := Eq) (fun _ => rfl) _).bind (fun w _ _ _ e => ?_); subst e
        refine ⟨rfl, ⟨e2.q, rfl, rfl, e2.cov, e2.pos⟩, ?_, rfl, rfl, rfl, h.pnp, rfl⟩
        dsimp only
        rw [h.att, e2.q.biasA, e2.q.biasG]
      · exact shrunk_same ⟨rfl, e2, h.att, rfl, rfl, rfl, h.pnp, rfl⟩
    · rfl

theorem cleanAtt_same {b b' : Backend K T} (h : BSame b b') : Both BSame b.cleanAtt b'.cleanAtt := by
  unfold cleanAtt
  rw [← h.u.w, ← h.att, ← h.loader]
  split
  · refine (Both.refl (R := Eq) (fun _ => rfl) _).bind (fun f _ _ _ e => ?_); subst e
    refine (Both.refl (R := Eq) (fun _ => rfl) _).bind (fun att _ _ _ e => ?_); subst e
    exact ⟨rfl, h.u, rfl, h.noise, h.maxUsed, h.mounted, h.pnp, h.status⟩
  · exact h

theorem onFeat_same (env env' : Env K) (h1 : env.ext.svdLast = env'.ext.svdLast) (h2 : env.ext.ldlt6 = env'.ext.ldlt6) (g : Vec3 K) {b b' : Backend K T} (h : BSame b b') (m : FeatMsg K T)
    (hu : ∀ b1 b1' : Backend K T, (b.setWin (b.u.w.insert m)).tryInit env g = .ok b1 → BSame b1 b1' → b1.status = .initialized →
      Both (fun x y => x.1 = y.1 ∧ USame x.2 y.2) (update env b1.noise b1.maxUsed g b1.u m.ts b1.loader.imuPeriod) (update env' b1.noise b1.maxUsed g b1'.u m.ts b1.loader.imuPeriod)) :
    Both BSame (b.onFeat env g m) (b'.onFeat env' g m) := by
  unfold onFeat
  dsimp only
  rw [← h.u.w]
  refine (tryInit_same env env' h1 h2 g (h.setWin _)).bind (fun b1 b1' k1 _ s1 => ?_)
  refine (tryUpdate_same env env' g m.ts s1 (hu b1 b1' k1 s1)).bind (fun b2 b2' _ _ s2 => ?_)
  exact cleanAtt_same s2

theorem onImu_same (g : Vec3 K) {b b' : Backend K T} (h : BSame b b') (ms : List (ImuMsg K T)) : Both (fun x y => x.1 = y.1 ∧ BSame x.2 y.2) (b.onImu g ms) (b'.onImu g ms) := by
  cases ms with
  | nil => exact ⟨rfl, h⟩
  | cons m ms =>
    rw [onImu, onImu, ← h.att]
    generalize b.att.propagate g m.accel m.gyro m.ts = ar
    obtain ⟨att, res⟩ := ar
    dsimp only
    rw [← h.status, ← h.mounted, ← h.u.w]
    split
    · rename_i hs; exact ⟨rfl, h.loader, h.u, rfl, h.noise, h.maxUsed, rfl, h.pnp, rfl⟩
    · split
      · exact ⟨rfl, h.loader, ⟨propagate_same h.u.q _ g _ _ _, rfl, h.u.policy, h.u.cov, h.u.pos⟩, rfl, h.noise, h.maxUsed, rfl, h.pnp, rfl⟩
      · rfl

theorem publish_same {b b' : Backend K T} (h : BSame b b') : b.publishPropagate = b'.publishPropagate ∧ b.publishUpdate = b'.publishUpdate := by
  have hit := h.u.q.items
  constructor
  · unfold publishPropagate
    rw [← forall₂_isEmpty hit]
    split
    · rfl
    · unfold back
      rcases forall₂_getLast hit with ⟨h1, h2⟩ | ⟨x, y, h1, h2, h3⟩
      · rw [h1, h2]; rfl
      · rw [h1, h2]
        simp only [Res.bind_ok, publish, h3.st, h3.ts, h.u.q.biasA, h.u.q.biasG]
  · unfold publishUpdate
    rw [← forall₂_isEmpty hit]
    split
    · rfl
    · have := front_same h.u.q
      cases hf : front b.u.q.items <;> cases hf' : front b'.u.q.items <;> rw [hf, hf'] at this
      · simp only [Res.bind_ok, publish, this.st, this.ts, h.u.q.biasA, h.u.q.biasG]
      · exact absurd this (by simp [Both])
      · exact absurd this (by simp [Both])
      · rw [show _ = _ from this]; rfl

end Backend

open Backend

/-- Processes equal up to the entries outside the matrices. -/
structure PSame (p p' : BProc K T) : Prop where
  statics : p.statics = p'.statics
  g : p.g = p'.g
  b : BSame p.b p'.b

/-- What `run_same` asks of the update in a call of `RunOnce`. -/
def UpdatesAgree (env env' : Env K) (p : BProc K T) : Prop :=
  ∀ (res : Bool) (b1 b2 b2' : Backend K T) (m : FeatMsg K T), onImu p.g { p.b with loader := p.b.loader.popOne.loader } p.b.loader.popOne.out.imuMeas = .ok (res, b1) →
    p.b.loader.popOne.out.featMeas = some m → (b1.setWin (b1.u.w.insert m)).tryInit env p.g = .ok b2 → BSame b2 b2' → b2.status = .initialized →
      Both (fun x y => x.1 = y.1 ∧ USame x.2 y.2) (update env b2.noise b2.maxUsed p.g b2.u m.ts b2.loader.imuPeriod) (update env' b2.noise b2.maxUsed p.g b2'.u m.ts b2.loader.imuPeriod)

theorem runOnce_same (env env' : Env K) (h1 : env.ext.svdLast = env'.ext.svdLast) (h2 : env.ext.ldlt6 = env'.ext.ldlt6) {p p' : BProc K T} (h : PSame p p') (hu : UpdatesAgree env env' p) :
    Both (fun x y => x.1 = y.1 ∧ BSame x.2 y.2) (p.b.runOnce env p.g) (p'.b.runOnce env' p.g) := by
  unfold runOnce
  dsimp only
  rw [← h.b.loader]
  split
  · refine (onImu_same p.g (b := { p.b with loader := p.b.loader.popOne.loader }) (b' := { p'.b with loader := p.b.loader.popOne.loader })
      ⟨rfl, h.b.u, h.b.att, h.b.noise, h.b.maxUsed, h.b.mounted, h.b.pnp, h.b.status⟩ p.b.loader.popOne.out.imuMeas).bind (fun ⟨r, b1⟩ ⟨r', b1'⟩ k1 _ e => ?_)
    obtain ⟨e1, e2⟩ := e
    dsimp only at e1 e2 ⊢
    subst e1
    split
    · exact ⟨rfl, e2⟩
    · rename_i m hm
      refine (onFeat_same env env' h1 h2 p.g e2 m (fun b2 b2' k2 s2 hs => hu r b1 b2 b2' m k1 hm k2 s2 hs)).bind (fun b2 b2' _ _ s2 => ?_)
      exact ⟨rfl, s2⟩
  · exact ⟨rfl, rfl, h.b.u, h.b.att, h.b.noise, h.b.maxUsed, h.b.mounted, h.b.pnp, h.b.status⟩

/-- Two histories that differ only in the environments give the same outputs, if an invariant of the first one makes every update agree. -/
theorem run_same (ER : Env K → Env K → Prop) (hE : ∀ env env', ER env env' → env.ext.svdLast = env'.ext.svdLast ∧ env.ext.ldlt6 = env'.ext.ldlt6)
    (Inv : BProc K T → List (BOp K T) → Prop) (hstep : ∀ p op ops p1 o, Inv p (op :: ops) → p.step op = .ok (p1, o) → Inv p1 ops)
    (hupd : ∀ p env env' ops, Inv p (.run env :: ops) → ER env env' → UpdatesAgree env env' p) {ops ops' : List (BOp K T)} (hops : List.Forall₂ (OpSame ER) ops ops') :
    ∀ p p' : BProc K T, PSame p p' → Inv p ops → Both (fun x y => PSame x.1 y.1 ∧ x.2 = y.2) (p.run ops) (p'.run ops') := by
  induction hops with
  | nil => intro p p' h _; exact ⟨h, rfl⟩
  | cons hop hops ih =>
    rename_i op op' ops ops'
    intro p p' h hi
    rw [BProc.run, BProc.run]
    have hs : Both (fun x y => PSame x.1 y.1 ∧ x.2 = y.2) (p.step op) (p'.step op') := by
      cases hop with
      | imu m =>
        rw [BProc.step, BProc.step, ← h.b.loader, ← h.statics]
        exact ⟨⟨rfl, h.g, rfl, h.b.u, h.b.att, h.b.noise, h.b.maxUsed, h.b.mounted, h.b.pnp, h.b.status⟩, rfl⟩
      | feat m =>
        rw [BProc.step, BProc.step, ← h.b.loader, ← h.statics]
        exact ⟨⟨rfl, h.g, rfl, h.b.u, h.b.att, h.b.noise, h.b.maxUsed, h.b.mounted, h.b.pnp, h.b.status⟩, rfl⟩
      | run env env' he =>
        rw [BProc.step, BProc.step, ← h.g]
        refine (runOnce_same env env' (hE _ _ he).1 (hE _ _ he).2 h (hupd p env env' ops hi he)).bind (fun ⟨r, b⟩ ⟨r', b'⟩ _ _ e => ?_)
        obtain ⟨e1, e2⟩ := e
        dsimp only at e1 e2 ⊢
        subst e1
        exact ⟨⟨h.statics, rfl, e2⟩, rfl⟩
      | runTest =>
        rw [BProc.step, BProc.step]
        unfold runOnceTest
        rw [← h.b.loader]
        exact ⟨⟨h.statics, h.g, rfl, h.b.u, h.b.att, h.b.noise, h.b.maxUsed, h.b.mounted, h.b.pnp, h.b.status⟩, rfl⟩
      | publishPropagate =>
        rw [BProc.step, BProc.step, ← (publish_same h.b).1]
        refine (Both.refl (R := Eq) (fun _ => rfl) _).bind (fun x _ _ _ e => ?_); subst e
        exact ⟨h, rfl⟩
      | publishUpdate =>
        rw [BProc.step, BProc.step, ← (publish_same h.b).2]
        refine (Both.refl (R := Eq) (fun _ => rfl) _).bind (fun x _ _ _ e => ?_); subst e
        exact ⟨h, rfl⟩
      | reset =>
        rw [BProc.step, BProc.step]
        exact ⟨⟨h.statics, h.g, h.b.loader, h.b.u, h.b.att, h.b.noise, h.b.maxUsed, h.b.mounted, h.b.pnp, rfl⟩, rfl⟩
    refine hs.bind (fun ⟨p1, o⟩ ⟨p1', o'⟩ k1 _ e => ?_)
    obtain ⟨e1, e2⟩ := e
    dsimp only at e1 e2 ⊢
    subst e2
    refine (ih p1 p1' e1 (hstep p op ops p1 o hi k1)).bind (fun ⟨p2, os⟩ ⟨p2', os'⟩ _ _ e => ?_)
    obtain ⟨e3, e4⟩ := e
    dsimp only at e3 e4 ⊢
    subst e4
    exact ⟨e3, rfl⟩

end Vio

/-
C133: the filter neither learns nor uses where the world is.
-/
import Verif.Lemmas.Offset
import Verif.Props.Heading

set_option linter.unusedSectionVars false

namespace Vio
open Spec WinSpec Update Res DMat PropQueue PropSpec

namespace Backend

section Step
variable {T : Type} [TimeOps T] [TimeCast T ℝ]

/-- Backends that differ in covariances only. -/
structure BOff (D : Nat → Nat → ℝ) (b b' : Backend ℝ T) : Prop where
  loader : b'.loader = b.loader
  u : UOff D b.u b'.u
  att : b'.att = b.att
  noise : b'.noise = b.noise
  maxUsed : b'.maxUsed = b.maxUsed
  mounted : b'.mounted = b.mounted
  pnp : b'.pnp = b.pnp
  status : b'.status = b.status

theorem BOff.setWin {D : Nat → Nat → ℝ} {b b' : Backend ℝ T} (h : BOff D b b') (w : Win ℝ T) : BOff D (b.setWin w) (b'.setWin w) :=
  ⟨h.loader, ⟨h.u.q, rfl, h.u.policy, h.u.pos⟩, h.att, h.noise, h.maxUsed, h.mounted, h.pnp, h.status⟩

/-- An empty queue has no covariance, so every offset fits it. -/
theorem BOff.any {D : Nat → Nat → ℝ} {b b' : Backend ℝ T} (h : BOff D b b') (he : b.u.q.items = []) (D' : Nat → Nat → ℝ) : BOff D' b b' := by
  refine ⟨h.loader, ⟨⟨?_, fun hn => absurd he hn, h.u.q.biasA, h.u.q.biasG, h.u.q.init, h.u.q.F, h.u.q.G, h.u.q.Q, h.u.q.clean⟩, h.u.w, h.u.policy, h.u.pos⟩, h.att, h.noise, h.maxUsed,
    h.mounted, h.pnp, h.status⟩
  rw [he, forall₂_nil h.u.q.items he]
  exact .nil

theorem initPropagator_off {nc : Nat} {b b' : Backend ℝ T} (h : BOff (shiftCov nc fun _ _ => 0) b b') (g : Vec3 ℝ) (st : Motion ℝ) (t : T) :
    Both (BOff (shiftCov nc fun _ _ => 0)) (initPropagator g b st t) (initPropagator g b' st t) := by
  unfold initPropagator
  dsimp only
  rw [h.att, h.loader, h.mounted, h.u.w]
  refine (Both.refl (R := Eq) (fun _ => rfl) _).bind (fun att _ _ _ e => ?_); subst e
  refine (replay_off b.mounted _ g att.items { b.u.q with initState := st } { b'.u.q with initState := st }
    ⟨h.u.q.items, h.u.q.exCam, h.u.q.biasA, h.u.q.biasG, rfl, h.u.q.F, h.u.q.G, h.u.q.Q, h.u.q.clean⟩).bind (fun s s' _ _ hs => ?_)
  exact ⟨rfl, ⟨hs, rfl, h.u.policy, h.u.pos⟩, rfl, h.noise, h.maxUsed, rfl, h.pnp, h.status⟩

theorem initialise_off {nc : Nat} (env : Env ℝ) (g : Vec3 ℝ) {b b' : Backend ℝ T} (h : BOff (shiftCov nc fun _ _ => 0) b b') :
    Both (fun x y => x.1 = y.1 ∧ BOff (shiftCov nc fun _ _ => 0) x.2 y.2) (initialise env g b) (initialise env g b') := by
  unfold initialise
  rw [h.u.w]
  split
  · rename_i fi fj rest hf
    dsimp only
    rw [h.att, h.loader, h.pnp]
    split
    · exact ⟨rfl, h⟩
    refine (Both.refl (R := Eq) (fun _ => rfl) _).bind (fun a _ _ _ e => ?_); subst e
    cases a with
    | none => exact ⟨rfl, h⟩
    | some q =>
      dsimp only
      refine (Both.refl (R := Eq) (fun _ => rfl) _).bind (fun w _ _ _ e => ?_); subst e
      refine (Both.refl (R := Eq) (fun _ => rfl) _).bind (fun x _ _ _ e => ?_); subst e
      obtain ⟨good, fj'⟩ := x
      dsimp only
      split
      · exact ⟨rfl, h.setWin _⟩
      · refine (initPropagator_off (h.setWin _) g _ _).bind (fun b1 b1' _ _ hb => ?_)
        refine (front_off hb.u.q).bind (fun _ _ _ _ _ => ?_)
        exact ⟨rfl, hb⟩
  · exact ⟨rfl, h⟩

theorem shrunk_off {D : Nat → Nat → ℝ} {b b' : Backend ℝ T} (h : BOff D b b') : Both (BOff D) b.shrunk b'.shrunk := by
  unfold shrunk
  rw [h.u.w]
  refine (Both.refl (R := Eq) (fun _ => rfl) _).bind (fun w _ _ _ e => ?_); subst e
  exact h.setWin w

/-- The offset after a call: the same while the filter is initialised, none after a new initialisation. -/
def Kept (S S' : Nat → Nat → ℝ) (st : Status) : Prop := (st = .initialized → S' = S) ∧ (S' = S ∨ S' = fun _ _ => 0)

theorem tryInit_off {nc : Nat} {S : Nat → Nat → ℝ} (env : Env ℝ) (g : Vec3 ℝ) {b b' : Backend ℝ T} (h : BOff (shiftCov nc S) b b') (he : b.status = .needInit → b.u.q.items = []) :
    Both (fun x y => ∃ S', Kept S S' b.status ∧ BOff (shiftCov nc S') x y) (b.tryInit env g) (b'.tryInit env g) := by
  unfold tryInit
  rw [h.status]
  cases hs : b.status with
  | needInit =>
    refine (initialise_off env g (h.any (he hs) (shiftCov nc fun _ _ => 0))).bind (fun ⟨r, b1⟩ ⟨r', b1'⟩ _ _ e => ?_)
    obtain ⟨e1, e2⟩ := e
    dsimp only at e1 e2 ⊢
    subst e1
    split
    · exact ⟨_, ⟨(fun h => nomatch h), .inr rfl⟩, e2.loader, e2.u, e2.att, e2.noise, e2.maxUsed, e2.mounted, e2.pnp, rfl⟩
    · exact (shrunk_off e2).mono (fun _ _ _ _ h => ⟨_, ⟨(fun h => nomatch h), .inr rfl⟩, h⟩)
  | initialized => exact ⟨S, ⟨fun _ => rfl, .inl rfl⟩, h⟩

theorem tryUpdate_off {D : Nat → Nat → ℝ} (env : Env ℝ) (g : Vec3 ℝ) {b b' : Backend ℝ T} (ts : T) (h : BOff D b b')
    (hu : b.status = .initialized → Both (fun x y => x.1 = y.1 ∧ UOff D x.2 y.2) (update env b.noise b.maxUsed g b.u ts b.loader.imuPeriod) (update env b.noise b.maxUsed g b'.u ts b.loader.imuPeriod)) :
    Both (BOff D) (b.tryUpdate env g ts) (b'.tryUpdate env g ts) := by
  unfold tryUpdate
  rw [h.status, h.mounted, h.noise, h.maxUsed, h.loader]
  cases hs : b.status with
  | needInit => exact h
  | initialized =>
    dsimp only
    split
    · refine (hu hs).bind (fun ⟨r, u⟩ ⟨r', u'⟩ _ _ e => ?_)
      obtain ⟨e1, e2⟩ := e
      dsimp only at e1 e2 ⊢
      subst e1
      split
      · rw [e2.w, e2.policy]
        refine (Both.refl (R := Eq) (fun _ => rfl) _).bind (fun w _ _ _ e => ?_); subst e
        refine ⟨rfl, ⟨e2.q, rfl, rfl, e2.pos⟩, ?_, rfl, rfl, rfl, h.pnp, rfl⟩
        dsimp only
        rw [h.att, e2.q.biasA, e2.q.biasG]
      · exact shrunk_off ⟨rfl, e2, h.att, rfl, rfl, rfl, h.pnp, rfl⟩
    · rfl

theorem cleanAtt_off {D : Nat → Nat → ℝ} {b b' : Backend ℝ T} (h : BOff D b b') : Both (BOff D) b.cleanAtt b'.cleanAtt := by
  unfold cleanAtt
  rw [h.u.w, h.att, h.loader]
  split
  · refine (Both.refl (R := Eq) (fun _ => rfl) _).bind (fun f _ _ _ e => ?_); subst e
    refine (Both.refl (R := Eq) (fun _ => rfl) _).bind (fun att _ _ _ e => ?_); subst e
    exact ⟨rfl, h.u, rfl, h.noise, h.maxUsed, h.mounted, h.pnp, h.status⟩
  · exact h

theorem onImu_off {nc : Nat} {S : Nat → Nat → ℝ} (g : Vec3 ℝ) {b b' : Backend ℝ T} (h : BOff (shiftCov nc S) b b') (hne : b.status = .initialized → b.u.q.items ≠ []) (ms : List (ImuMsg ℝ T)) :
    Both (fun x y => x.1 = y.1 ∧ BOff (shiftCov nc S) x.2 y.2) (b.onImu g ms) (b'.onImu g ms) := by
  cases ms with
  | nil => exact ⟨rfl, h⟩
  | cons m ms =>
    rw [onImu, onImu, h.att]
    generalize b.att.propagate g m.accel m.gyro m.ts = ar
    obtain ⟨att, res⟩ := ar
    dsimp only
    rw [h.status, h.mounted, h.u.w]
    split
    · rename_i hs; exact ⟨rfl, h.loader, h.u, rfl, h.noise, h.maxUsed, rfl, h.pnp, rfl⟩
    · rename_i hs
      split
      · exact ⟨rfl, h.loader, ⟨propagate_off h.u.q (fun he => absurd he (hne hs)) _ g _ _ _, rfl, h.u.policy, h.u.pos⟩, rfl, h.noise, h.maxUsed, rfl, h.pnp, rfl⟩
      · rfl

theorem publish_off {D : Nat → Nat → ℝ} {b b' : Backend ℝ T} (h : BOff D b b') : b'.publishPropagate = b.publishPropagate ∧ b'.publishUpdate = b.publishUpdate := by
  have hit := h.u.q.items
  constructor
  · unfold publishPropagate
    rw [← forall₂_isEmpty hit]
    split
    · rfl
    · unfold back
      rcases forall₂_getLast hit with ⟨h1, h2⟩ | ⟨x, y, h1, h2, h3⟩
      · rw [h1, h2]; rfl
      · rw [h1, h2]
        simp only [Res.bind_ok, publish, h3.st, h3.ts, h.u.q.biasA, h.u.q.biasG]
  · unfold publishUpdate
    rw [← forall₂_isEmpty hit]
    split
    · rfl
    · have := front_off h.u.q
      cases hf : front b.u.q.items <;> cases hf' : front b'.u.q.items <;> rw [hf, hf'] at this
      · simp only [Res.bind_ok, publish, this.st, this.ts, h.u.q.biasA, h.u.q.biasG]
      · exact absurd this (by simp [Both])
      · exact absurd this (by simp [Both])
      · rw [show _ = _ from this]; rfl

end Step

section Run
variable {T : Type} [TimeOps T] [TimeCast T ℝ] [LinearOrder T] [TimeLaws T] [CastLaws T ℝ]

theorem runOnce_off {nc N U : Nat} (hfit : Fits nc (max 1 N + 1) U) {S : Nat → Nat → ℝ} (hS : ∀ a b, S a b = S b a) (env : Env ℝ) {ops : List (BOp ℝ T)} {p p' : BProc ℝ T}
    (hinv : FilterInv nc N U p (.run env :: ops)) (h : BOff (shiftCov nc S) p.b p'.b) :
    Both (fun x y => x.1 = y.1 ∧ ∃ S', Kept S S' p.b.status ∧ BOff (shiftCov nc S') x.2 y.2) (p.b.runOnce env p.g) (p'.b.runOnce env p.g) := by
  unfold runOnce
  dsimp only
  rw [h.loader]
  split
  · refine (onImu_off p.g (b := { p.b with loader := p.b.loader.popOne.loader }) (b' := { p'.b with loader := p.b.loader.popOne.loader })
      ⟨rfl, h.u, h.att, h.noise, h.maxUsed, h.mounted, h.pnp, h.status⟩ (fun hs => (hinv.cov.dims hs).1) p.b.loader.popOne.out.imuMeas).bind (fun ⟨r, b1⟩ ⟨r', b1'⟩ k1 _ e => ?_)
    obtain ⟨e1, e2⟩ := e
    dsimp only at e1 e2 ⊢
    subst e1
    have hst : b1.status = p.b.status := by
      cases hm : p.b.loader.popOne.out.imuMeas with
      | nil => rw [hm, onImu] at k1; cases k1; rfl
      | cons m ms =>
        rw [hm, onImu] at k1
        dsimp only at k1
        split at k1
        · cases k1; rfl
        · split at k1
          · cases k1; rfl
          · cases k1
    split
    · exact ⟨rfl, S, ⟨fun _ => rfl, .inl rfl⟩, e2⟩
    · rename_i m hm
      obtain ⟨-, l, -, f2, -, -, f5⟩ := filter_ready env hinv r b1 m k1 hm
      unfold onFeat
      dsimp only
      rw [e2.u.w]
      have hti := tryInit_off env p.g (e2.setWin (b1.u.w.insert m)) (fun hs => f2 hs)
      have hall : Both (fun x y => ∃ S', Kept S S' p.b.status ∧ BOff (shiftCov nc S') x y)
          ((b1.setWin (b1.u.w.insert m)).tryInit env p.g >>= fun b => b.tryUpdate env p.g m.ts >>= fun b => b.cleanAtt)
          ((b1'.setWin (b1.u.w.insert m)).tryInit env p.g >>= fun b => b.tryUpdate env p.g m.ts >>= fun b => b.cleanAtt) := by
        refine hti.bind (fun b2 b2' k2 _ ⟨S', hk, s2⟩ => ?_)
        have hS' : ∀ a b, S' a b = S' b a := by
          rcases hk.2 with rfl | rfl
          · exact hS
          · intro _ _; rfl
        obtain ⟨l1, t⟩ := f5 b2 k2
        refine Both.bind (tryUpdate_off env p.g m.ts s2 (fun hs => ?_)) (fun b3 b3' _ _ s3 => ?_)
        · have hl := (t.live hs).1
          have := update_off hS' env (hinv.solvers env List.mem_cons_self) b2.noise b2.maxUsed p.g m.ts b2.loader.imuPeriod (u := b2.u) (u' := b2'.u) (by rw [t.core.ext]; exact s2.u) l1 t.core.rel
            (by rw [t.core.ext]; exact t.core.obs) hl (by rw [t.core.ext, t.core.used]; exact hfit.mono t.len) t.cov
          rw [t.core.ext] at this
          exact this
        · exact (cleanAtt_off s3).mono (fun _ _ _ _ h => ⟨S', by rw [← hst]; exact hk, h⟩)
      refine hall.bind (fun b2 b2' _ _ s2 => ?_)
      exact ⟨rfl, s2⟩
  · exact ⟨rfl, S, ⟨fun _ => rfl, .inl rfl⟩, rfl, h.u, h.att, h.noise, h.maxUsed, h.mounted, h.pnp, h.status⟩

/-- Processes as in `ProcOff`, unfolded. -/
structure POff (D : Nat → Nat → ℝ) (p p' : BProc ℝ T) : Prop where
  statics : p'.statics = p.statics
  g : p'.g = p.g
  b : BOff D p.b p'.b

theorem step_off {nc N U : Nat} (hfit : Fits nc (max 1 N + 1) U) {S : Nat → Nat → ℝ} (hS : ∀ a b, S a b = S b a) (op : BOp ℝ T) {ops : List (BOp ℝ T)} {p p' : BProc ℝ T}
    (hinv : FilterInv nc N U p (op :: ops)) (h : POff (shiftCov nc S) p p') :
    Both (fun x y => x.2 = y.2 ∧ ∃ S', Kept S S' p.b.status ∧ POff (shiftCov nc S') x.1 y.1) (p.step op) (p'.step op) := by
  have hk : Kept S S p.b.status := ⟨fun _ => rfl, .inl rfl⟩
  cases op with
  | imu m =>
    rw [BProc.step, BProc.step, h.b.loader, h.statics]
    exact ⟨rfl, S, hk, rfl, h.g, rfl, h.b.u, h.b.att, h.b.noise, h.b.maxUsed, h.b.mounted, h.b.pnp, h.b.status⟩
  | feat m =>
    rw [BProc.step, BProc.step, h.b.loader, h.statics]
    exact ⟨rfl, S, hk, rfl, h.g, rfl, h.b.u, h.b.att, h.b.noise, h.b.maxUsed, h.b.mounted, h.b.pnp, h.b.status⟩
  | run env =>
    rw [BProc.step, BProc.step, h.g]
    refine (runOnce_off hfit hS env hinv h.b).bind (fun ⟨r, b⟩ ⟨r', b'⟩ _ _ e => ?_)
    obtain ⟨e1, S', e2, e3⟩ := e
    dsimp only at e1 e3 ⊢
    subst e1
    exact ⟨rfl, S', e2, h.statics, rfl, e3⟩
  | runTest =>
    rw [BProc.step, BProc.step]
    unfold runOnceTest
    rw [h.b.loader]
    exact ⟨rfl, S, hk, h.statics, h.g, rfl, h.b.u, h.b.att, h.b.noise, h.b.maxUsed, h.b.mounted, h.b.pnp, h.b.status⟩
  | publishPropagate =>
    rw [BProc.step, BProc.step, (publish_off h.b).1]
    refine (Both.refl (R := Eq) (fun _ => rfl) _).bind (fun x _ _ _ e => ?_); subst e
    exact ⟨rfl, S, hk, h⟩
  | publishUpdate =>
    rw [BProc.step, BProc.step, (publish_off h.b).2]
    refine (Both.refl (R := Eq) (fun _ => rfl) _).bind (fun x _ _ _ e => ?_); subst e
    exact ⟨rfl, S, hk, h⟩
  | reset => exact hinv.good.1.elim

theorem run_off {nc N U : Nat} (hfit : Fits nc (max 1 N + 1) U) (ops : List (BOp ℝ T)) : ∀ (S : Nat → Nat → ℝ) (p p' : BProc ℝ T), (∀ a b, S a b = S b a) → FilterInv nc N U p ops →
    POff (shiftCov nc S) p p' → ∃ p1 p1' outs S', p.run ops = .ok (p1, outs) ∧ p'.run ops = .ok (p1', outs) ∧ FilterInv nc N U p1 [] ∧ (∀ a b, S' a b = S' b a) ∧
      POff (shiftCov nc S') p1 p1' ∧ (p.b.status = .initialized → Along (fun q => q.b.status = .initialized) p ops → S' = S) := by
  induction ops with
  | nil => intro S p p' hS hi h; exact ⟨p, p', [], S, rfl, rfl, hi, hS, h, fun _ _ => rfl⟩
  | cons op ops ih =>
    intro S p p' hS hi h
    obtain ⟨l, hl⟩ := hi.stable
    obtain ⟨p2, outs, r1, -⟩ := safe_run nc N U hfit [op] p l hl hi.p0 hi.p1 ⟨hi.good.1, fun _ _ _ => trivial⟩
    rw [BProc.run] at r1
    obtain ⟨⟨q, o⟩, hq, -⟩ := Res.bind_eq_ok.1 r1
    obtain ⟨⟨q', o'⟩, hq', e1, S1, e2, e3⟩ := (step_off hfit hS op hi h).ok hq
    dsimp only at e1 e3
    subst e1
    have hS1 : ∀ a b, S1 a b = S1 b a := by
      rcases e2.2 with rfl | rfl
      · exact hS
      · intro _ _; rfl
    obtain ⟨p1, p1', outs, S', k1, k2, k3, k4, k5, k6⟩ := ih S1 q q' hS1 (filterInv_step hfit hi hq) e3
    refine ⟨p1, p1', o :: outs, S', by rw [BProc.run, hq]; simp only [Res.bind_ok]; rw [k1]; rfl, by rw [BProc.run, hq']; simp only [Res.bind_ok]; rw [k2]; rfl, k3, k4, k5, fun hs ha => ?_⟩
    obtain ⟨a1, a2⟩ := ha q o hq
    rw [k6 a1 a2, e2.1 hs]

theorem pOff_of {nc : Nat} {S : Nat → Nat → ℝ} {p p' : BProc ℝ T} (h : ProcOff (shiftCov nc S) p p') (hc : Clean p.b.u.q) (hq : CovInv p.b.u.q) : POff (shiftCov nc S) p p' := by
  obtain ⟨⟨h1, h2, h3⟩, h4⟩ := h
  have hit : List.Forall₂ (IOff (shiftCov nc S)) p.b.u.q.items p'.b.u.q.items := by
    have hall : ∀ i ∈ p.b.u.q.items, i.imuCov.rows = 15 ∧ i.imuCov.cols = 15 ∧ i.imuEx.rows = 15 := fun i hi => ⟨(hq.psd i hi).rows, (hq.psd i hi).cols, (hq.psd i hi).exRows⟩
    revert hall
    generalize p.b.u.q.items = l at h1
    generalize p'.b.u.q.items = l' at h1
    intro hall
    induction h1 with
    | nil => exact .nil
    | cons ha _ ih => exact .cons ⟨ha, (hall _ List.mem_cons_self).1, (hall _ List.mem_cons_self).2.1, (hall _ List.mem_cons_self).2.2⟩ (ih (fun i hi => hall i (List.mem_cons_of_mem _ hi)))
  have e := congrArg (fun s => (s.biasA, s.biasG, s.initState, s.F, s.G, s.Q)) h3
  simp only [Prod.mk.injEq] at e
  obtain ⟨q1, q2, q3, q4, q5, q6⟩ := e
  have e := congrArg (fun x : BProc ℝ T => (x.statics, x.g, x.b.loader, x.b.u.w, x.b.u.policy, x.b.u.pos, x.b.att, x.b.noise, x.b.maxUsed, x.b.mounted, x.b.pnp, x.b.status)) h4
  simp only [Prod.mk.injEq] at e
  obtain ⟨b1, b2, b3, b4, b5, b6, b7, b8, b9, b10, b11, b12⟩ := e
  exact ⟨b1, b2, b3, ⟨⟨hit, h2, q1, q2, q3, q4, q5, q6, hc⟩, b4, b5, b6⟩, b7, b8, b9, b10, b11, b12⟩

theorem procOff_of {D : Nat → Nat → ℝ} {p p' : BProc ℝ T} (h : POff D p p') : ProcOff D p p' := by
  obtain ⟨b1, b2, b3, ⟨⟨hit, h2, q1, q2, q3, q4, q5, q6, -⟩, b4, b5, b6⟩, b7, b8, b9, b10, b11, b12⟩ := h
  refine ⟨⟨hit.imp (fun _ _ h => h.toItemOff), h2, ?_⟩, ?_⟩
  · rw [q1, q2, q3, q4, q5, q6]
  · dsimp only
    rw [b1, b2, b3, b4, b5, b6, b7, b8, b9, b10, b11, b12]

/-- C133 from any state with the invariants of a history: a process whose covariance is larger by that of a common shift of the world returns the same values in every history, and as long as
the filter stays initialised its covariance remains larger by exactly the same. -/
theorem C133_run {nc N U : Nat} (hfit : Fits nc (max 1 N + 1) U) (S : Nat → Nat → ℝ) (hS : ∀ a b, S a b = S b a) (p p' : BProc ℝ T) (ops : List (BOp ℝ T)) (hi : FilterInv nc N U p ops)
    (hc : Clean p.b.u.q) (h : ProcOff (shiftCov nc S) p p') :
    ∃ p1 p1' outs, p.run ops = .ok (p1, outs) ∧ p'.run ops = .ok (p1', outs) ∧
      (p.b.status = .initialized → Along (fun q => q.b.status = .initialized) p ops → ProcOff (shiftCov nc S) p1 p1') := by
  obtain ⟨p1, p1', outs, S', k1, k2, -, -, k5, k6⟩ := run_off hfit ops S p p' hS hi (pOff_of h hc hi.cov.cov)
  exact ⟨p1, p1', outs, k1, k2, fun h1 h2 => by rw [← k6 h1 h2]; exact procOff_of k5⟩

theorem run_clean {nc N U : Nat} (hfit : Fits nc (max 1 N + 1) U) (ops ops' : List (BOp ℝ T)) : ∀ (S : Nat → Nat → ℝ) (p q : BProc ℝ T) (outs : List (BOut ℝ T)), (∀ a b, S a b = S b a) →
    FilterInv nc N U p (ops ++ ops') → POff (shiftCov nc S) p p → p.run ops = .ok (q, outs) → Clean q.b.u.q ∧ FilterInv nc N U q ops' := by
  induction ops with
  | nil => intro S p q outs hS hi h hr; cases hr; exact ⟨h.b.u.q.clean, hi⟩
  | cons op ops ih =>
    intro S p q outs hS hi h hr
    rw [BProc.run] at hr
    obtain ⟨⟨p1, o⟩, hq, hr⟩ := Res.bind_eq_ok.1 hr
    obtain ⟨⟨p2, os⟩, hq2, hr⟩ := Res.bind_eq_ok.1 hr
    cases hr
    obtain ⟨⟨p1', o'⟩, hq', e1, S1, e2, e3⟩ := (step_off hfit hS op hi h).ok hq
    rw [hq] at hq'
    cases hq'
    refine ih S1 p1 q os ?_ (filterInv_step hfit hi hq) e3 hq2
    rcases e2.2 with rfl | rfl
    · exact hS
    · intro _ _; rfl

/-- The states that a history from a fresh start reaches have the invariants. -/
theorem reached (p0 p : BProc ℝ T) (ops ops' : List (BOp ℝ T)) (outs : List (BOut ℝ T)) (hf : Fresh p0.b) (hr : Ready p0.b) (hg : GoodRun p0.b.u.w.frm.extrinsics.length p0 (ops ++ ops'))
    (hsolv : GoodSolvers (ops ++ ops')) (na ng nwa nwg : ℝ) (h1 : 0 ≤ na) (h2 : 0 ≤ ng) (h3 : 0 ≤ nwa) (h4 : 0 ≤ nwg) (st : Motion ℝ) (ba bg : Vec3 ℝ)
    (hq : p0.b.u.q = { PropQueue.init st with Q := PropQueue.noiseMatrix na ng nwa nwg, biasA := ba, biasG := bg }) (hrun : p0.run ops = .ok (p, outs)) :
    Clean p.b.u.q ∧ FilterInv p0.b.u.w.frm.extrinsics.length p0.b.u.w.frm.maxWindowSize p0.b.maxUsed p ops' := by
  have hitems : p0.b.u.q.items = [] := by rw [hq]; rfl
  refine run_clean hr.fits ops ops' (fun _ _ => 0) p0 p outs (fun _ _ => rfl)
    ⟨⟨_, fresh_stable p0.b hf hr⟩, hr.period, hr.half, hg, covOk_start p0.b na ng nwa nwg h1 h2 h3 h4 st ba bg hq hf.frames hf.status, hsolv⟩ ?_ hrun
  exact ⟨rfl, rfl, rfl, ⟨⟨by rw [hitems]; exact .nil, fun hn => absurd hitems hn, rfl, rfl, rfl, rfl, rfl, rfl, by rw [hq]; exact ⟨fun _ _ _ _ => rfl, fun _ _ => rfl⟩⟩, rfl, rfl, rfl⟩,
    rfl, rfl, rfl, rfl, rfl, rfl⟩

/-- C133.  A filter is started and fed by a well-formed tracker.  At any moment its joint covariance is replaced by one that is larger by the covariance of a common shift of the world.  Nothing
that it returns from then on changes, and as long as it stays initialised the two covariances differ by exactly the same term. -/
theorem C133_unused (p0 p p' : BProc ℝ T) (ops0 ops : List (BOp ℝ T)) (outs0 : List (BOut ℝ T)) (hf : Fresh p0.b) (hr : Ready p0.b)
    (hg : GoodRun p0.b.u.w.frm.extrinsics.length p0 (ops0 ++ ops)) (hsolv : GoodSolvers (ops0 ++ ops)) (na ng nwa nwg : ℝ) (h1 : 0 ≤ na) (h2 : 0 ≤ ng) (h3 : 0 ≤ nwa) (h4 : 0 ≤ nwg)
    (st : Motion ℝ) (ba bg : Vec3 ℝ) (hq : p0.b.u.q = { PropQueue.init st with Q := PropQueue.noiseMatrix na ng nwa nwg, biasA := ba, biasG := bg }) (hrun : p0.run ops0 = .ok (p, outs0))
    (S : Nat → Nat → ℝ) (hS : ∀ a b, S a b = S b a) (h : ProcOff (shiftCov p0.b.u.w.frm.extrinsics.length S) p p') :
    ∃ p1 p1' outs, p.run ops = .ok (p1, outs) ∧ p'.run ops = .ok (p1', outs) ∧
      (p.b.status = .initialized → Along (fun q => q.b.status = .initialized) p ops → ProcOff (shiftCov p0.b.u.w.frm.extrinsics.length S) p1 p1') := by
  obtain ⟨hc, hi⟩ := reached p0 p ops0 ops outs0 hf hr hg hsolv na ng nwa nwg h1 h2 h3 h4 st ba bg hq hrun
  exact C133_run hr.fits S hS p p' ops hi hc h

/-- C133, the consequence for the variance.  The uncertainty of the position in the world never falls below what it was blurred by: no measurement tells the filter where it is. -/
theorem C133_never_learned {nc N U : Nat} (hfit : Fits nc (max 1 N + 1) U) (S : Nat → Nat → ℝ) (hS : ∀ a b, S a b = S b a) (p p' : BProc ℝ T) (ops : List (BOp ℝ T)) (hi : FilterInv nc N U p ops)
    (hc : Clean p.b.u.q) (h : ProcOff (shiftCov nc S) p p') (hst : p.b.status = .initialized) (ha : Along (fun q => q.b.status = .initialized) p ops) :
    ∃ p1' outs, p'.run ops = .ok (p1', outs) ∧ ∀ i ∈ p1'.b.u.q.items, ∀ a < 3, S a a ≤ i.imuCov.e a a := by
  obtain ⟨p1, p1', outs, S', k1, k2, k3, -, k5, k6⟩ := run_off hfit ops S p p' hS hi (pOff_of h hc hi.cov.cov)
  obtain rfl := k6 hst ha
  refine ⟨p1', outs, k2, fun i' hi' a ha3 => ?_⟩
  obtain ⟨n, hn⟩ := List.mem_iff_getElem?.1 hi'
  have hn' := (List.getElem?_eq_some_iff.1 hn).1
  have hlen := k5.b.u.q.items.length_eq
  obtain ⟨i, hin⟩ : ∃ i, p1.b.u.q.items[n]? = some i := ⟨_, List.getElem?_eq_getElem (by omega)⟩
  have hio : IOff (shiftCov nc S') i i' := by
    have := k5.b.u.q.items.get (i := n) (by omega) (by omega)
    rw [List.getElem?_eq_some_iff] at hin hn
    obtain ⟨_, rfl⟩ := hin
    obtain ⟨_, rfl⟩ := hn
    exact this
  have hpsd := k3.cov.cov.psd i (List.mem_of_getElem? hin)
  have hdiag : 0 ≤ i.imuCov.e a a := by
    have := hpsd.psd.diag_nonneg (i := .inl ⟨a, by omega⟩)
    simpa [jointCov, DMat.toM] using this
  rw [hio.cov.at' a a (by rw [hio.r1]; omega) (by rw [hio.c1]; omega)]
  have : shiftCov nc S' a a = S' a a := by
    unfold shiftCov axisOf
    rw [if_pos ha3]
  rw [this]
  linarith

end Run

/-! ### Concrete cases -/

/-- A process with a larger covariance. -/
noncomputable def blurred (D : Nat → Nat → ℝ) (p : BProc ℝ ℝ) : BProc ℝ ℝ :=
  { p with b := { p.b with u := { p.b.u with q := { p.b.u.q with
      items := p.b.u.q.items.map (fun i => { i with
        imuCov := ⟨i.imuCov.rows, i.imuCov.cols, fun x y => i.imuCov.e x y + D x y⟩
        imuEx := ⟨i.imuEx.rows, i.imuEx.cols, fun x y => i.imuEx.e x y + D x (15 + y)⟩ })
      exCamCov := ⟨p.b.u.q.exCamCov.rows, p.b.u.q.exCamCov.cols, fun x y => p.b.u.q.exCamCov.e x y + D (15 + x) (15 + y)⟩ } } } }

theorem blurred_off (D : Nat → Nat → ℝ) (p : BProc ℝ ℝ) : ProcOff D p (blurred D p) := by
  refine ⟨⟨?_, fun _ => ⟨rfl, rfl, fun _ _ _ _ => rfl⟩, rfl⟩, rfl⟩
  show List.Forall₂ _ p.b.u.q.items (p.b.u.q.items.map _)
  rw [List.forall₂_map_right_iff]
  exact List.forall₂_same.2 (fun i _ => ⟨rfl, rfl, rfl, rfl, ⟨rfl, rfl, fun _ _ _ _ => rfl⟩, ⟨rfl, rfl, fun _ _ _ _ => rfl⟩⟩)

/-- The covariance of a shift by one metre along each axis. -/
def exS (a b : Nat) : ℝ := if a = b then 1 else 0

/-- C133: the filter `exTrue` and the same filter that is one metre less certain of where it is take an IMU sample and an image; both return the same. -/
example : ∃ (env : Env ℝ) (p1 p1' : BProc ℝ ℝ) (outs : List (BOut ℝ ℝ)), GoodExt env.ext ∧ (⟨{}, ⟨0, 0, 10⟩, exTrue⟩ : BProc ℝ ℝ).run [.run env, .publishUpdate, .publishPropagate] = .ok (p1, outs) ∧
    (blurred (shiftCov 1 exS) ⟨{}, ⟨0, 0, 10⟩, exTrue⟩).run [.run env, .publishUpdate, .publishPropagate] = .ok (p1', outs) := by
  obtain ⟨ext, hc, hm⟩ := exists_correct
  let env : Env ℝ := ⟨ext, id, id, fun _ _ => 0⟩
  have hinv : FilterInv 1 2 20 (⟨{}, ⟨0, 0, 10⟩, exTrue⟩ : BProc ℝ ℝ) [.run env, .publishUpdate, .publishPropagate] :=
    ⟨⟨_, exTrue_stable⟩, by show (((0 : ℚ) : ℝ)) ≤ 1 / 10; norm_num, by show (1 / 10 : ℝ) * ((55 / 100 : ℚ) : ℝ) ≤ 1 / 10; norm_num,
      ⟨exTrue_callOk env, fun p1 o _ => ⟨trivial, fun p2 o _ => ⟨trivial, fun _ _ _ => trivial⟩⟩⟩, exTrue_covOk, fun e he => by
        obtain rfl : e = env := by simpa using he
        exact hc.good⟩
  obtain ⟨p1, p1', outs, k1, k2, -⟩ := C133_run (N := 2) (U := 20) ⟨by decide, by decide, by decide⟩ exS (fun a b => by unfold exS; simp only [eq_comm]) _ _ _ hinv
    (clean_step 1 { exReal.u.q with initState := ⟨0, ⟨1, 0, 0⟩, .one⟩ } (.sample ⟨0, 0, 10⟩ ⟨0, 0, 10⟩ 0 0) ⟨fun _ _ _ _ => rfl, fun _ _ => rfl⟩) (blurred_off (shiftCov 1 exS) _)
  exact ⟨env, p1, p1', outs, hc.good, k1, k2⟩

/-- The two filters of this case are different. -/
example : (blurred (shiftCov 1 exS) ⟨{}, ⟨0, 0, 10⟩, exTrue⟩).b.u.q.items.map (fun i => i.imuCov.e 0 0) ≠ (⟨{}, ⟨0, 0, 10⟩, exTrue⟩ : BProc ℝ ℝ).b.u.q.items.map (fun i => i.imuCov.e 0 0) := by
  have hne : exTrue.u.q.items ≠ [] := (exTrue_covOk.dims rfl).1
  unfold blurred
  dsimp only
  rw [List.map_map]
  cases hl : exTrue.u.q.items with
  | nil => exact absurd hl hne
  | cons i l =>
    intro he
    have he := (List.cons.inj he).1
    have : i.imuCov.e 0 0 + shiftCov 1 exS 0 0 = i.imuCov.e 0 0 := he
    have h1 : shiftCov 1 exS 0 0 = 1 := by simp [shiftCov, axisOf, exS]
    rw [h1] at this
    linarith

end Backend

end Vio

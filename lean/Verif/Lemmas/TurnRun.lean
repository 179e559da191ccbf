/-
Histories of the filter in a world turned about gravity.
-/
import Verif.Lemmas.TurnInit
import Verif.Lemmas.AgreeRun
import Verif.Lemmas.AnyRun

set_option linter.unusedSectionVars false

namespace Vio
open Spec WinSpec Update Res DMat PropQueue

variable {T : Type} [TimeOps T] [TimeCast T ℝ]

/-! ### The queue -/

theorem move_turned (r : Quat ℝ) (s : Motion ℝ) : Reckon.move r 0 0 s = s.turned r := by
  unfold Reckon.move Motion.turned
  congr 1 <;> apply Vec3.ext <;> simp

theorem propagate_turned {r : Quat ℝ} (hr : r.sqNorm = 1) {nc : Nat} {g : Vec3 ℝ} (hg : r.rotate g = g) {s s' : PropQueue ℝ T} (h : QTurned r nc s s') (hc : s.Q.cols = 12)
    (h0 : s.items = [] → s'.initState = s.initState.turned r ∧ s.initState.q.sqNorm = 1) (n : Nat) (a w : Vec3 ℝ) (t : T) :
    QTurned r nc (s.propagate n g a w t) (s'.propagate n g a w t) ∧ (s.propagate n g a w t).items ≠ [] ∧ (s.propagate n g a w t).Q = s.Q := by
  have hcl := clean_step n s (.sample g a w t) h.clean
  have hcl' := clean_step n s' (.sample g a w t) h.clean'
  simp only [PropSpec.step] at hcl hcl'
  rcases forall₂_getLast h.items with ⟨h1, h2⟩ | ⟨i, i', h1, h2, hi⟩
  · obtain ⟨e1, e2⟩ := h0 (List.getLast?_eq_none_iff.1 h1)
    refine ⟨⟨?_, ?_, ?_, ?_, ?_, ?_, ?_, hcl, hcl'⟩, ?_, ?_⟩ <;> simp only [propagate, h1, h2]
    · refine .cons ⟨⟨?_, e2, rfl, rfl, rfl, rfl, rfl, zero_moved _ _ _ _, rfl, zero_moved _ _ _ _⟩, rfl, rfl⟩ .nil
      dsimp only
      rw [e1, move_turned]
    · exact h.biasA
    · exact h.biasG
    · exact h.noise
    · exact ⟨rfl, zero_moved _ _ _ _⟩
    · rfl
    · show (n * 6 + 6) % 3 = 0; omega
    · simp
  · refine ⟨⟨?_, ?_, ?_, ?_, ?_, ?_, ?_, hcl, hcl'⟩, ?_, ?_⟩ <;> simp only [propagate, h1, h2]
    · exact List.rel_append h.items (.cons (stepItem_turned hr h.clean h.clean' h.biasA h.biasG h.noise hc hg hi a w t) .nil)
    · exact h.biasA
    · exact h.biasG
    · exact h.noise
    · exact h.exCam
    · exact h.exSq
    · exact h.third
    · simp

theorem replay_turned {r : Quat ℝ} (hr : r.sqNorm = 1) {nc : Nat} {g : Vec3 ℝ} (hg : r.rotate g = g) (mounted : Bool) (n : Nat) {l l' : List (AttItem ℝ T)} (hl : List.Forall₂ (AttItemTurned r) l l') :
    ∀ {s s' : PropQueue ℝ T}, QTurned r nc s s' → s.Q.cols = 12 → (s.items = [] → s'.initState = s.initState.turned r ∧ s.initState.q.sqNorm = 1) →
      Both (QTurned r nc) (Backend.replay mounted n g s l) (Backend.replay mounted n g s' l') := by
  induction hl with
  | nil => intro s s' h _ _; exact h
  | cons hi hl ih =>
    intro s s' h hc h0
    rw [Backend.replay, Backend.replay, hi.accel, hi.gyro, hi.ts]
    split
    · obtain ⟨k1, k2, k3⟩ := propagate_turned hr hg h hc h0 n _ _ _
      exact ih k1 (by rw [k3]; exact hc) (fun e => absurd e k2)
    · rfl

namespace Backend

/-! ### The backend -/

/-- The backend in the turned world.  A single frame that the filter has not been initialised with has no pose yet. -/
structure BTurned (r : Quat ℝ) (nc : Nat) (b b' : Backend ℝ T) : Prop where
  loader : b'.loader = b.loader
  noise : b'.noise = b.noise
  maxUsed : b'.maxUsed = b.maxUsed
  mounted : b'.mounted = b.mounted
  pnp : b'.pnp = b.pnp
  status : b'.status = b.status
  policy : b'.u.policy = b.u.policy
  pos : b'.u.pos = b.u.pos
  features : b'.u.features = b.u.features
  q : QTurned r nc b.u.q b'.u.q
  att : AttTurned r b.att b'.att
  win : (WinTurned r b.u.w b'.u.w ∧ b.u.w.frm.frames ≠ []) ∨ (WinLike r False b.u.w b'.u.w ∧ b.status = .needInit ∧ b.u.w.frm.frames.length ≤ 1)

/-- The backend in the turned world in the middle of a call: the window is `WinLike`. -/
structure BMid (r : Quat ℝ) (nc : Nat) (t : Prop) (b b' : Backend ℝ T) : Prop where
  loader : b'.loader = b.loader
  noise : b'.noise = b.noise
  maxUsed : b'.maxUsed = b.maxUsed
  mounted : b'.mounted = b.mounted
  pnp : b'.pnp = b.pnp
  status : b'.status = b.status
  policy : b'.u.policy = b.u.policy
  pos : b'.u.pos = b.u.pos
  features : b'.u.features = b.u.features
  q : QTurned r nc b.u.q b'.u.q
  att : AttTurned r b.att b'.att
  win : WinLike r t b.u.w b'.u.w

theorem BTurned.mid {r : Quat ℝ} {nc : Nat} {b b' : Backend ℝ T} (h : BTurned r nc b b') :
    (BMid r nc True b b' ∧ b.u.w.frm.frames ≠ []) ∨ (BMid r nc False b b' ∧ b.status = .needInit ∧ b.u.w.frm.frames.length ≤ 1) := by
  rcases h.win with ⟨h1, h2⟩ | ⟨h1, h2⟩
  · exact .inl ⟨⟨h.loader, h.noise, h.maxUsed, h.mounted, h.pnp, h.status, h.policy, h.pos, h.features, h.q, h.att, h1.like _⟩, h2⟩
  · exact .inr ⟨⟨h.loader, h.noise, h.maxUsed, h.mounted, h.pnp, h.status, h.policy, h.pos, h.features, h.q, h.att, h1⟩, h2⟩

theorem BMid.turned {r : Quat ℝ} {nc : Nat} {t : Prop} {b b' : Backend ℝ T} (h : BMid r nc t b b') (ht : t) (hne : b.u.w.frm.frames ≠ []) : BTurned r nc b b' :=
  ⟨h.loader, h.noise, h.maxUsed, h.mounted, h.pnp, h.status, h.policy, h.pos, h.features, h.q, h.att, .inl ⟨h.win.turned ht, hne⟩⟩

theorem BMid.single {r : Quat ℝ} {nc : Nat} {t : Prop} {b b' : Backend ℝ T} (h : BMid r nc t b b') (hs : b.status = .needInit) (hl : b.u.w.frm.frames.length ≤ 1) : BTurned r nc b b' :=
  ⟨h.loader, h.noise, h.maxUsed, h.mounted, h.pnp, h.status, h.policy, h.pos, h.features, h.q, h.att, .inr ⟨h.win.weaken False.elim, hs, hl⟩⟩

theorem BMid.weaken {r : Quat ℝ} {nc : Nat} {t : Prop} {b b' : Backend ℝ T} (h : BMid r nc t b b') : BMid r nc False b b' :=
  ⟨h.loader, h.noise, h.maxUsed, h.mounted, h.pnp, h.status, h.policy, h.pos, h.features, h.q, h.att, h.win.weaken False.elim⟩

theorem BMid.setWin {r : Quat ℝ} {nc : Nat} {t t' : Prop} {b b' : Backend ℝ T} (h : BMid r nc t b b') {w w' : Win ℝ T} (hw : WinLike r t' w w') : BMid r nc t' (b.setWin w) (b'.setWin w') :=
  ⟨h.loader, h.noise, h.maxUsed, h.mounted, h.pnp, h.status, h.policy, h.pos, h.features, h.q, h.att, hw⟩

theorem initPropagator_turned {r : Quat ℝ} (hr : r.sqNorm = 1) {nc : Nat} {g : Vec3 ℝ} (hg : r.rotate g = g) {t : Prop} {b b' : Backend ℝ T} (h : BMid r nc t b b') (hc : b.u.q.Q.cols = 12)
    (st : Motion ℝ) (hst : st.q.sqNorm = 1) (ts : T) : Both (BMid r nc t) (initPropagator g b st ts) (initPropagator g b' (st.turned r) ts) := by
  unfold initPropagator
  dsimp only
  rw [h.loader, h.mounted, h.win.extrinsics]
  refine (cleanOldItems_turned h.att _ _).bind (fun att att' _ _ ha => ?_)
  refine (replay_turned hr hg b.mounted _ ha.items (s := { b.u.q with initState := st }) (s' := { b'.u.q with initState := st.turned r })
    ⟨h.q.items, h.q.biasA, h.q.biasG, h.q.noise, h.q.exCam, h.q.exSq, h.q.third, h.q.clean, h.q.clean'⟩ hc (fun _ => ⟨rfl, hst⟩)).bind (fun s s' _ _ hs => ?_)
  exact ⟨rfl, h.noise, h.maxUsed, rfl, h.pnp, h.status, h.policy, h.pos, h.features, hs, ha, h.win⟩

theorem rotate_sdiv (r : Quat ℝ) (v : Vec3 ℝ) (k : ℝ) : r.rotate (v.sdiv k) = (r.rotate v).sdiv k := by
  rw [← Quat.toMat_mulVec, ← Quat.toMat_mulVec]
  apply Vec3.ext <;> simp [Mat3.mulVec, Vec3.dot, Vec3.sdiv] <;> ring

/-- The attempt to initialise: the window has turned poses, or at most two frames. -/
theorem initialise_turned {r : Quat ℝ} (hr : r.sqNorm = 1) {nc : Nat} {env env' : Env ℝ} (he : EnvTurned r nc env env') {g : Vec3 ℝ} (hg : r.rotate g = g) {t : Prop} {b b' : Backend ℝ T}
    (h : BMid r nc t b b') (hc : b.u.q.Q.cols = 12) (ht : t ∨ b.u.w.frm.frames.length ≤ 2) :
    Both (fun x y => y.1 = x.1 ∧ BMid r nc (x.1 = true) x.2 y.2) (initialise env g b) (initialise env' g b') := by
  have hfr := h.win.frames
  unfold initialise
  have h0 : BMid r nc (false = true) b b' := by simpa using h.weaken
  cases hb : b.u.w.frm.frames with
  | nil =>
    rw [hb] at hfr
    cases hfr' : b'.u.w.frm.frames with
    | nil => exact ⟨rfl, h0⟩
    | cons _ _ => rw [hfr'] at hfr; cases hfr
  | cons fi l =>
    rw [hb] at hfr
    cases hfr' : b'.u.w.frm.frames with
    | nil => rw [hfr'] at hfr; cases hfr
    | cons fi' l' =>
      rw [hfr'] at hfr
      cases l with
      | nil =>
        cases l' with
        | nil => exact ⟨rfl, h0⟩
        | cons _ _ => have := hfr.length_eq; simp at this
      | cons fj rest =>
        cases l' with
        | nil => have := hfr.length_eq; simp at this
        | cons fj' rest' =>
          obtain ⟨hi, hj, hrest⟩ : FrameLike r t fi fi' ∧ FrameLike r t fj fj' ∧ List.Forall₂ (FrameLike r t) rest rest' := by
            cases hfr with
            | cons a b => cases b with
              | cons b c => exact ⟨a, b, c⟩
          dsimp only
          rw [hi.ts, hj.ts, h.loader, h.pnp]
          split
          · exact ⟨rfl, h0⟩
          refine (getAttitude_turned h.att _ _).bind (fun a a' _ _ ha => ?_)
          cases ha with
          | none => exact ⟨rfl, h0⟩
          | some ha =>
            rename_i q q' _ _
            obtain ⟨rfl, hqu⟩ := ha
            dsimp only
            rw [hi.features]
            have hlike : ∀ t', List.Forall₂ (FrameLike r t') rest rest' ∨ (t' → t) → List.Forall₂ (FrameLike r t') rest rest' := by
              intro t' ht'
              rcases ht' with h1 | h1
              · exact h1
              · exact hrest.imp (fun _ _ hf => ⟨hf.addr, hf.features, hf.id, hf.ts, fun x => hf.pose (h1 x)⟩)
            refine (triMultiView_turned hr he.ext (f := { fi with q := q, p := 0 }) (f' := ⟨fi'.addr, fi.features, r.mul q, 0, fi'.v, fi'.id, fi.ts⟩) hi.id rfl (by dsimp only; rw [rotate_zero]) hqu fi.features
              (w := setFrames b.u.w { fi with q := q, p := 0 } fj rest) (w' := setFrames b'.u.w ⟨fi'.addr, fi.features, r.mul q, 0, fi'.v, fi'.id, fi.ts⟩ fj' rest') h.win.feat h.win.extrinsics h.win.mounted).bind
                (fun w w' _ _ hw => ?_)
            obtain ⟨w1, w2, w3⟩ := hw
            have hex : w'.frm.extrinsics = w.frm.extrinsics := by rw [w2, w3]; exact h.win.extrinsics
            have hmt : ∀ e ∈ w.frm.extrinsics, e.q.sqNorm = 1 := by rw [w2]; exact h.win.mounted
            refine (estimateFramePose_turned hr he.ext b.pnp w1 hex hmt (f := { fj with q := q, p := 0 }) (f' := ⟨fj'.addr, fj'.features, r.mul q, 0, fj'.v, fj'.id, fj.ts⟩)
              ⟨hj.addr, hj.features, hj.id, rfl, False.elim⟩ rfl (by dsimp only; rw [rotate_zero]) hqu).bind (fun x y _ _ hxy => ?_)
            obtain ⟨good, gj⟩ := x
            obtain ⟨good', gj'⟩ := y
            obtain ⟨x1, x2, x3, x4, x5⟩ := hxy
            dsimp only at x1 x2 x3 x4 x5 ⊢
            subst x1
            have hset : ∀ {t' : Prop} {l l' : List (Frame ℝ T)}, List.Forall₂ (FrameLike r t') l l' →
                WinLike r t' { w with frm := { w.frm with frames := l } } { w' with frm := { w'.frm with frames := l' } } := by
              intro t' l l' hl
              exact ⟨w1, hl, by rw [w2, w3]; exact h.win.nextAddr, hex, hmt, by rw [w2, w3]; exact h.win.maxWindowSize, by rw [w2, w3]; exact h.win.minTracked,
                by rw [w2, w3]; exact h.win.minParallax, by rw [w2, w3]; exact h.win.maxTranslation⟩
            split
            · rename_i hgood
              have hgood : good' = false := by simpa using hgood
              subst hgood
              refine ⟨rfl, h.setWin (hset (.cons ⟨hi.addr, rfl, hi.id, rfl, fun x => absurd x Bool.false_ne_true⟩
                (.cons ⟨x2.addr, x2.features, x2.id, x2.ts, fun x => absurd x Bool.false_ne_true⟩ (hlike _ (.inr (fun x => absurd x Bool.false_ne_true))))))⟩
            · rename_i hgood
              have hgood : good' = true := by simpa using hgood
              subst hgood
              have hv : (gj'.p - 0).sdiv (TimeCast.toK (TimeOps.sub fj.ts fi.ts) : ℝ) = r.rotate ((gj.p - 0).sdiv (TimeCast.toK (TimeOps.sub fj.ts fi.ts))) := by
                rw [rotate_sdiv, x4, Quat.rotate_sub, rotate_zero]
              have hrest' : List.Forall₂ (FrameLike r (true = true)) rest rest' := by
                rcases ht with ht | ht
                · exact hlike _ (.inr (fun _ => ht))
                · rw [hb] at ht
                  have : rest = [] := by
                    cases rest with
                    | nil => rfl
                    | cons _ _ => simp at ht
                  subst this
                  cases hrest
                  exact .nil
              have key := initPropagator_turned hr hg (h.setWin (hset (t' := true = true)
                (l := { fi with q := q, p := 0, v := (gj.p - 0).sdiv (TimeCast.toK (TimeOps.sub fj.ts fi.ts)) } :: { gj with v := (gj.p - 0).sdiv (TimeCast.toK (TimeOps.sub fj.ts fi.ts)) } :: rest)
                (l' := ⟨fi'.addr, fi.features, r.mul q, 0, (gj'.p - 0).sdiv (TimeCast.toK (TimeOps.sub fj.ts fi.ts)), fi'.id, fi.ts⟩ ::
                  { gj' with v := (gj'.p - 0).sdiv (TimeCast.toK (TimeOps.sub fj.ts fi.ts)) } :: rest')
                (.cons ⟨hi.addr, rfl, hi.id, rfl, fun _ => ⟨(rotate_zero r).symm, hv, rfl, hqu⟩⟩ (.cons ⟨x2.addr, x2.features, x2.id, x2.ts, fun _ => ⟨x4, hv, x3, x5⟩⟩ hrest')))) hc
                ⟨0, (gj.p - 0).sdiv (TimeCast.toK (TimeOps.sub fj.ts fi.ts)), q⟩ hqu fi.ts
              have hm : (⟨0, (gj.p - 0).sdiv (TimeCast.toK (TimeOps.sub fj.ts fi.ts)), q⟩ : Motion ℝ).turned r = ⟨0, (gj'.p - 0).sdiv (TimeCast.toK (TimeOps.sub fj.ts fi.ts)), r.mul q⟩ := by
                unfold Motion.turned
                dsimp only
                rw [rotate_zero, hv]
              rw [hm] at key
              refine key.bind (fun b1 b1' _ _ hb1 => ?_)
              refine (front_rel hb1.q.items).bind (fun _ _ _ _ _ => ?_)
              exact ⟨rfl, hb1⟩

theorem shrunk_turned {r : Quat ℝ} {nc : Nat} {t : Prop} {b b' : Backend ℝ T} (h : BMid r nc t b b') : Both (BMid r nc t) b.shrunk b'.shrunk := by
  unfold shrunk
  rw [← h.win.frames.length_eq]
  refine (shrink_like _ h.win).bind (fun w w' _ _ hw => ?_)
  exact h.setWin hw

theorem tryInit_turned {r : Quat ℝ} (hr : r.sqNorm = 1) {nc : Nat} {env env' : Env ℝ} (he : EnvTurned r nc env env') {g : Vec3 ℝ} (hg : r.rotate g = g) {t : Prop} {b b' : Backend ℝ T}
    (h : BMid r nc t b b') (hc : b.u.q.Q.cols = 12) (ht : t ∨ b.status = .needInit ∧ b.u.w.frm.frames.length ≤ 2) (h1 : 1 ≤ b.u.w.frm.frames.length) :
    Both (BTurned r nc) (b.tryInit env g) (b'.tryInit env' g) := by
  have any := fun b1 hb1 => tryInit_any env g b b1 hb1 h1
  unfold tryInit at any ⊢
  rw [h.status]
  cases hs : b.status with
  | needInit =>
    rw [hs] at any
    dsimp only at any ⊢
    refine (initialise_turned hr he hg h hc (ht.imp_right And.right)).bind (fun ⟨good, b1⟩ ⟨good', b1'⟩ k1 _ e => ?_)
    obtain ⟨e1, e2⟩ := e
    dsimp only at e1 e2 ⊢
    subst e1
    cases good' with
    | true =>
      have a1 := any { b1 with status := .initialized } (by rw [k1]; rfl)
      exact BMid.turned (t := True) ⟨e2.loader, e2.noise, e2.maxUsed, e2.mounted, e2.pnp, rfl, e2.policy, e2.pos, e2.features, e2.q, e2.att, e2.win.weaken (fun _ => rfl)⟩ trivial
        (List.length_pos_iff.1 a1.2.1)
    | false =>
      have hst : b1.status = .needInit := (initialise_any _ _ _ _ _ k1).2.2.2.2.1.trans hs
      refine (shrunk_turned e2).mono (fun b2 b2' k2 _ hb => ?_)
      obtain ⟨w, rfl, -⟩ := shrunk_any b1 b2 k2 (by rw [(initialise_any _ _ _ _ _ k1).1]; exact h1)
      have a1 := any (b1.setWin w) (by rw [k1]; exact k2)
      exact hb.single hst (by have := (a1.2.2.2.2.2.1 hst).2; omega)
  | initialized =>
    rcases ht with ht | ⟨ht, -⟩
    · exact h.turned ht (List.length_pos_iff.1 h1)
    · rw [hs] at ht; cases ht

theorem tryUpdate_turned {r : Quat ℝ} (hr : r.sqNorm = 1) {nc : Nat} {env env' : Env ℝ} (he : EnvTurned r nc env env') {g : Vec3 ℝ} (hg : r.rotate g = g) {b b' : Backend ℝ T}
    (h : BTurned r nc b b') (hnc : b.u.w.frm.extrinsics.length = nc) (hi : CovInv b.u.q) (h1 : 1 ≤ b.u.w.frm.frames.length) (hlt : (nc + b.u.w.frm.frames.length) * 6 < two32) (ts : T) :
    Both (BTurned r nc) (b.tryUpdate env g ts) (b'.tryUpdate env' g ts) := by
  have any := fun b1 hb1 => tryUpdate_any env g b b1 ts hb1 h1 (by omega)
  have hne : b.u.w.frm.frames ≠ [] := List.length_pos_iff.1 h1
  unfold tryUpdate at any ⊢
  rw [h.status, h.mounted, h.noise, h.maxUsed, h.loader]
  cases hs : b.status with
  | needInit => exact h
  | initialized =>
    rw [hs] at any
    dsimp only at any ⊢
    obtain ⟨hw, -⟩ : WinTurned r b.u.w b'.u.w ∧ b.u.w.frm.frames ≠ [] := by
      rcases h.win with h2 | ⟨-, h2, -⟩
      · exact h2
      · rw [hs] at h2; cases h2
    cases hm : b.mounted with
    | false => rfl
    | true =>
      rw [hm] at any
      simp only [if_true] at any ⊢
      refine (update_turned hr he b.noise b.maxUsed hg ⟨h.q, hw, h.policy, h.pos, h.features⟩ hnc hi hne hlt ts b.loader.imuPeriod).bind (fun ⟨good, u⟩ ⟨good', u'⟩ k1 _ e => ?_)
      obtain ⟨e1, e2⟩ := e
      dsimp only at e1 e2 ⊢
      subst e1
      obtain ⟨u1, u2, u3, u4⟩ := update_any _ _ _ _ _ _ _ _ _ k1
      cases good' with
      | true =>
        simp only [if_true]
        rw [e2.policy]
        refine (marginalize_like (e2.w.like True) u.policy).bind (fun w w' k2 _ hww => ?_)
        have hp := policy_any u.w w b.u.w u.policy (u4 rfl).2 u2 u3 (by omega) k2 (by omega)
        refine BMid.turned (t := True) ⟨rfl, rfl, rfl, rfl, h.pnp, rfl, rfl, e2.pos, e2.features, e2.q, ?_, hww⟩ trivial (List.length_pos_iff.1 hp.1)
        exact ⟨h.att.items, h.att.ne, by unfold Att.setBias; dsimp only; exact e2.q.biasA, by unfold Att.setBias; dsimp only; exact e2.q.biasG, h.att.kp, h.att.ki, h.att.errInt⟩
      | false =>
        simp only [Bool.false_eq_true, if_false]
        refine (shrunk_turned (t := True) (b := ⟨b.loader, u, b.att, b.noise, b.maxUsed, true, b.pnp, .needInit⟩) (b' := ⟨b.loader, u', b'.att, b.noise, b.maxUsed, true, b'.pnp, .needInit⟩)
          ⟨rfl, rfl, rfl, rfl, h.pnp, rfl, e2.policy, e2.pos, e2.features, e2.q, h.att, e2.w.like True⟩).mono (fun b2 b2' k2 _ hb => ?_)
        obtain ⟨w, rfl, k3, -⟩ := shrunk_any _ b2 k2 (by dsimp only; omega)
        exact hb.turned trivial (List.length_pos_iff.1 (show 0 < w.frm.frames.length by omega))

theorem cleanAtt_turned {r : Quat ℝ} {nc : Nat} {b b' : Backend ℝ T} (h : BTurned r nc b b') : Both (BTurned r nc) b.cleanAtt b'.cleanAtt := by
  unfold cleanAtt
  have hfr : List.Forall₂ (FrameLike r False) b.u.w.frm.frames b'.u.w.frm.frames := by
    rcases h.win with ⟨h1, -⟩ | ⟨h1, -⟩
    · exact (h1.like False).frames
    · exact h1.frames
  rw [← hfr.length_eq, h.loader]
  split
  · refine (back_rel hfr).bind (fun f f' _ _ hf => ?_)
    rw [hf.ts]
    refine (cleanOldItems_turned h.att _ _).bind (fun att att' _ _ ha => ?_)
    exact ⟨rfl, h.noise, h.maxUsed, h.mounted, h.pnp, h.status, h.policy, h.pos, h.features, h.q, ha, h.win⟩
  · exact h

theorem onFeat_turned {r : Quat ℝ} (hr : r.sqNorm = 1) {N nc : Nat} {env env' : Env ℝ} (he : EnvTurned r nc env env') {g : Vec3 ℝ} (hg : r.rotate g = g) {b b' : Backend ℝ T} (h : BTurned r nc b b')
    (hN : (nc + (max 1 N + 1)) * 6 < two32) (hi : CovOk N nc b) (m : FeatMsg ℝ T) : Both (BTurned r nc) (b.onFeat env g m) (b'.onFeat env' g m) := by
  unfold onFeat
  dsimp only
  obtain ⟨e1, -⟩ := insert_length b.u.w m
  have hlen := hi.bound.2
  have i1 : (b.setWin (b.u.w.insert m)).u.w.frm.frames.length = b.u.w.frm.frames.length + 1 := e1
  have hins : (b.setWin (b.u.w.insert m)).u.w.frm.extrinsics = b.u.w.frm.extrinsics := by
    show (b.u.w.insert m).frm.extrinsics = _
    unfold Win.insert FrameMgr.addNewFrame
    rfl
  have hc : (b.setWin (b.u.w.insert m)).u.q.Q.cols = 12 := hi.cov.noise.qc
  have step : Both (BTurned r nc) ((b.setWin (b.u.w.insert m)).tryInit env g) ((b'.setWin (b'.u.w.insert m)).tryInit env' g) := by
    rcases h.mid with ⟨hm, hne⟩ | ⟨hm, hs, hl⟩
    · exact tryInit_turned hr he hg (hm.setWin (insert_like hm.win (fun _ => hne) m)) hc (.inl trivial) (by omega)
    · exact tryInit_turned hr he hg (hm.setWin (insert_like hm.win False.elim m)) hc (.inr ⟨hs, by omega⟩) (by omega)
  refine step.bind (fun b1 b1' k1 _ s1 => ?_)
  obtain ⟨t1, t2, -⟩ := tryInit_any env g _ b1 k1 (by omega)
  obtain ⟨a1, a2⟩ := tryInit_cov env g _ b1 k1 hi.cov
  refine (tryUpdate_turned hr he hg s1 (by rw [a2, hins, hi.cams]) a1 t2 (by omega) m.ts).bind (fun b2 b2' _ _ s2 => ?_)
  exact cleanAtt_turned s2

theorem onImu_turned {r : Quat ℝ} (hr : r.sqNorm = 1) {N nc : Nat} {g : Vec3 ℝ} (hg : r.rotate g = g) {b b' : Backend ℝ T} (h : BTurned r nc b b') (hi : CovOk N nc b) (ms : List (ImuMsg ℝ T)) :
    Both (fun x y => y.1 = x.1 ∧ BTurned r nc x.2 y.2) (b.onImu g ms) (b'.onImu g ms) := by
  cases ms with
  | nil => exact ⟨rfl, h⟩
  | cons m ms =>
    rw [onImu, onImu]
    obtain ⟨h1, h2⟩ := attPropagate_turned hr hg h.att m.accel m.gyro m.ts
    generalize b.att.propagate g m.accel m.gyro m.ts = ar at h1 h2
    generalize b'.att.propagate g m.accel m.gyro m.ts = ar' at h1 h2
    obtain ⟨att, res⟩ := ar
    obtain ⟨att', res'⟩ := ar'
    dsimp only at h1 h2 ⊢
    subst h2
    have hex : b'.u.w.frm.extrinsics = b.u.w.frm.extrinsics := by
      rcases h.win with ⟨h1, -⟩ | ⟨h1, -⟩
      · exact h1.frm.extrinsics
      · exact h1.extrinsics
    rw [h.status, h.mounted, hex]
    split
    · rename_i hs
      exact ⟨rfl, h.loader, h.noise, h.maxUsed, rfl, h.pnp, rfl, h.policy, h.pos, h.features, h.q, h1, h.win⟩
    · rename_i hs
      split
      · have hp := (propagate_turned hr hg h.q hi.cov.noise.qc (fun e => absurd e (hi.dims hs).1) b.u.w.frm.extrinsics.length m.accel m.gyro m.ts).1
        exact ⟨rfl, h.loader, h.noise, h.maxUsed, rfl, h.pnp, rfl, h.policy, h.pos, h.features, hp, h1, h.win⟩
      · rfl

theorem publish_turned {r : Quat ℝ} {nc : Nat} {b b' : Backend ℝ T} (h : BTurned r nc b b') {i i' : PropItem ℝ T} (hi : ItemTurned r nc i i') : PublishedTurned r (b.publish i) (b'.publish i') :=
  ⟨hi.moved.st.trans (move_turned r i.st), hi.moved.unit, h.q.biasA, h.q.biasG, hi.moved.ts⟩

theorem publishPropagate_turned {r : Quat ℝ} {nc : Nat} {b b' : Backend ℝ T} (h : BTurned r nc b b') : Both (Option.Rel (PublishedTurned r)) b.publishPropagate b'.publishPropagate := by
  unfold publishPropagate
  rw [← forall₂_isEmpty h.q.items]
  split
  · exact Option.Rel.none
  · exact (back_rel h.q.items).bind (fun i i' _ _ hi => Option.Rel.some (publish_turned h hi))

theorem publishUpdate_turned {r : Quat ℝ} {nc : Nat} {b b' : Backend ℝ T} (h : BTurned r nc b b') : Both (Option.Rel (PublishedTurned r)) b.publishUpdate b'.publishUpdate := by
  unfold publishUpdate
  rw [← forall₂_isEmpty h.q.items]
  split
  · exact Option.Rel.none
  · exact (front_rel h.q.items).bind (fun i i' _ _ hi => Option.Rel.some (publish_turned h hi))

theorem BTurned.setLoader {r : Quat ℝ} {nc : Nat} {b b' : Backend ℝ T} (h : BTurned r nc b b') (l : Loader ℝ T) : BTurned r nc { b with loader := l } { b' with loader := l } :=
  ⟨rfl, h.noise, h.maxUsed, h.mounted, h.pnp, h.status, h.policy, h.pos, h.features, h.q, h.att, h.win⟩

theorem runOnce_turned {r : Quat ℝ} (hr : r.sqNorm = 1) {N nc : Nat} {env env' : Env ℝ} (he : EnvTurned r nc env env') {g : Vec3 ℝ} (hg : r.rotate g = g) {b b' : Backend ℝ T} (h : BTurned r nc b b')
    (hN : (nc + (max 1 N + 1)) * 6 < two32) (hi : CovOk N nc b) : Both (fun x y => y.1 = x.1 ∧ BTurned r nc x.2 y.2) (b.runOnce env g) (b'.runOnce env' g) := by
  unfold runOnce
  dsimp only
  rw [h.loader]
  have hi0 : CovOk N nc { b with loader := b.loader.popOne.loader } := ⟨hi.cov, hi.bound, hi.cams, hi.dims⟩
  split
  · refine (onImu_turned hr hg (h.setLoader b.loader.popOne.loader) hi0 b.loader.popOne.out.imuMeas).bind (fun ⟨x, b1⟩ ⟨x', b1'⟩ k1 _ e => ?_)
    obtain ⟨e1, e2⟩ := e
    dsimp only at e1 e2 ⊢
    subst e1
    split
    · exact ⟨rfl, e2⟩
    · rename_i m hm
      refine (onFeat_turned hr he hg e2 hN (onImu_cov _ _ _ _ _ _ _ hi0 k1) m).bind (fun b2 b2' _ _ s2 => ?_)
      exact ⟨rfl, s2⟩
  · exact ⟨rfl, h.setLoader _⟩

end Backend

open Backend

theorem step_turned {r : Quat ℝ} (hr : r.sqNorm = 1) {N nc : Nat} (hN : (nc + (max 1 N + 1)) * 6 < two32) {op op' : BOp ℝ T} (hop : OpSame (EnvTurned r nc) op op') {st : LoaderStatics T} {g : Vec3 ℝ}
    (hg : r.rotate g = g) {b b' : Backend ℝ T} (h : BTurned r nc b b') (hi : CovOk N nc b) :
    Both (fun x y => y.1.statics = x.1.statics ∧ x.1.g = g ∧ y.1.g = g ∧ BTurned r nc x.1.b y.1.b ∧ OutTurned r x.2 y.2) ((⟨st, g, b⟩ : BProc ℝ T).step op) ((⟨st, g, b'⟩ : BProc ℝ T).step op') := by
  cases hop with
  | imu m =>
    rw [BProc.step, BProc.step]
    dsimp only
    rw [h.loader]
    exact ⟨rfl, rfl, rfl, h.setLoader _, .ret _⟩
  | feat m =>
    rw [BProc.step, BProc.step]
    dsimp only
    rw [h.loader]
    exact ⟨rfl, rfl, rfl, h.setLoader _, .ret _⟩
  | run env env' he =>
    rw [BProc.step, BProc.step]
    refine (runOnce_turned hr he hg h hN hi).bind (fun ⟨x, b1⟩ ⟨x', b1'⟩ _ _ e => ?_)
    obtain ⟨e1, e2⟩ := e
    dsimp only at e1 e2 ⊢
    subst e1
    exact ⟨rfl, rfl, rfl, e2, .ret _⟩
  | runTest =>
    rw [BProc.step, BProc.step]
    unfold runOnceTest
    rw [h.loader]
    exact ⟨rfl, rfl, rfl, h.setLoader _, .ret _⟩
  | publishPropagate =>
    rw [BProc.step, BProc.step]
    refine (publishPropagate_turned h).bind (fun x y _ _ hxy => ?_)
    exact ⟨rfl, rfl, rfl, h, .state hxy⟩
  | publishUpdate =>
    rw [BProc.step, BProc.step]
    refine (publishUpdate_turned h).bind (fun x y _ _ hxy => ?_)
    exact ⟨rfl, rfl, rfl, h, .state hxy⟩
  | reset =>
    rw [BProc.step, BProc.step]
    refine ⟨rfl, rfl, rfl, ⟨h.loader, h.noise, h.maxUsed, h.mounted, h.pnp, rfl, h.policy, h.pos, h.features, h.q, h.att, h.win.imp_right (fun x => ⟨x.1, rfl, x.2.2⟩)⟩, .none⟩

/-- Every history: the outputs of the turned backend are the turned outputs. -/
theorem run_turned {r : Quat ℝ} (hr : r.sqNorm = 1) {N nc : Nat} (hN : (nc + (max 1 N + 1)) * 6 < two32) {g : Vec3 ℝ} (hg : r.rotate g = g) {ops ops' : List (BOp ℝ T)}
    (hops : List.Forall₂ (OpSame (EnvTurned r nc)) ops ops') : ∀ (st : LoaderStatics T) {b b' : Backend ℝ T}, GoodSolvers ops → BTurned r nc b b' → CovOk N nc b →
      Both (fun x y => BTurned r nc x.1.b y.1.b ∧ List.Forall₂ (OutTurned r) x.2 y.2) ((⟨st, g, b⟩ : BProc ℝ T).run ops) ((⟨st, g, b'⟩ : BProc ℝ T).run ops') := by
  induction hops with
  | nil => intro st b b' _ h _; exact ⟨h, .nil⟩
  | cons hop hops ih =>
    rename_i op op' ops ops'
    intro st b b' hs h hi
    rw [BProc.run, BProc.run]
    refine (step_turned hr hN hop hg h hi).bind (fun ⟨p1, o⟩ ⟨p1', o'⟩ k1 _ e => ?_)
    obtain ⟨e1, e2, e3, e4, e5⟩ := e
    obtain ⟨st1, g1, b1⟩ := p1
    obtain ⟨st1', g1', b1'⟩ := p1'
    dsimp only at e1 e2 e3 e4 e5 ⊢
    subst e1 e2 e3
    have hi1 : CovOk N nc b1 := by
      refine covOk_run N nc hN [op] _ ⟨_, _, b1⟩ [o] (fun env he => hs env ?_) hi (by rw [BProc.run, k1]; rfl)
      rw [List.mem_singleton.1 he]
      exact List.mem_cons_self
    refine (ih _ (fun env he => hs env (List.mem_cons_of_mem _ he)) e4 hi1).bind (fun ⟨p2, os⟩ ⟨p2', os'⟩ _ _ e => ?_)
    exact ⟨e.1, .cons e5 e.2⟩

end Vio

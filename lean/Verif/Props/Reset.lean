/-
C118: `Reset` in the middle of a history.
-/
import Verif.Lemmas.ResetSafe

set_option linter.unusedSectionVars false

namespace Vio
open Spec WinSpec AttSpec Update

variable {K T : Type} [Add K] [Sub K] [Mul K] [Neg K] [Div K] [Zero K] [One K] [ScalarFn K]
  [TimeOps T] [TimeCast T K]

namespace Backend

/-- Every call of a history, other than `Reset`, meets `CallOk` in the state it is made in. -/
def ResetRun (nc : Nat) : BProc K T → List (BOp K T) → Prop
  | _, [] => True
  | p, op :: ops => (op ≠ .reset → CallOk nc p op) ∧ ∀ p' o, p.step op = .ok (p', o) → ResetRun nc p' ops

/-- A good history in the sense of C68 is one. -/
theorem GoodRun.reset {nc : Nat} (ops : List (BOp K T)) : ∀ p : BProc K T, GoodRun nc p ops → ResetRun nc p ops := by
  induction ops with
  | nil => intro _ _; trivial
  | cons op ops ih => intro p h; exact ⟨fun _ => h.1, fun p' o e => ih p' (h.2 p' o e)⟩

section Safe
variable [LinearOrder T] [TimeLaws T] [CastLaws T K]

theorem loose_loader {nc N U : Nat} {l : Log K T} {b : Backend K T} (h : Loose nc N U l b) (ld : Loader K T) : Loose nc N U l { b with loader := ld } :=
  ⟨⟨h.mounted, h.ext, h.size, h.used, h.rel, h.addr, h.obs, h.base, h.sorted⟩, h.len, h.queue, h.live⟩

/-- With no frame in the window the first frame id may be taken to be 1. -/
theorem loose_base {nc N U : Nat} {l : Log K T} {b : Backend K T} (h : Loose nc N U l b) : ∃ l', Loose nc N U l' b ∧ (l'.msgs = [] → l'.base = 1) := by
  by_cases he : l.msgs = []
  · refine ⟨Log.empty, ⟨⟨h.mounted, h.ext, h.size, h.used, ?_, h.addr, ?_, le_rfl, h.sorted⟩, ?_, ?_, ?_⟩, fun _ => rfl⟩
    · have hl := h.rel.len
      rw [he] at hl
      refine ⟨h.rel.wf, by show 1 + 0 < two32; decide, ?_, ?_, ?_, hl, ?_⟩
      · intro m hm; cases hm
      · intro id r hr
        obtain ⟨hne, hlo, hhi, -⟩ := h.rel.tracks id r hr
        rw [he, List.length_nil] at hhi
        have := List.length_pos_iff.2 hne
        omega
      · intro _ _ m hm; cases hm
      · intro i fr m _ hm; cases hm
    · intro m hm; cases hm
    · show 0 ≤ _; omega
    · exact h.queue
    · intro hs
      have := (h.live hs).1
      rw [he, List.length_nil] at this
      omega
  · exact ⟨l, h, fun hc => absurd hc he⟩

/-- C118 for a state in mid-history. -/
theorem reset_run (nc N U : Nat) (hfit : Fits nc (max 1 N + 1) U) (ops : List (BOp K T)) : ∀ (p : BProc K T) (l : Log K T), Loose nc N U l p.b →
    TimeOps.tlit 0 ≤ p.b.loader.imuPeriod → TimeOps.mul p.b.loader.imuPeriod (TimeOps.tlit (55/100)) ≤ p.b.loader.imuPeriod → ResetRun nc p ops →
    ∃ p' outs, p.run ops = .ok (p', outs) ∧ ∃ l', Loose nc N U l' p'.b := by
  induction ops with
  | nil => intro p l h _ _ _; exact ⟨p, [], rfl, l, h⟩
  | cons op ops ih =>
    intro p l h h0 h1 ⟨hc, hg⟩
    have fin : ∀ p1 o l1, p.step op = .ok (p1, o) → Loose nc N U l1 p1.b → p1.b.loader.imuPeriod = p.b.loader.imuPeriod →
        ∃ p' outs, p.run (op :: ops) = .ok (p', outs) ∧ ∃ l', Loose nc N U l' p'.b := by
      intro p1 o l1 e hs hp
      obtain ⟨p', outs, r1, r2⟩ := ih p1 l1 hs (by rw [hp]; exact h0) (by rw [hp]; exact h1) (hg p1 o e)
      refine ⟨p', o :: outs, ?_, r2⟩
      rw [BProc.run, e, Res.bind_ok]
      dsimp only
      rw [r1, Res.bind_ok]
    cases op with
    | imu m => exact fin _ _ l rfl (loose_loader h _) rfl
    | feat m => exact fin _ _ l rfl (loose_loader h _) (push_period _ _ _)
    | run env =>
      obtain ⟨l, h, hb1⟩ := loose_base h
      have hpop := callOk_rel h.rel hb1 env (hc (by simp))
      obtain ⟨r, b', l', e1, e2, -⟩ := runOnce_loose env p.g h hfit h0 h1 hpop
      refine fin { p with b := b' } (.ret r) l' ?_ e2 ?_
      · rw [BProc.step, e1, Res.bind_ok]
      · show b'.loader.imuPeriod = _
        rw [runOnce_loader _ _ _ _ _ e1, pop_period]
    | runTest => exact fin _ _ l rfl (loose_loader h _) (pop_period _)
    | publishPropagate =>
      obtain ⟨s, hs⟩ := (publish_ok p.b).1
      exact fin p (.state s) l (by rw [BProc.step, hs, Res.bind_ok]) h rfl
    | publishUpdate =>
      obtain ⟨s, hs⟩ := (publish_ok p.b).2
      exact fin p (.state s) l (by rw [BProc.step, hs, Res.bind_ok]) h rfl
    | reset => exact fin _ _ l rfl h.reset rfl

/-- C118.  `Reset` may be called anywhere in a well-formed history: the backend meets no undefined behaviour, apart from the read that `C68_freed_read` describes. -/
theorem C118_no_ub (p : BProc K T) (ops : List (BOp K T)) (hf : Fresh p.b) (hr : Ready p.b) (hg : ResetRun p.b.u.w.frm.extrinsics.length p ops) :
    ∃ p' outs, p.run ops = .ok (p', outs) := by
  obtain ⟨p', outs, h, -⟩ := reset_run _ _ _ hr.fits ops p Log.empty (fresh_stable p.b hf hr).loose hr.period hr.half hg
  exact ⟨p', outs, h⟩

/-- A tracker's history is a good one, wherever `Reset` is called. -/
theorem track_resetRun {nc N U : Nat} {tot : List (List Nat)} (hfit : Fits nc (max 1 N + 1) U) (hc : Continuous tot) (ht : tot.length + 1 < two32) (ops : List (BOp K T)) :
    ∀ (p : BProc K T) (l : Log K T), Loose nc N U l p.b → TimeOps.tlit 0 ≤ p.b.loader.imuPeriod →
    TimeOps.mul p.b.loader.imuPeriod (TimeOps.tlit (55/100)) ≤ p.b.loader.imuPeriod → Track nc tot l p ops → ResetRun nc p ops := by
  induction ops with
  | nil => intro p l _ _ _ _; trivial
  | cons op ops ih =>
    intro p l h h0 h1 htr
    cases op with
    | imu m =>
      refine ⟨fun _ => trivial, ?_⟩
      intro p' o e
      cases e
      exact ih _ l (loose_loader h _) h0 h1 ⟨htr.sub, htr.count, htr.queue, htr.rest⟩
    | feat m =>
      refine ⟨fun _ => trivial, ?_⟩
      intro p' o e
      cases e
      obtain ⟨e1, e2⟩ : (p.b.loader.pushFeatures p.statics m).loader.imuPeriod = p.b.loader.imuPeriod ∧
          ((p.b.loader.pushFeatures p.statics m).loader.featMeas = p.b.loader.featMeas ∨
            ∃ t, (p.b.loader.pushFeatures p.statics m).loader.featMeas = p.b.loader.featMeas ++ [{ m with ts := t }]) := by
        unfold Loader.pushFeatures
        dsimp only
        split
        · exact ⟨rfl, .inl rfl⟩
        · refine ⟨rfl, ?_⟩
          dsimp only
          generalize (if TimeOps.isNaN p.b.loader.offset = true then m.ts else p.b.loader.offset) = off
          split
          · exact .inr ⟨_, rfl⟩
          · exact .inl rfl
      have hsub := htr.sub
      have hcount := htr.count
      simp only [featMsgs, List.map_cons, List.length_cons] at hsub hcount
      have hm := htr.rest m List.mem_cons_self
      refine ih _ l (loose_loader h _) (by rw [show _ = _ from e1]; exact h0) (by rw [show _ = _ from e1]; exact h1) ?_
      rcases e2 with e2 | ⟨t, e2⟩
      · refine ⟨?_, ?_, ?_, fun x hx => htr.rest x (List.mem_cons_of_mem _ hx)⟩
        · show ((l.msgs ++ (p.b.loader.pushFeatures p.statics m).loader.featMeas).map _ ++ _).Sublist _
          rw [e2]
          exact (List.Sublist.append (List.Sublist.refl _) (List.sublist_cons_self _ _)).trans hsub
        · show l.base + l.msgs.length + (p.b.loader.pushFeatures p.statics m).loader.featMeas.length + _ ≤ _
          rw [e2]; omega
        · show ∀ x ∈ (p.b.loader.pushFeatures p.statics m).loader.featMeas, _
          rw [e2]; exact htr.queue
      · refine ⟨?_, ?_, ?_, fun x hx => htr.rest x (List.mem_cons_of_mem _ hx)⟩
        · show ((l.msgs ++ (p.b.loader.pushFeatures p.statics m).loader.featMeas).map _ ++ _).Sublist _
          rw [e2]
          simpa [List.append_assoc] using hsub
        · show l.base + l.msgs.length + (p.b.loader.pushFeatures p.statics m).loader.featMeas.length + _ ≤ _
          rw [e2, List.length_append, List.length_singleton]; omega
        · show ∀ x ∈ (p.b.loader.pushFeatures p.statics m).loader.featMeas, _
          rw [e2]
          intro x hx
          rcases List.mem_append.1 hx with hx | hx
          · exact htr.queue x hx
          · rw [List.mem_singleton.1 hx]; exact ⟨hm.nodup, hm.len, hm.obs⟩
    | run env =>
      have hcall := track_rel hc ht h.rel htr env
      have hq := pop_feat p.b.loader
      have hsub := htr.sub
      have hcount := htr.count
      simp only [featMsgs] at hsub hcount
      have hpop : ∀ m, p.b.loader.popOne.out.featMeas = some m → GoodMsg l m ∧ GoodObs nc m ∧ l.base + l.msgs.length + 1 < two32 := by
        intro m hm
        obtain ⟨c1, c2, -⟩ := hcall m hm
        rw [hm, Option.toList_some, List.singleton_append] at hq
        have hlen : p.b.loader.featMeas.length = p.b.loader.popOne.loader.featMeas.length + 1 := by rw [← hq]; simp
        exact ⟨goodMsg_of_track h.rel nc m c1 c2, c1.obs, by omega⟩
      refine ⟨fun _ => hcall, ?_⟩
      intro p' o e
      obtain ⟨r, b', l', e1, e2, e3, e4, -⟩ := runOnce_loose env p.g h hfit h0 h1 hpop
      rw [BProc.step, e1, Res.bind_ok] at e
      cases e
      have el := runOnce_loader _ _ _ _ _ e1
      have hlen : p.b.loader.featMeas.length = p.b.loader.popOne.out.featMeas.toList.length + p.b.loader.popOne.loader.featMeas.length := by
        rw [← List.length_append, hq]
      refine ih _ l' e2 (by show _ ≤ b'.loader.imuPeriod; rw [el, pop_period]; exact h0)
        (by show TimeOps.mul b'.loader.imuPeriod _ ≤ b'.loader.imuPeriod; rw [el, pop_period]; exact h1) ⟨?_, ?_, ?_, htr.rest⟩
      · show ((l'.msgs ++ b'.loader.featMeas).map _ ++ _).Sublist _
        rw [el]
        refine List.Sublist.trans (List.Sublist.append (List.Sublist.map _ ?_) (List.Sublist.refl _)) hsub
        conv_rhs => rw [← hq]
        rw [← List.append_assoc]
        exact List.Sublist.append e3 (List.Sublist.refl _)
      · show l'.base + l'.msgs.length + b'.loader.featMeas.length + _ ≤ _
        rw [el]; omega
      · show ∀ x ∈ b'.loader.featMeas, _
        rw [el]
        intro x hx
        exact htr.queue x (by rw [← hq]; exact List.mem_append_right _ hx)
    | runTest =>
      refine ⟨fun _ => trivial, ?_⟩
      intro p' o e
      cases e
      have hq := pop_feat p.b.loader
      have hlen : p.b.loader.featMeas.length = p.b.loader.popOne.out.featMeas.toList.length + p.b.loader.popOne.loader.featMeas.length := by
        rw [← List.length_append, hq]
      have hcount := htr.count
      simp only [featMsgs] at hcount
      refine ih _ l (loose_loader h _) (by show _ ≤ p.b.loader.popOne.loader.imuPeriod; rw [pop_period]; exact h0)
        (by show TimeOps.mul p.b.loader.popOne.loader.imuPeriod _ ≤ p.b.loader.popOne.loader.imuPeriod; rw [pop_period]; exact h1) ⟨?_, ?_, ?_, htr.rest⟩
      · refine List.Sublist.trans (List.Sublist.append (List.Sublist.map _ (List.Sublist.append (List.Sublist.refl _) ?_)) (List.Sublist.refl _)) htr.sub
        conv_rhs => rw [← hq]
        exact List.sublist_append_right _ _
      · show l.base + l.msgs.length + p.b.loader.popOne.loader.featMeas.length + _ ≤ _
        omega
      · intro x hx
        exact htr.queue x (by rw [← hq]; exact List.mem_append_right _ hx)
    | publishPropagate =>
      refine ⟨fun _ => trivial, ?_⟩
      intro p' o e
      rw [BProc.step] at e
      obtain ⟨s, -, e⟩ := Res.bind_eq_ok.1 e
      cases e
      exact ih p l h h0 h1 ⟨htr.sub, htr.count, htr.queue, htr.rest⟩
    | publishUpdate =>
      refine ⟨fun _ => trivial, ?_⟩
      intro p' o e
      rw [BProc.step] at e
      obtain ⟨s, -, e⟩ := Res.bind_eq_ok.1 e
      cases e
      exact ih p l h h0 h1 ⟨htr.sub, htr.count, htr.queue, htr.rest⟩
    | reset =>
      refine ⟨fun hc => absurd rfl hc, ?_⟩
      intro p' o e
      cases e
      exact ih _ l h.reset h0 h1 ⟨htr.sub, htr.count, htr.queue, htr.rest⟩

theorem tracker_resetRun (p : BProc K T) (ops : List (BOp K T)) (hf : Fresh p.b) (hr : Ready p.b)
    (hm : ∀ m ∈ featMsgs ops, MsgOk p.b.u.w.frm.extrinsics.length m) (hc : Continuous ((featMsgs ops).map (·.ids))) (hn : (featMsgs ops).length + 1 < two32) :
    ResetRun p.b.u.w.frm.extrinsics.length p ops := by
  refine track_resetRun hr.fits hc (by rw [List.length_map]; exact hn) ops p Log.empty (fresh_stable p.b hf hr).loose hr.period hr.half ⟨?_, ?_, ?_, hm⟩
  · rw [hf.feat]; exact List.Sublist.refl _
  · rw [hf.feat, List.length_map]; show 1 + 0 + 0 + _ ≤ _; omega
  · rw [hf.feat]; intro m hm; cases hm

/-- C118 in terms of the input alone: the messages are well formed, no lost id comes back and fewer than 2^32 - 1 messages are pushed. -/
theorem C118_tracker (p : BProc K T) (ops : List (BOp K T)) (hf : Fresh p.b) (hr : Ready p.b)
    (hm : ∀ m ∈ featMsgs ops, MsgOk p.b.u.w.frm.extrinsics.length m) (hc : Continuous ((featMsgs ops).map (·.ids))) (hn : (featMsgs ops).length + 1 < two32) :
    ∃ p' outs, p.run ops = .ok (p', outs) :=
  C118_no_ub p ops hf hr (tracker_resetRun p ops hf hr hm hc hn)

end Safe

/-! ### The initialisation after `Reset` -/

/-- Replaying samples into a queue that is not empty appends to it. -/
theorem replay_append (mounted : Bool) (nExt : Nat) (g : Vec3 K) (its : List (AttItem K T)) : ∀ (s s' : PropQueue K T), s.items ≠ [] → replay mounted nExt g s its = .ok s' →
    ∃ new, s'.items = s.items ++ new ∧ new.length = its.length ∧ s'.exCamCov = s.exCamCov ∧ s'.biasA = s.biasA ∧ s'.biasG = s.biasG := by
  induction its with
  | nil => intro s s' _ h; cases h; exact ⟨[], by simp, rfl, rfl, rfl, rfl⟩
  | cons it its ih =>
    intro s s' hne h
    rw [replay] at h
    split at h
    · obtain ⟨z, hz⟩ := Option.ne_none_iff_exists'.1 (mt List.getLast?_eq_none_iff.1 hne)
      have e1 : (s.propagate nExt g it.accel it.gyro it.ts).items = s.items ++ [s.stepItem g z it.accel it.gyro it.ts] := by
        unfold PropQueue.propagate; simp only [hz]
      have e2 : (s.propagate nExt g it.accel it.gyro it.ts).exCamCov = s.exCamCov ∧ (s.propagate nExt g it.accel it.gyro it.ts).biasA = s.biasA ∧
          (s.propagate nExt g it.accel it.gyro it.ts).biasG = s.biasG := by
        unfold PropQueue.propagate; simp only [hz]; exact ⟨trivial, trivial, trivial⟩
      obtain ⟨new, n1, n2, n3, n4, n5⟩ := ih _ _ (by rw [e1]; simp) h
      refine ⟨s.stepItem g z it.accel it.gyro it.ts :: new, by rw [n1, e1, List.append_assoc]; rfl, by simp [n2], n3.trans e2.1, n4.trans e2.2.1, n5.trans e2.2.2⟩
    · cases h

/-- C118, what the initialisation after `Reset` does: as long as states from before are queued, the state it computes is not used.  It appends one state per attitude to the old ones, whose
covariance stays, and `PublishUpdateState` reports what it reported before. -/
theorem C118_state_ignored (env : Env K) (g : Vec3 K) (b b' : Backend K T) (hne : b.u.q.items ≠ []) (h : initialise env g b = .ok (true, b')) :
    (∃ new, b'.u.q.items = b.u.q.items ++ new ∧ new.length = b'.att.items.length) ∧ b'.u.q.exCamCov = b.u.q.exCamCov ∧ b'.publishUpdate = b.publishUpdate := by
  obtain ⟨-, -, h3⟩ := initialise_queue env g b b' true h
  obtain ⟨st, t, -, hr⟩ := h3 rfl
  obtain ⟨new, n1, n2, n3, n4, n5⟩ := replay_append _ _ _ _ { b.u.q with initState := st } _ hne hr
  refine ⟨⟨new, n1, n2⟩, n3, ?_⟩
  obtain ⟨i0, is, hi⟩ := List.exists_cons_of_ne_nil hne
  have hi' : b'.u.q.items = i0 :: (is ++ new) := by rw [n1]; show b.u.q.items ++ new = _; rw [hi]; rfl
  unfold publishUpdate publish
  rw [hi, hi']
  simp only [List.isEmpty_cons, Bool.false_eq_true, if_false, front_cons, Res.bind_ok]
  rw [n4, n5]

/-! ### Concrete cases -/

/-- `exBias` with a window of one frame. -/
def exSmall : BProc ℚ ℚ := { exBias with b := { exBias.b with u := { exBias.b.u with w := { exBias.b.u.w with frm := { exBias.b.u.w.frm with maxWindowSize := 1 } } } } }

/-- The filter that runs on after `Reset` is not the one a fresh start would give: both take the same two messages and are running afterwards, the fresh one at height -1/2, the one after `Reset` at -9/4. -/
theorem C118_stale : (exSmall.run (exRun 1 (exMsg 10 1) ++ exRun 2 (exMsg 10 2))).check (fun r => decide (r.1.b.status = .initialized) &&
      decide (r.1.b.u.q.items.map (fun i => (i.ts, i.st.p.z)) = [(3, -1 / 2)])) = true ∧
    (exSmall.run (exRun 0 (exMsg 10 0) ++ exRun 1 (exMsg 10 1) ++ [.reset] ++ exRun 2 (exMsg 10 2))).check (fun r => decide (r.1.b.status = .initialized) &&
      decide (r.1.b.u.q.items.map (fun i => (i.ts, i.st.p.z)) = [(3, -9 / 4)])) = true :=
  ⟨by decide +kernel, by decide +kernel⟩

/-- The hypotheses of C118 hold for a history with two calls of `Reset`, one on a running filter. -/
example : ResetRun 2 exSmall (exRun 0 (exMsg 10 0) ++ exRun 1 (exMsg 10 1) ++ [.reset, .publishUpdate] ++ exRun 2 exLost ++ [.reset]) := by
  refine tracker_resetRun exSmall _ ⟨rfl, rfl, rfl, rfl, rfl, rfl, rfl⟩ ⟨rfl, ex_ready.period, ex_ready.half, ⟨by decide, by decide, by decide⟩⟩ ?_ ex_continuous (by decide)
  intro m hm
  have : m = exMsg 10 0 ∨ m = exMsg 10 1 ∨ m = exLost := by simpa [exRun, featMsgs] using hm
  rcases this with rfl | rfl | rfl
  · exact ex_msgOk _ (by decide) rfl rfl
  · exact ex_msgOk _ (by decide) rfl rfl
  · exact ex_msgOk _ (by decide) rfl rfl

/-- The hypotheses of `C118_state_ignored` are met: after `Reset` and one more message the initialisation succeeds with a state in the queue. -/
example : (exSmall.run (exRun 0 (exMsg 10 0) ++ exRun 1 (exMsg 10 1) ++ [.reset, .imu (exImu 2), .run exEnv])).check (fun r => !r.1.b.u.q.items.isEmpty &&
    (initialise exEnv r.1.g (r.1.b.setWin (r.1.b.u.w.insert (exMsg 10 3)))).check (fun x => x.1)) = true := by
  decide +kernel

end Backend
end Vio

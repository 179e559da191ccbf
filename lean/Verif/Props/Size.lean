/-
C112: the map, the window and the covariance stay within bounds that the configuration and the tracker set, however long the filter runs.
-/
import Verif.Props.Safety

set_option linter.unusedSectionVars false

namespace Vio

variable {K T : Type} [Add K] [Sub K] [Mul K] [Neg K] [Div K] [Zero K] [One K] [ScalarFn K] [TimeOps T] [TimeCast T K]

namespace Backend
open WinSpec AttSpec Update

theorem pushFeat_queue (s : LoaderStatics T) (l : Loader K T) (m : FeatMsg K T) :
    (l.pushFeatures s m).loader.featMeas = l.featMeas ∨ ∃ t, (l.pushFeatures s m).loader.featMeas = l.featMeas ++ [{ m with ts := t }] := by
  unfold Loader.pushFeatures
  dsimp only
  split
  · exact .inl rfl
  · dsimp only
    generalize (if TimeOps.isNaN l.offset = true then m.ts else l.offset) = off
    split
    · exact .inr ⟨_, rfl⟩
    · exact .inl rfl

section Safe
variable [LinearOrder T] [TimeLaws T] [CastLaws T K]

/-- `safe_run` with the number of ids of the messages in the window. -/
theorem safe_run_ids (M nc N U : Nat) (hfit : Fits nc (max 1 N + 1) U) (ops : List (BOp K T)) : ∀ (p : BProc K T) (l : Log K T), Stable False nc N U l p.b →
    TimeOps.tlit 0 ≤ p.b.loader.imuPeriod → TimeOps.mul p.b.loader.imuPeriod (TimeOps.tlit (55/100)) ≤ p.b.loader.imuPeriod → GoodRun nc p ops →
    (∀ m ∈ l.msgs, m.ids.length ≤ M) → (∀ m ∈ p.b.loader.featMeas, m.ids.length ≤ M) → (∀ m ∈ featMsgs ops, m.ids.length ≤ M) →
    ∃ p' outs, p.run ops = .ok (p', outs) ∧ ∃ l', Stable False nc N U l' p'.b ∧ ∀ m ∈ l'.msgs, m.ids.length ≤ M := by
  induction ops with
  | nil => intro p l h _ _ _ hl _ _; exact ⟨p, [], rfl, l, h, hl⟩
  | cons op ops ih =>
    intro p l h h0 h1 ⟨hc, hg⟩ hl hq ho
    have ho' : ∀ m ∈ featMsgs ops, m.ids.length ≤ M := by
      intro m hm
      refine ho m ?_
      cases op <;> first | exact hm | exact List.mem_cons_of_mem _ hm
    have fin : ∀ p1 o l1, p.step op = .ok (p1, o) → Stable False nc N U l1 p1.b → p1.b.loader.imuPeriod = p.b.loader.imuPeriod →
        (∀ m ∈ l1.msgs, m.ids.length ≤ M) → (∀ m ∈ p1.b.loader.featMeas, m.ids.length ≤ M) →
        ∃ p' outs, p.run (op :: ops) = .ok (p', outs) ∧ ∃ l', Stable False nc N U l' p'.b ∧ ∀ m ∈ l'.msgs, m.ids.length ≤ M := by
      intro p1 o l1 e hs hp hl1 hq1
      obtain ⟨p', outs, r1, r2⟩ := ih p1 l1 hs (by rw [hp]; exact h0) (by rw [hp]; exact h1) (hg p1 o e) hl1 hq1 ho'
      refine ⟨p', o :: outs, ?_, r2⟩
      rw [BProc.run, e, Res.bind_ok]
      dsimp only
      rw [r1, Res.bind_ok]
    have hpopq : ∀ m, m ∈ p.b.loader.popOne.out.featMeas.toList ∨ m ∈ p.b.loader.popOne.loader.featMeas → m.ids.length ≤ M := by
      intro m hm
      refine hq m ?_
      rw [← pop_feat p.b.loader]
      exact List.mem_append.2 hm
    cases op with
    | imu m => exact fin _ _ l rfl (stable_loader h _) rfl hl hq
    | feat m =>
      refine fin _ _ l rfl (stable_loader h _) (push_period _ _ _) hl ?_
      intro x hx
      have hx : x ∈ (p.b.loader.pushFeatures p.statics m).loader.featMeas := hx
      rcases pushFeat_queue p.statics p.b.loader m with e | ⟨t, e⟩
      · rw [e] at hx; exact hq x hx
      · rw [e] at hx
        rcases List.mem_append.1 hx with hx | hx
        · exact hq x hx
        · rw [List.mem_singleton.1 hx]; exact ho m List.mem_cons_self
    | run env =>
      obtain ⟨l1, h2, hb1, hl1⟩ : ∃ l1, Stable False nc N U l1 p.b ∧ (l1.msgs = [] → l1.base = 1) ∧ ∀ m ∈ l1.msgs, m.ids.length ≤ M := by
        by_cases he : l.msgs = []
        · obtain ⟨l1, a1, a2⟩ := stable_base h
          have e1 := a1.rel.len
          have e2 := h.rel.len
          rw [he] at e2
          rw [e2] at e1
          have e3 : l1.msgs = [] := List.eq_nil_of_length_eq_zero e1.symm
          exact ⟨l1, a1, a2, fun m hm => by rw [e3] at hm; cases hm⟩
        · exact ⟨l, h, fun hc => absurd hc he, hl⟩
      have hpop := callOk_msg h2 hb1 env hc
      obtain ⟨r, b', l', e1, e2, e3, -⟩ := runOnce_ok False env p.g h2 hfit h0 h1 hpop (by simp)
      refine fin { p with b := b' } (.ret r) l' ?_ e2 ?_ ?_ ?_
      · rw [BProc.step, e1, Res.bind_ok]
      · show b'.loader.imuPeriod = _
        rw [runOnce_loader _ _ _ _ _ e1, pop_period]
      · intro m hm
        rcases List.mem_append.1 (e3.subset hm) with hm | hm
        · exact hl1 m hm
        · exact hpopq m (.inl hm)
      · show ∀ m ∈ b'.loader.featMeas, _
        rw [runOnce_loader _ _ _ _ _ e1]
        exact fun m hm => hpopq m (.inr hm)
    | runTest => exact fin _ _ l rfl (stable_loader h _) (pop_period _) hl (fun m hm => hpopq m (.inr hm))
    | publishPropagate =>
      obtain ⟨s, hs⟩ := (publish_ok p.b).1
      exact fin p (.state s) l (by rw [BProc.step, hs, Res.bind_ok]) h rfl hl hq
    | publishUpdate =>
      obtain ⟨s, hs⟩ := (publish_ok p.b).2
      exact fin p (.state s) l (by rw [BProc.step, hs, Res.bind_ok]) h rfl hl hq
    | reset => exact hc.elim

/-- The features of a window are named in its messages. -/
theorem rel_keys {l : Log K T} {w : Win K T} (h : Rel l w) : ∀ id ∈ w.feat.map.map (·.1), id ∈ l.msgs.flatMap (·.ids) := by
  intro id hid
  obtain ⟨r, hr⟩ := Option.isSome_iff_exists.1 ((lookup_isSome_iff_keys _ _).2 hid)
  obtain ⟨t1, t2, t3, t4⟩ := h.tracks id r hr
  have hpos := List.length_pos_iff.2 t1
  have hi : (w.feat.heap r).first - l.base < l.msgs.length := by omega
  have hr' := t4 _ _ (List.getElem?_eq_getElem hi)
  rw [if_pos (by omega), show l.base + ((w.feat.heap r).first - l.base) - (w.feat.heap r).first = 0 by omega, List.getElem?_eq_getElem hpos] at hr'
  exact List.mem_flatMap.2 ⟨_, List.getElem_mem hi, (report_some_mem hr').1⟩

theorem flatMap_ids_length (M : Nat) (ms : List (FeatMsg K T)) (h : ∀ m ∈ ms, m.ids.length ≤ M) : (ms.flatMap (·.ids)).length ≤ ms.length * M := by
  induction ms with
  | nil => simp
  | cons m ms ih =>
    rw [List.flatMap_cons, List.length_append, List.length_cons, Nat.succ_mul]
    have := h m List.mem_cons_self
    have := ih fun x hx => h x (List.mem_cons_of_mem _ hx)
    omega

/-- The sizes of everything the filter keeps about the images: window, map and covariance. -/
structure Small (M nc W : Nat) (b : Backend K T) : Prop where
  frames : b.u.w.frm.frames.length ≤ W
  map : b.u.w.feat.map.length ≤ W * M
  tracks : ∀ e ∈ b.u.w.feat.map, (b.u.w.feat.heap e.2).observes.length ≤ W
  links : ∀ fr ∈ b.u.w.frm.frames, fr.features.length ≤ M
  cov : ∀ it ∈ b.u.q.items, it.imuCov.rows = 15 ∧ it.imuCov.cols = 15 ∧ it.imuEx.rows = 15 ∧ it.imuEx.cols = 6 * (nc + b.u.w.frm.frames.length)
  exCov : b.u.q.items ≠ [] → b.u.q.exCamCov.rows = 6 * (nc + b.u.w.frm.frames.length) ∧ b.u.q.exCamCov.cols = 6 * (nc + b.u.w.frm.frames.length)

theorem stable_small (M nc N U : Nat) {l : Log K T} {b : Backend K T} (h : Stable False nc N U l b) (hM : ∀ m ∈ l.msgs, m.ids.length ≤ M) : Small M nc (max 1 N) b := by
  have hlen : b.u.w.frm.frames.length = l.msgs.length := h.rel.len
  have hle := h.len
  have hlive : b.u.q.items ≠ [] → b.status = .initialized := by
    intro hne
    cases hs : b.status with
    | initialized => rfl
    | needInit => exact absurd (h.idle hs).2 hne
  refine ⟨by omega, ?_, ?_, ?_, ?_, ?_⟩
  · have h1 : (b.u.w.feat.map.map (·.1)).length ≤ (l.msgs.flatMap (·.ids)).length := (List.subperm_of_subset h.rel.wf.nodup (rel_keys h.rel)).length_le
    rw [List.length_map] at h1
    exact h1.trans ((flatMap_ids_length M _ hM).trans (Nat.mul_le_mul_right _ hle))
  · intro e he
    have hr := lookup_of_mem h.rel.wf.nodup (show (e.1, e.2) ∈ b.u.w.feat.map from he)
    obtain ⟨-, t2, t3, -⟩ := h.rel.tracks _ _ hr
    omega
  · intro fr hfr
    obtain ⟨i, hi, hfi⟩ := List.mem_iff_getElem.1 hfr
    have hil : i < l.msgs.length := by omega
    have hf := h.rel.frames i fr _ (by rw [← hfi]; exact List.getElem?_eq_getElem hi) (List.getElem?_eq_getElem hil)
    have hsub : ∀ id ∈ fr.features.map (·.1), id ∈ (l.msgs[i]).ids := by
      intro id hid
      have := (lookup_isSome_iff_keys _ _).2 hid
      rw [hf.link] at this
      split at this
      · next hr =>
        obtain ⟨o, ho⟩ := Option.isSome_iff_exists.1 hr
        exact (report_some_mem ho).1
      · cases this
    have h1 := (List.subperm_of_subset hf.nodup hsub).length_le
    rw [List.length_map] at h1
    exact h1.trans (hM _ (List.getElem_mem hil))
  · intro it hit
    obtain ⟨-, hl⟩ := h.live (hlive (List.ne_nil_of_mem hit))
    have := hl.dims
    rw [hlen]
    exact ⟨(this.cov it hit).1, (this.cov it hit).2, this.rows it hit, this.ex.items it hit⟩
  · intro hne
    obtain ⟨-, hl⟩ := h.live (hlive hne)
    have := hl.dims.ex
    rw [hlen]
    exact ⟨this.rows, this.cols⟩

/-- C112.  In every history of well-formed messages with at most `M` features each (no lost id comes back, Reset is not called), at every point between two calls: the window has at
most `N` frames (one if the size is configured as 0), the map at most `N * M` features with at most `N` observations each, a frame at most `M` links, and all covariances
exactly the size that the cameras and the frames in the window need. -/
theorem C112_sizes (M : Nat) (p : BProc K T) (ops : List (BOp K T)) (hf : Fresh p.b) (hr : Ready p.b) (hres : ∀ op ∈ ops, op ≠ .reset)
    (hm : ∀ m ∈ featMsgs ops, MsgOk p.b.u.w.frm.extrinsics.length m) (hc : Continuous ((featMsgs ops).map (·.ids))) (hn : (featMsgs ops).length + 1 < two32)
    (hM : ∀ m ∈ featMsgs ops, m.ids.length ≤ M) :
    ∃ p' outs, p.run ops = .ok (p', outs) ∧ Small M p.b.u.w.frm.extrinsics.length (max 1 p.b.u.w.frm.maxWindowSize) p'.b := by
  obtain ⟨p', outs, h, l', h1, h2⟩ := safe_run_ids M _ _ _ hr.fits ops p Log.empty (fresh_stable p.b hf hr) hr.period hr.half (tracker_goodRun p ops hf hr hres hm hc hn)
    (fun m hm => by cases hm) (fun m hm => by rw [hf.feat] at hm; cases hm) hM
  exact ⟨p', outs, h, stable_small M _ _ _ h1 h2⟩

end Safe

/-- The hypotheses of C112 are met by a run with ten features per image and one with fewer, and the bounds are reached: two frames with ten features each. -/
example : (∀ m ∈ featMsgs (exOps 10 ++ [.imu (exImu 2), .feat exLost, .run exEnv]), MsgOk 2 m ∧ m.ids.length ≤ 10) ∧
    (exProc.run (exOps 10)).check (fun r => decide (r.1.b.u.w.frm.frames.length = 2) && decide (r.1.b.u.w.feat.map.length = 10) &&
      decide (r.1.b.u.q.exCamCov.rows = 24) && r.1.b.u.w.feat.map.all (fun e => decide ((r.1.b.u.w.feat.heap e.2).observes.length = 2)) &&
      r.1.b.u.w.frm.frames.all (fun f => decide (f.features.length = 10))) = true := by
  refine ⟨?_, by decide +kernel⟩
  intro m hm
  have : m = exMsg 10 0 ∨ m = exMsg 10 1 ∨ m = exLost := by simpa [exOps, featMsgs] using hm
  rcases this with rfl | rfl | rfl
  · exact ⟨ex_msgOk _ (by decide) rfl rfl, by decide⟩
  · exact ⟨ex_msgOk _ (by decide) rfl rfl, by decide⟩
  · exact ⟨ex_msgOk _ (by decide) rfl rfl, by decide⟩

end Backend
end Vio

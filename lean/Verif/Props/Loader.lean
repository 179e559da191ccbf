/-
Properties C01 - C10: the data loader.

`K` is any type with the operations of `Scalar` (no laws), `T` any type with the operations of `fp64`.  `TimeOrd T` asks for the laws of
IEEE comparison (NaN included), `TimeLaws T` for those of finite IEEE numbers.
-/
import Verif.Lemmas.LoaderOrder
import Mathlib.Tactic.FieldSimp

set_option linter.unusedSectionVars false

namespace Vio

open LoaderSpec

section Structural
variable {K T : Type _} [Add K] [Sub K] [Mul K] [Neg K] [Div K] [Zero K] [One K] [ScalarFn K]
  [TimeOps T] [TimeCast T K]

/-- C01.  In every history of a process every push rewrites the caller's message to "raw time minus -1" (unless the features message is
malformed, then it is untouched), for both sensors and all loader instances alike. -/
theorem C01_constant_shift [TimeOrd T] (ops : List (LOp K T)) (p : LProc K T) (outs : List (LOut K T))
    (h : LProc.init.run ops = .ok (p, outs)) : List.Forall₂ ShiftedBy ops outs :=
  LProc.shifted_run LProc.offsets_init h

/-- C01, stored form.  A message handed out or kept in a queue was pushed: every queued IMU message is a pushed one shifted by the
constant, as long as no packets were requested (a packet request may add an interpolated sample). -/
theorem C01_stored_shift [TimeOrd T] (ops : List (LOp K T)) (p : LProc K T) (outs : List (LOut K T)) (i : Nat)
    (h : LProc.init.run ops = .ok (p, outs)) (hn : NoClearNoPacked i ops) :
    (∀ m ∈ (p.loaders i).imuMeas, ∃ r, LOp.pushImu i r ∈ ops ∧ m = { r with ts := shift r.ts }) ∧
    (∀ m ∈ (p.loaders i).featMeas, ∃ r, LOp.pushFeatures i r ∈ ops ∧ m = { r with ts := shift r.ts }) := by
  obtain ⟨h1, h2⟩ := LProc.fifo_run i LProc.offsets_init h hn
  have e1 : ((LProc.init : LProc K T).loaders i).imuMeas = [] := rfl
  have e2 : ((LProc.init : LProc K T).loaders i).featMeas = [] := rfl
  rw [e1, List.nil_append] at h1
  rw [e2, List.nil_append] at h2
  have a1 : ∀ (ops : List (LOp K T)) prev, ∀ m ∈ acceptedImu i prev ops,
      ∃ r, LOp.pushImu i r ∈ ops ∧ m = { r with ts := shift r.ts } := by
    intro ops
    induction ops with
    | nil => simp [acceptedImu]
    | cons op ops ih =>
      intro prev m hm
      rw [LProc.acceptedImu_cons] at hm
      rcases List.mem_append.1 hm with hm | hm
      · cases op <;> simp [acceptedImu] at hm
        exact ⟨_, by rw [hm.1.1]; simp, hm.2⟩
      · obtain ⟨r, hr1, hr2⟩ := ih _ m hm
        exact ⟨r, List.mem_cons_of_mem _ hr1, hr2⟩
  have a2 : ∀ (ops : List (LOp K T)) prev, ∀ m ∈ acceptedFeat i prev ops,
      ∃ r, LOp.pushFeatures i r ∈ ops ∧ m = { r with ts := shift r.ts } := by
    intro ops
    induction ops with
    | nil => simp [acceptedFeat]
    | cons op ops ih =>
      intro prev m hm
      rw [LProc.acceptedFeat_cons] at hm
      rcases List.mem_append.1 hm with hm | hm
      · cases op <;> simp [acceptedFeat] at hm
        exact ⟨_, by rw [hm.2.1.1]; simp, hm.2.2⟩
      · obtain ⟨r, hr1, hr2⟩ := ih _ m hm
        exact ⟨r, List.mem_cons_of_mem _ hr1, hr2⟩
  exact ⟨fun m hm => a1 ops _ m (by rw [h1]; exact List.mem_append_right _ hm),
    fun m hm => a2 ops _ m (by rw [h2]; exact List.mem_append_right _ hm)⟩

/-- C02, IMU.  After any history, `PushIMUMessage` returns true, appends the shifted message exactly when it is strictly newer than the
previous IMU push of the process (accepted or not, any instance), and changes nothing else. -/
theorem C02_imu_acceptance [TimeOrd T] (ops : List (LOp K T)) (p : LProc K T) (outs : List (LOut K T))
    (h : LProc.init.run ops = .ok (p, outs)) (i : Nat) (m : ImuMsg K T) :
    ∃ q msg, p.step (.pushImu i m) = .ok (q, .pushedImu true msg) ∧
      (∀ j, (q.loaders j).featMeas = (p.loaders j).featMeas) ∧
      (∀ j, j ≠ i → q.loaders j = p.loaders j) ∧
      (q.loaders i).imuMeas =
        if accepts (imuTimes ops).getLast? (shift m.ts) = true
        then (p.loaders i).imuMeas ++ [{ m with ts := shift m.ts }] else (p.loaders i).imuMeas := by
  have ho := LProc.offsets_run LProc.offsets_init h
  have hs := (LProc.statics_run LProc.offsets_init h).1
  have hs' : p.statics.lastImu = (imuTimes ops).getLast? := by
    rw [hs]; cases (imuTimes ops).getLast? <;> rfl
  refine ⟨_, _, by simp only [LProc.step, LProc.pushImu_eq _ _ _ (ho i)]; rfl, ?_, ?_, ?_⟩
  · intro j
    by_cases hj : j = i
    · subst hj; simp
    · simp [LProc.set_other p _ hj]
  · intro j hj
    simp [LProc.set_other p _ hj]
  · simp [hs']

/-- C02, features.  After any history, a well-formed `PushFeaturesMessage` returns true and is queued by the same rule; one whose numbers
of ids and observations differ returns false and changes nothing at all. -/
theorem C02_features_acceptance [TimeOrd T] (ops : List (LOp K T)) (p : LProc K T) (outs : List (LOut K T))
    (h : LProc.init.run ops = .ok (p, outs)) (i : Nat) (m : FeatMsg K T) :
    (m.ids.length = m.observes.length → ∃ q msg, p.step (.pushFeatures i m) = .ok (q, .pushedFeatures true msg) ∧
      (∀ j, (q.loaders j).imuMeas = (p.loaders j).imuMeas) ∧
      (∀ j, j ≠ i → q.loaders j = p.loaders j) ∧
      (q.loaders i).featMeas =
        if accepts (featTimes ops).getLast? (shift m.ts) = true
        then (p.loaders i).featMeas ++ [{ m with ts := shift m.ts }] else (p.loaders i).featMeas) ∧
    (m.ids.length ≠ m.observes.length → p.step (.pushFeatures i m) = .ok (p, .pushedFeatures false m)) := by
  have ho := LProc.offsets_run LProc.offsets_init h
  have hs := (LProc.statics_run LProc.offsets_init h).2
  have hs' : p.statics.lastFeat = (featTimes ops).getLast? := by
    rw [hs]; cases (featTimes ops).getLast? <;> rfl
  constructor
  · intro hm
    refine ⟨_, _, by simp only [LProc.step, LProc.pushFeatures_eq _ _ _ (ho i) hm]; rfl, ?_, ?_, ?_⟩
    · intro j
      by_cases hj : j = i
      · subst hj; simp
      · simp [LProc.set_other p _ hj]
    · intro j hj
      simp [LProc.set_other p _ hj]
    · simp [hs']
  · intro hm
    simp only [LProc.step, LProc.pushFeatures_bad _ _ _ hm]
    have : p.set i (p.loaders i) = p.loaders := by
      funext j
      simp only [LProc.set]
      split
      · rename_i hj; rw [hj]
      · rfl
    rw [this]

/-- C03, partial: under the extra assumption that the pushed times of the process are strictly increasing, every queue is strictly
increasing after every history (packet requests and their interpolated samples included).
Missing for the full statement: it is false without the assumption, see `C03_queue_can_be_unsorted`. -/
theorem C03_queues_sorted_partial [TimeOrd T] (ops : List (LOp K T)) (p : LProc K T) (outs : List (LOut K T))
    (h : LProc.init.run ops = .ok (p, outs)) (i : Nat) :
    ((imuTimes ops).Pairwise (fun a b => TimeOps.lt a b = true) →
      (p.loaders i).imuMeas.Pairwise (fun a b => TimeOps.lt a.ts b.ts = true)) ∧
    ((featTimes ops).Pairwise (fun a b => TimeOps.lt a b = true) →
      (p.loaders i).featMeas.Pairwise (fun a b => TimeOps.lt a.ts b.ts = true)) := by
  constructor
  · intro hi
    refine (LProc.imuSorted_run LProc.offsets_init LProc.queuesValid_init ?_ (by simpa [LProc.init] using hi) h i).1
    intro j
    simp [LProc.init, Loader.init]
  · intro hi
    refine (LProc.featSorted_run LProc.offsets_init ?_ (by simpa [LProc.init] using hi) h i).1
    intro j
    simp [LProc.init, Loader.init]

/-- C04.  Consider any history `pre ++ suf` where `pre` is empty or ends by clearing loader `i`, and `suf` neither clears it nor
takes packets from it.  What the pops of `suf` handed out, followed by what is still queued, is exactly the accepted pushes of `suf`, in
order, for IMU and for features messages. -/
theorem C04_fifo [TimeOrd T] (pre suf : List (LOp K T)) (p : LProc K T) (outs : List (LOut K T)) (i : Nat)
    (hpre : pre = [] ∨ ∃ pre', pre = pre' ++ [.clear i]) (hsuf : NoClearNoPacked i suf)
    (h : LProc.init.run (pre ++ suf) = .ok (p, outs)) :
    deliveredImu i suf (outs.drop pre.length) ++ (p.loaders i).imuMeas =
      acceptedImu i (imuTimes pre).getLast? suf ∧
    deliveredFeat i suf (outs.drop pre.length) ++ (p.loaders i).featMeas =
      acceptedFeat i (featTimes pre).getLast? suf := by
  obtain ⟨p', o1, o2, h1, h2, rfl, hlen⟩ := LProc.run_append h
  have ho := LProc.offsets_run LProc.offsets_init h1
  obtain ⟨hs1, hs2⟩ := LProc.statics_run LProc.offsets_init h1
  obtain ⟨hf1, hf2⟩ := LProc.fifo_run i ho h2 hsuf
  have he : (p'.loaders i).imuMeas = [] ∧ (p'.loaders i).featMeas = [] := by
    rcases hpre with rfl | ⟨pre', rfl⟩
    · simp only [LProc.run_nil, Res.ok.injEq, Prod.mk.injEq] at h1
      rw [← h1.1]
      exact ⟨rfl, rfl⟩
    · obtain ⟨p'', _, _, _, h4, _, _⟩ := LProc.run_append h1
      obtain ⟨_, _, _, h5, h6, _⟩ := LProc.run_cons_ok h4
      simp only [LProc.run_nil, Res.ok.injEq, Prod.mk.injEq] at h6
      simp only [LProc.step, Res.ok.injEq, Prod.mk.injEq] at h5
      rw [← h6.1, ← h5.1]
      simp [Loader.clear]
  have e1 : p'.statics.lastImu = (imuTimes pre).getLast? := by
    rw [hs1]; cases (imuTimes pre).getLast? <;> rfl
  have e2 : p'.statics.lastFeat = (featTimes pre).getLast? := by
    rw [hs2]; cases (featTimes pre).getLast? <;> rfl
  rw [e1, he.1, List.nil_append] at hf1
  rw [e2, he.2, List.nil_append] at hf2
  rw [← hlen, List.drop_left, hf1, hf2]
  exact ⟨rfl, rfl⟩

/-- C05.  The four cases of `PopOneMessage`: both queues empty, only IMU, only features, both. -/
theorem C05_popOne_rule (p q : LProc K T) (i : Nat) (r : Bool) (c : Combined K T)
    (h : p.step (.popOne i) = .ok (q, .popped r c)) :
    (∀ j, j ≠ i → q.loaders j = p.loaders j) ∧ q.statics = p.statics ∧
    (r = false ↔ (p.loaders i).imuMeas = [] ∧ (p.loaders i).featMeas = []) ∧
    (r = false → c.featMeas = none ∧ c.imuMeas = [] ∧ (q.loaders i).imuMeas = [] ∧ (q.loaders i).featMeas = []) ∧
    (∀ m ms, (p.loaders i).imuMeas = m :: ms → (p.loaders i).featMeas = [] →
      c.featMeas = none ∧ c.imuMeas = [m] ∧ (q.loaders i).imuMeas = ms ∧ (q.loaders i).featMeas = []) ∧
    (∀ f fs, (p.loaders i).imuMeas = [] → (p.loaders i).featMeas = f :: fs →
      c.featMeas = some f ∧ c.imuMeas = [] ∧ (q.loaders i).imuMeas = [] ∧ (q.loaders i).featMeas = fs) ∧
    (∀ m ms f fs, (p.loaders i).imuMeas = m :: ms → (p.loaders i).featMeas = f :: fs →
      (TimeOps.le f.ts m.ts = false →
        c.featMeas = none ∧ c.imuMeas = [m] ∧ (q.loaders i).imuMeas = ms ∧ (q.loaders i).featMeas = f :: fs) ∧
      (TimeOps.le f.ts m.ts = true →
        TimeOps.lt (TimeOps.fabs (TimeOps.sub f.ts m.ts)) (p.loaders i).imuPeriod = true →
        c.featMeas = some f ∧ c.imuMeas = [m] ∧ (q.loaders i).imuMeas = ms ∧ (q.loaders i).featMeas = fs) ∧
      (TimeOps.le f.ts m.ts = true →
        TimeOps.lt (TimeOps.fabs (TimeOps.sub f.ts m.ts)) (p.loaders i).imuPeriod = false →
        c.featMeas = some f ∧ c.imuMeas = [] ∧ (q.loaders i).imuMeas = m :: ms ∧ (q.loaders i).featMeas = fs)) := by
  simp only [LProc.step, Res.ok.injEq, Prod.mk.injEq, LOut.popped.injEq] at h
  obtain ⟨rfl, rfl, rfl⟩ := h
  refine ⟨fun j hj => LProc.set_other p _ hj, rfl, ?_⟩
  simp only [LProc.set_same]
  unfold Loader.popOne
  cases hI : (p.loaders i).imuMeas with
  | nil =>
    cases hF : (p.loaders i).featMeas with
    | nil => simp [Combined.cleared, hI, hF]
    | cons f fs => simp
  | cons m ms =>
    cases hF : (p.loaders i).featMeas with
    | nil => simp
    | cons f fs =>
      simp only
      by_cases h1 : TimeOps.le f.ts m.ts = true
      · by_cases h2 : TimeOps.lt (TimeOps.fabs (TimeOps.sub f.ts m.ts)) (p.loaders i).imuPeriod = true
        · simp [h1, h2]
          rintro _ _ _ _ rfl rfl rfl rfl
          simp [h1, h2]
        · simp [h1, h2]
          rintro _ _ _ _ rfl rfl rfl rfl
          simp [h1, h2]
      · simp [h1]
        rintro _ _ _ _ rfl rfl rfl rfl
        simp [h1]

/-- C06, partial: with both queues in time order and features messages at least one IMU period apart, any number of pops emits
messages in non-decreasing time order (a features message counting before the IMU message bundled with it); as many pops as buffered messages
empty the loader.
Missing for the full statement: it is false without the spacing assumption, see `C06_drain_can_be_unsorted`. -/
theorem C06_drain_sorted_partial [LinearOrder T] [TimeLaws T] (p q : LProc K T) (i n : Nat) (outs : List (LOut K T))
    (hi : (p.loaders i).imuMeas.Pairwise (fun a b => a.ts ≤ b.ts))
    (hf : (p.loaders i).featMeas.Pairwise (fun a b => a.ts ≤ b.ts ∧
      TimeOps.lt (TimeOps.sub b.ts a.ts) (p.loaders i).imuPeriod = false))
    (h : p.run (List.replicate n (.popOne i)) = .ok (q, outs)) :
    (outs.flatMap visibleTimes).Pairwise (· ≤ ·) ∧
    ((p.loaders i).imuMeas.length + (p.loaders i).featMeas.length ≤ n →
      (q.loaders i).imuMeas = [] ∧ (q.loaders i).featMeas = []) :=
  ⟨(LProc.drain_run i n ⟨hi, hf⟩ h).2.1, fun hn => LProc.drain_empties i n hn h⟩

/-- C07, contract.  A successful packet request. -/
theorem C07_packet_contract [TimeOrd T] (p q : LProc K T) (i : Nat) (n : Bool) (c : Combined K T)
    (h : p.step (.popPacked i n) = .ok (q, .popped true c)) :
    ∃ f fs last rest taken,
      (p.loaders i).featMeas = f :: fs ∧ (q.loaders i).featMeas = fs ∧ c.featMeas = some f ∧
      -- the run of IMU messages: a prefix of the buffer, all not newer than the image
      (p.loaders i).imuMeas = taken ++ rest ∧ taken ≠ [] ∧
      (∀ m ∈ taken, TimeOps.le m.ts f.ts = true) ∧
      (∀ m0 ∈ c.imuMeas.head?, TimeOps.le f.ts m0.ts = false) ∧
      -- the packet is that run, possibly with one sample at the image time appended
      (c.imuMeas = taken ∨ c.imuMeas = taken ++ [last] ∧ last.ts = f.ts) ∧
      -- its last entry is at the image time (bit equal, or not further away than 1e-6) and stays buffered as next message
      c.imuMeas.getLast? = some last ∧
      (last.ts = f.ts ∨ TimeOps.lt (TimeOps.tlit (1/1000000)) (TimeOps.fabs (TimeOps.sub last.ts f.ts)) = false) ∧
      (q.loaders i).imuMeas = last :: rest := by
  simp only [LProc.step] at h
  rw [Res.bind_eq_ok] at h
  obtain ⟨⟨l, out, ret⟩, h1, h2⟩ := h
  simp only [Res.ok.injEq, Prod.mk.injEq, LOut.popped.injEq] at h2
  obtain ⟨rfl, rfl, rfl⟩ := h2
  simp only [LProc.set_same]
  obtain ⟨_, h3⟩ := Loader.popPacked_cases h1
  rcases h3 with ⟨_, _, h⟩ | ⟨_, _, h⟩ | ⟨f, fs, m0, ms, taken, left, rest, _, hf, hq, hlt, ht, hb, h4⟩
  · simp at h
  · simp at h
  · obtain ⟨hsplit, hle, m, ms', hrest, hm⟩ := Loader.takeUpTo_spec ht
    obtain ⟨tk, htk⟩ := Loader.back_ok hb
    have hne : taken ≠ [] := by rw [htk]; simp
    have hhead : taken.head? = some m0 := by
      cases taken with
      | nil => exact absurd rfl hne
      | cons a as =>
        rw [hq] at hsplit
        simp only [List.cons_append, List.cons.injEq] at hsplit
        simp [hsplit.1]
    rcases h4 with ⟨h5, rfl, rfl⟩ | ⟨h5, right, hr, rfl, rfl⟩
    · refine ⟨f, fs, left, rest, taken, hf, rfl, rfl, hsplit, hne, hle, ?_, Or.inl rfl, ?_, Or.inr h5, rfl⟩
      · intro x hx
        simp only [hhead, Option.mem_def, Option.some.injEq] at hx
        exact hx ▸ hlt
      · rw [htk]; simp
    · refine ⟨f, fs, Loader.interpolate f.ts left right, rest, taken, hf, rfl, rfl, hsplit, hne, hle, ?_,
        Or.inr ⟨rfl, rfl⟩, by simp, Or.inl rfl, rfl⟩
      intro x hx
      simp only [List.head?_append, hhead, Option.some_or, Option.mem_def, Option.some.injEq] at hx
      exact hx ▸ hlt

/-- C07, unsuccessful requests drop at most one features message (one that is not newer than all buffered IMU data) and no IMU message. -/
theorem C07_failed_request (p q : LProc K T) (i : Nat) (n : Bool) (c : Combined K T)
    (h : p.step (.popPacked i n) = .ok (q, .popped false c)) :
    c.featMeas = none ∧ c.imuMeas = [] ∧ (q.loaders i).imuMeas = (p.loaders i).imuMeas ∧
    ((q.loaders i).featMeas = (p.loaders i).featMeas ∨
     (q.loaders i).featMeas = (p.loaders i).featMeas.tail) := by
  simp only [LProc.step] at h
  rw [Res.bind_eq_ok] at h
  obtain ⟨⟨l, out, ret⟩, h1, h2⟩ := h
  simp only [Res.ok.injEq, Prod.mk.injEq, LOut.popped.injEq] at h2
  obtain ⟨rfl, rfl, rfl⟩ := h2
  simp only [LProc.set_same]
  obtain ⟨_, h3⟩ := Loader.popPacked_cases h1
  rcases h3 with ⟨rfl, rfl, h⟩ | ⟨rfl, rfl, h⟩ | ⟨f, fs, m0, ms, taken, left, rest, h, _⟩
  · simp [Combined.cleared]
  · simp [Combined.cleared]
  · simp at h

/-- C07, safety.  No history of calls (with non-null outputs) has undefined behaviour: in particular the search for the end of the run
always stops inside the buffer. NaN time stamps included. -/
theorem C07_search_stops [TimeOrd T] (ops : List (LOp K T)) (hn : OutputsNonNull ops) :
    ∃ p outs, (LProc.init : LProc K T).run ops = .ok (p, outs) := by
  obtain ⟨⟨p, outs⟩, h⟩ := LProc.run_safe LProc.offsets_init LProc.queuesValid_init hn
  exact ⟨p, outs, h⟩

/-- C09, partial: clear loader `i` after any history `pre` that left its IMU period at the default, then use only loader `i`.  All outputs are
those of a freshly started process, provided the first IMU push and the first features push after the Clear are judged as a first
push is (i.e. are newer than the last push of `pre`).
Missing for the full statement: it is false without the proviso, see `C09_clear_does_not_restart`. -/
theorem C09_clear_restarts_partial [TimeOrd T] (pre suf : List (LOp K T)) (i : Nat) (p : LProc K T) (outs : List (LOut K T))
    (h : LProc.init.run (pre ++ .clear i :: suf) = .ok (p, outs))
    (hon : ∀ op ∈ suf, UsesOnly i op)
    (hper : ∀ d, LOp.setPeriod i d ∉ pre)
    (hfi : ∀ t ∈ (imuTimes suf).head?, accepts (imuTimes pre).getLast? t = accepts none t)
    (hff : ∀ t ∈ (featTimes suf).head?, accepts (featTimes pre).getLast? t = accepts none t) :
    ∃ q, LProc.init.run suf = .ok (q, outs.drop (pre.length + 1)) := by
  obtain ⟨p1, o1, o2, h1, h2, rfl, hlen⟩ := LProc.run_append h
  obtain ⟨p2, o, os, h3, h4, rfl⟩ := LProc.run_cons_ok h2
  have ho := LProc.offsets_run LProc.offsets_init h1
  obtain ⟨hs1, hs2⟩ := LProc.statics_run LProc.offsets_init h1
  obtain ⟨hs3, hs4⟩ := LProc.statics_step ho h3
  have e1 : p2.statics.lastImu = (imuTimes pre).getLast? := by
    rw [hs3, hs1]; simp [imuTimes, LProc.init]
  have e2 : p2.statics.lastFeat = (featTimes pre).getLast? := by
    rw [hs4, hs2]; simp [featTimes, LProc.init]
  have hl : p2.loaders i = (LProc.init : LProc K T).loaders i := by
    have hp := LProc.period_run i hper h1
    simp only [LProc.step, Res.ok.injEq, Prod.mk.injEq] at h3
    rw [← h3.1]
    simp only [LProc.set_same, Loader.clear, LProc.init, Loader.init, Loader.mk.injEq, true_and]
    rw [hp]
    rfl
  obtain ⟨q, hq⟩ := LProc.same_outputs i (LProc.offsets_step _ _ _ _ ho h3) LProc.offsets_init hon hl
    (by rw [e1]; exact hfi) (by rw [e2]; exact hff) h4
  refine ⟨q, ?_⟩
  rw [hq, ← hlen, List.drop_append]
  simp

/-- C10, partial: no freed element is read as long as not both queues are non-empty with a features message due; and exactly then one is read.
Missing for the full statement: it is false, see `C10_freed_read`. -/
theorem C10_live_storage_partial (l : Loader K T) :
    l.popOne.freedRead = true ↔
      ∃ m ms f fs, l.imuMeas = m :: ms ∧ l.featMeas = f :: fs ∧ TimeOps.le f.ts m.ts = true := by
  unfold Loader.popOne
  cases hI : l.imuMeas with
  | nil => cases hF : l.featMeas <;> simp
  | cons m ms =>
    cases hF : l.featMeas with
    | nil => simp
    | cons f fs =>
      simp only
      by_cases h1 : TimeOps.le f.ts m.ts = true
      · simp only [h1, ↓reduceIte]
        constructor
        · intro _; exact ⟨m, ms, f, fs, rfl, rfl, h1⟩
        · intro _; split <;> rfl
      · simp only [h1, Bool.false_eq_true, ↓reduceIte, false_iff, not_exists]
        rintro _ _ _ _ ⟨h2, h3, h4⟩
        simp only [List.cons.injEq] at h2 h3
        rw [h2.1, h3.1] at h1
        exact h1 h4

end Structural

/-! ### Refutations -/

deriving instance DecidableEq for Vec3, Vec2, Obs, ImuMsg, FeatMsg

/-- A rational IMU message with the given raw time. -/
def imuAt (t : ℚ) : ImuMsg ℚ ℚ := ⟨⟨0, 0, 0⟩, ⟨0, 0, 0⟩, t⟩

/-- A rational features message without features and with the given raw time. -/
def featAt (t : ℚ) : FeatMsg ℚ ℚ := ⟨[], [], t⟩

/-- C03 is false of the code: pushing 5, 3, 4 leaves the shifted times 6, 5 in the queue, since acceptance compares with the previous push
and not with the newest queued message. -/
theorem C03_queue_can_be_unsorted :
    ∃ (ops : List (LOp ℚ ℚ)) (p : LProc ℚ ℚ) (outs : List (LOut ℚ ℚ)), LProc.init.run ops = .ok (p, outs) ∧
      (p.loaders 0).imuMeas.map (·.ts) = [6, 5] ∧
      ¬ (p.loaders 0).imuMeas.Pairwise (fun a b => a.ts < b.ts) := by
  obtain ⟨⟨p, o⟩, h1, h2⟩ := Res.exists_of_check
    (x := LProc.init.run [.pushImu 0 (imuAt 5), .pushImu 0 (imuAt 3), .pushImu 0 (imuAt 4)])
    (f := fun r => decide ((r.1.loaders 0).imuMeas.map (·.ts) = [6, 5])) (by decide +kernel)
  simp only [decide_eq_true_eq] at h2
  refine ⟨_, p, o, h1, h2, fun h => ?_⟩
  have h' := (List.pairwise_map (f := fun m : ImuMsg ℚ ℚ => m.ts) (R := (· < ·))).2 h
  rw [h2] at h'
  revert h'
  decide +kernel

/-- C06 is false of the code without a spacing assumption: with images at 1.000 and 1.001 and an IMU sample at 1.004 (after the
shift 2.000, 2.001, 2.004) the output order is 2.000, 2.004, 2.001. -/
theorem C06_drain_can_be_unsorted :
    ∃ (ops : List (LOp ℚ ℚ)) (p q : LProc ℚ ℚ) (o1 o2 : List (LOut ℚ ℚ)), LProc.init.run ops = .ok (p, o1) ∧
      (p.loaders 0).imuMeas.Pairwise (fun a b => a.ts ≤ b.ts) ∧ (p.loaders 0).featMeas.Pairwise (fun a b => a.ts ≤ b.ts) ∧
      p.run [.popOne 0, .popOne 0] = .ok (q, o2) ∧
      o2.flatMap visibleTimes = [2, 2004/1000, 2001/1000] ∧
      ¬ (o2.flatMap visibleTimes).Pairwise (· ≤ ·) := by
  have key : ∃ (p q : LProc ℚ ℚ) (o1 o2 : List (LOut ℚ ℚ)),
      LProc.init.run [.pushFeatures 0 (featAt 1), .pushFeatures 0 (featAt (1001/1000)), .pushImu 0 (imuAt (1004/1000))]
        = .ok (p, o1) ∧
      (p.loaders 0).imuMeas = [imuAt (2004/1000)] ∧ (p.loaders 0).featMeas = [featAt 2, featAt (2001/1000)] ∧
      p.run [.popOne 0, .popOne 0] = .ok (q, o2) ∧
      o2.flatMap visibleTimes = [2, 2004/1000, 2001/1000] := ⟨_, _, _, _, rfl, by decide +kernel, by decide +kernel, rfl, by decide +kernel⟩
  obtain ⟨p, q, o1, o2, h1, h2, h3, h4, h5⟩ := key
  refine ⟨_, p, q, o1, o2, h1, ?_, ?_, h4, h5, ?_⟩
  · rw [h2]; decide +kernel
  · rw [h3]; decide +kernel
  · rw [h5]
    decide +kernel

/-- C09 is false of the code: push IMU time 10, Clear, push IMU time 5.  The second push is dropped although a fresh process queues
it; the same happens with a second loader instance (instance 1 here). -/
theorem C09_clear_does_not_restart :
    (∃ (p q : LProc ℚ ℚ) (o1 o2 : List (LOut ℚ ℚ)),
      LProc.init.run [.pushImu 0 (imuAt 10), .clear 0, .pushImu 0 (imuAt 5)] = .ok (p, o1) ∧
      LProc.init.run [.pushImu 0 (imuAt 5)] = .ok (q, o2) ∧
      (p.loaders 0).imuMeas.length = 0 ∧ (q.loaders 0).imuMeas.length = 1) ∧
    (∃ (p q : LProc ℚ ℚ) (o1 o2 : List (LOut ℚ ℚ)),
      LProc.init.run [.pushImu 0 (imuAt 10), .pushImu 1 (imuAt 5)] = .ok (p, o1) ∧
      LProc.init.run [.pushImu 1 (imuAt 5)] = .ok (q, o2) ∧
      (p.loaders 1).imuMeas.length = 0 ∧ (q.loaders 1).imuMeas.length = 1) :=
  ⟨⟨_, _, _, _, rfl, rfl, by decide +kernel, by decide +kernel⟩, ⟨_, _, _, _, rfl, rfl, by decide +kernel, by decide +kernel⟩⟩

/-- C10 is false of the code: after pushing an IMU sample and a features message of the same time, `PopOneMessage` reads the time stamp of the
features message through a reference to the queue slot it has just popped. -/
theorem C10_freed_read :
    ∃ (ops : List (LOp ℚ ℚ)) (p : LProc ℚ ℚ) (outs : List (LOut ℚ ℚ)), LProc.init.run ops = .ok (p, outs) ∧
      (p.loaders 0).popOne.freedRead = true :=
  ⟨[.pushImu 0 (imuAt 1), .pushFeatures 0 (featAt 1)], _, _, rfl, by decide +kernel⟩

/-! ### The hypotheses are satisfiable -/

/-- A packet with an interpolated sample exists (hypotheses of C01, C02, C07, C08 over the rationals). -/
example : ((LProc.init : LProc ℚ ℚ).run [.pushImu 0 (imuAt 1), .pushImu 0 (imuAt 2), .pushImu 0 (imuAt 3),
      .pushFeatures 0 (featAt (5/2)), .popPacked 0 false]).check (fun r =>
    (match r.2.getLast? with
      | some (.popped true c) => decide (c.imuMeas.map (·.ts) = [2, 3, 7/2])
      | _ => false) && decide ((r.1.loaders 0).imuMeas.map (·.ts) = [7/2, 4])) = true := by decide +kernel

/-- NaN time stamps are covered by the safety theorem: a NaN message is dropped, and a message right after it as well. -/
example : ((LProc.init : LProc ℚ (NanTime ℚ)).run [.pushImu 0 ⟨⟨0, 0, 0⟩, ⟨0, 0, 0⟩, (some 1 : Option ℚ)⟩,
      .pushImu 0 ⟨⟨0, 0, 0⟩, ⟨0, 0, 0⟩, (none : Option ℚ)⟩, .pushImu 0 ⟨⟨0, 0, 0⟩, ⟨0, 0, 0⟩, (some 2 : Option ℚ)⟩]).check
    (fun r => (r.1.loaders 0).imuMeas.length == 1) = true := by decide +kernel

/-- Increasing pushes (C03, C04): two IMU messages pushed, one delivered. -/
example : ((LProc.init : LProc ℚ ℚ).run ([.clear 0] ++ [.pushImu 0 (imuAt 1), .pushImu 0 (imuAt 2), .pushFeatures 0 (featAt 2), .popOne 0])).check
    (fun r => decide ((r.1.loaders 0).imuMeas.map (·.ts) = [3]) && decide ((r.1.loaders 0).featMeas.map (·.ts) = [3]) &&
      decide (deliveredImu 0 [.pushImu 0 (imuAt 1), .pushImu 0 (imuAt 2), .pushFeatures 0 (featAt 2), .popOne 0] (r.2.drop 1) =
        [imuAt 2])) = true := by decide +kernel

/-- C06: queues satisfying the order and spacing hypotheses, and their output. -/
example : ((⟨{}, fun _ => { (Loader.init : Loader ℚ ℚ) with imuMeas := [imuAt 1, imuAt (1005/1000)], featMeas := [featAt 1, featAt (1010/1000)] }⟩ :
      LProc ℚ ℚ).run (List.replicate 3 (.popOne 0))).check
    (fun r => decide (r.2.flatMap visibleTimes = [1, 1, 1005/1000, 1010/1000])) = true ∧
    TimeOps.lt (TimeOps.sub (1010/1000 : ℚ) 1) (5/1000) = false := by decide +kernel

/-- C09: a history satisfying the proviso. -/
example : ((LProc.init : LProc ℚ ℚ).run ([.pushImu 0 (imuAt 1)] ++ .clear 0 :: [.pushImu 0 (imuAt 2)])).check
    (fun r => (r.1.loaders 0).imuMeas.length == 1) = true ∧ accepts (some (2 : ℚ)) 3 = accepts none (3 : ℚ) := by decide +kernel

/-! ### C08: exact arithmetic -/

/-- `x` lies between `a` and `b`. -/
def LoaderSpec.Between (a b x : ℝ) : Prop := min a b ≤ x ∧ x ≤ max a b

theorem between_mix {a b r : ℝ} (h0 : 0 < r) (h1 : r < 1) : Between a b ((1 - r) * a + r * b) := by
  constructor
  · rcases le_total a b with h | h
    · rw [min_eq_left h]; nlinarith
    · rw [min_eq_right h]; nlinarith
  · rcases le_total a b with h | h
    · rw [max_eq_right h]; nlinarith
    · rw [max_eq_left h]; nlinarith

/-- C08.  When a successful packet request synthesises a sample, it is a proper convex combination of the buffered
neighbours, and the division is by a positive number. -/
theorem C08_interpolation_convex (p q : LProc ℝ ℝ) (i : Nat) (n : Bool) (c : Combined ℝ ℝ)
    (h : p.step (.popPacked i n) = .ok (q, .popped true c)) :
    (∃ rest, (p.loaders i).imuMeas = c.imuMeas ++ rest) ∨
    ∃ taken left right rest mid f r, (p.loaders i).imuMeas = (taken ++ [left]) ++ right :: rest ∧
      c.featMeas = some f ∧ c.imuMeas = (taken ++ [left]) ++ [mid] ∧ mid.ts = f.ts ∧
      0 < right.ts - left.ts ∧ 0 < r ∧ r < 1 ∧ r * (right.ts - left.ts) = f.ts - left.ts ∧
      mid.gyro = Vec3.smul (1 - r) left.gyro + Vec3.smul r right.gyro ∧
      mid.accel = Vec3.smul (1 - r) left.accel + Vec3.smul r right.accel ∧
      Between left.gyro.x right.gyro.x mid.gyro.x ∧ Between left.gyro.y right.gyro.y mid.gyro.y ∧
      Between left.gyro.z right.gyro.z mid.gyro.z ∧
      Between left.accel.x right.accel.x mid.accel.x ∧ Between left.accel.y right.accel.y mid.accel.y ∧
      Between left.accel.z right.accel.z mid.accel.z := by
  simp only [LProc.step] at h
  rw [Res.bind_eq_ok] at h
  obtain ⟨⟨l, out, ret⟩, h1, h2⟩ := h
  simp only [Res.ok.injEq, Prod.mk.injEq, LOut.popped.injEq] at h2
  obtain ⟨rfl, rfl, rfl⟩ := h2
  obtain ⟨_, h3⟩ := Loader.popPacked_cases h1
  rcases h3 with ⟨_, _, h⟩ | ⟨_, _, h⟩ | ⟨f, fs, m0, ms, taken, left, rest, _, hf, hq, hlt, ht, hb, h4⟩
  · simp at h
  · simp at h
  · obtain ⟨hsplit, hle, m, ms', hrest, hm⟩ := Loader.takeUpTo_spec ht
    obtain ⟨tk, htk⟩ := Loader.back_ok hb
    rcases h4 with ⟨h5, rfl, rfl⟩ | ⟨h5, right, hr, rfl, rfl⟩
    · exact Or.inl ⟨rest, hsplit⟩
    · right
      have hrm : right = m := by
        rw [hrest] at hr
        simpa using hr.symm
      subst hrm
      have hl : left.ts ≤ f.ts := by
        have := hle left (by rw [htk]; simp)
        simpa using this
      have hr' : f.ts < right.ts := by simpa using hm
      have hne : left.ts < f.ts := by
        rcases hl.lt_or_eq with h | h
        · exact h
        · rw [h] at h5
          norm_num at h5
      have hpos : 0 < right.ts - left.ts := by linarith
      have hr0 : 0 < (f.ts - left.ts) / (right.ts - left.ts) := div_pos (by linarith) hpos
      have hr1 : (f.ts - left.ts) / (right.ts - left.ts) < 1 := by
        rw [div_lt_one hpos]; linarith
      have key : ∀ a b : ℝ, Between a b
          ((1 - (f.ts - left.ts) / (right.ts - left.ts)) * a + (f.ts - left.ts) / (right.ts - left.ts) * b) :=
        fun a b => between_mix hr0 hr1
      have hone : (TimeOps.tlit 1 : ℝ) = 1 := by simp
      refine ⟨tk, left, right, ms', _, f, (f.ts - left.ts) / (right.ts - left.ts), by rw [hsplit, htk, hrest], rfl, by rw [htk],
        rfl, hpos, hr0, hr1, by field_simp, ?_, ?_, ?_⟩
      · simp [Loader.interpolate]
      · simp [Loader.interpolate]
      · have e : ∀ v w : Vec3 ℝ, Vec3.smul (TimeCast.toK (TimeOps.sub (TimeOps.tlit 1) (TimeOps.div (TimeOps.sub f.ts left.ts)
            (TimeOps.sub right.ts left.ts)))) v + Vec3.smul (TimeCast.toK (TimeOps.div (TimeOps.sub f.ts left.ts)
            (TimeOps.sub right.ts left.ts))) w =
            ⟨(1 - (f.ts - left.ts) / (right.ts - left.ts)) * v.x + (f.ts - left.ts) / (right.ts - left.ts) * w.x,
             (1 - (f.ts - left.ts) / (right.ts - left.ts)) * v.y + (f.ts - left.ts) / (right.ts - left.ts) * w.y,
             (1 - (f.ts - left.ts) / (right.ts - left.ts)) * v.z + (f.ts - left.ts) / (right.ts - left.ts) * w.z⟩ := by
          intro v w
          simp only [TimeOps.sub_real, TimeOps.div_real, TimeCast.toK_real, hone]
          rfl
        simp only [Loader.interpolate, e]
        exact ⟨key _ _, key _ _, key _ _, key _ _, key _ _, key _ _⟩

end Vio

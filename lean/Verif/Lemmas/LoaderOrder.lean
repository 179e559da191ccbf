/-
Lemmas about the time order of the loader's queues and of what it hands out.
-/
import Verif.Lemmas.LoaderRuns

set_option linter.unusedSectionVars false

namespace Vio

open LoaderSpec

variable {K T : Type _} [Add K] [Sub K] [Mul K] [Neg K] [Div K] [Zero K] [One K] [ScalarFn K]
  [TimeOps T] [TimeCast T K]

section Ord
variable [TimeOrd T]

theorem tlt_le {a b : T} (h : TimeOps.lt a b = true) : TimeOps.le a b = true := ((TimeOrd.lt_iff _ _).1 h).1

theorem tlt_of_lt_of_le {a b c : T} (h1 : TimeOps.lt a b = true) (h2 : TimeOps.le b c = true) :
    TimeOps.lt a c = true := by
  obtain ⟨h3, h4⟩ := (TimeOrd.lt_iff _ _).1 h1
  refine (TimeOrd.lt_iff _ _).2 ⟨TimeOrd.le_trans _ _ _ h3 h2, ?_⟩
  by_contra h
  rw [Bool.not_eq_false] at h
  rw [TimeOrd.le_trans _ _ _ h2 h] at h4
  exact absurd h4 (by simp)

theorem tlt_of_le_of_lt {a b c : T} (h1 : TimeOps.le a b = true) (h2 : TimeOps.lt b c = true) :
    TimeOps.lt a c = true := by
  obtain ⟨h3, h4⟩ := (TimeOrd.lt_iff _ _).1 h2
  refine (TimeOrd.lt_iff _ _).2 ⟨TimeOrd.le_trans _ _ _ h1 h3, ?_⟩
  by_contra h
  rw [Bool.not_eq_false] at h
  rw [TimeOrd.le_trans _ _ _ h h1] at h4
  exact absurd h4 (by simp)

theorem tlt_of_not_le {a b : T} (ha : Valid a) (hb : Valid b) (h : TimeOps.le a b = false) :
    TimeOps.lt b a = true := by
  refine (TimeOrd.lt_iff _ _).2 ⟨?_, h⟩
  rcases TimeOrd.le_total a b ha hb with h1 | h1
  · rw [h1] at h; exact absurd h (by simp)
  · exact h1

end Ord

namespace LProc

/-- IMU queues strictly increasing and not newer than the last pushed time. -/
def ImuSorted (p : LProc K T) : Prop :=
  ∀ i, (p.loaders i).imuMeas.Pairwise (fun a b => TimeOps.lt a.ts b.ts = true) ∧
    ∀ m ∈ (p.loaders i).imuMeas, ∃ t, p.statics.lastImu = some t ∧ TimeOps.le m.ts t = true

/-- Features queues strictly increasing and not newer than the last pushed time. -/
def FeatSorted (p : LProc K T) : Prop :=
  ∀ i, (p.loaders i).featMeas.Pairwise (fun a b => TimeOps.lt a.ts b.ts = true) ∧
    ∀ m ∈ (p.loaders i).featMeas, ∃ t, p.statics.lastFeat = some t ∧ TimeOps.le m.ts t = true

variable [TimeOrd T]

theorem imuSorted_step {p p' : LProc K T} {op : LOp K T} {o : LOut K T}
    (hp : OffsetsFixed p) (hv : QueuesValid p) (hi : ImuSorted p)
    (hinc : ∀ t, p.statics.lastImu = some t → ∀ t' ∈ imuTimes [op], TimeOps.lt t t' = true)
    (hs : p.step op = .ok (p', o)) : ImuSorted p' := by
  intro j
  cases op with
  | clear i =>
    simp only [step, Res.ok.injEq, Prod.mk.injEq] at hs
    obtain ⟨rfl, _⟩ := hs
    by_cases hj : j = i
    · subst hj; simp [Loader.clear]
    · simp only [set_other p _ hj]; exact hi j
  | setPeriod i d =>
    simp only [step, Res.ok.injEq, Prod.mk.injEq] at hs
    obtain ⟨rfl, _⟩ := hs
    by_cases hj : j = i
    · subst hj; simp only [set_same]; exact hi j
    · simp only [set_other p _ hj]; exact hi j
  | pushFeatures i m =>
    simp only [step, Res.ok.injEq, Prod.mk.injEq] at hs
    obtain ⟨rfl, _⟩ := hs
    by_cases hm : m.ids.length = m.observes.length
    · by_cases hj : j = i
      · subst hj; simp only [set_same, pushFeatures_eq _ _ _ (hp j) hm]; exact hi j
      · simp only [set_other p _ hj, pushFeatures_eq _ _ _ (hp i) hm]; exact hi j
    · by_cases hj : j = i
      · subst hj; simp only [set_same, pushFeatures_bad _ _ _ hm]; exact hi j
      · simp only [set_other p _ hj, pushFeatures_bad _ _ _ hm]; exact hi j
  | pushImu i m =>
    simp only [step, Res.ok.injEq, Prod.mk.injEq] at hs
    obtain ⟨rfl, _⟩ := hs
    have hall : ∀ x ∈ (p.loaders j).imuMeas, TimeOps.lt x.ts (shift m.ts) = true := by
      intro x hx
      obtain ⟨t, ht, hle⟩ := (hi j).2 x hx
      exact tlt_of_le_of_lt hle (hinc t ht (shift m.ts) (by simp [imuTimes]))
    by_cases hj : j = i
    · subst hj
      simp only [set_same, pushImu_eq _ _ _ (hp j)]
      split
      · rename_i ha
        constructor
        · rw [List.pairwise_append]
          refine ⟨(hi j).1, by simp, ?_⟩
          intro x hx y hy
          simp only [List.mem_singleton] at hy
          subst hy
          exact hall x hx
        · intro x hx
          refine ⟨_, rfl, ?_⟩
          rcases List.mem_append.1 hx with hx | hx
          · exact tlt_le (hall x hx)
          · simp only [List.mem_singleton] at hx
            subst hx
            exact valid_of_accepts ha
      · exact ⟨(hi j).1, fun x hx => ⟨_, rfl, tlt_le (hall x hx)⟩⟩
    · simp only [set_other p _ hj, pushImu_eq _ _ _ (hp i)]
      exact ⟨(hi j).1, fun x hx => ⟨_, rfl, tlt_le (hall x hx)⟩⟩
  | popOne i =>
    simp only [step, Res.ok.injEq, Prod.mk.injEq] at hs
    obtain ⟨rfl, _⟩ := hs
    by_cases hj : j = i
    · subst hj
      simp only [set_same]
      obtain ⟨h1, _⟩ := Loader.popOne_conserves (p.loaders j)
      have h2 := (hi j).1
      rw [h1] at h2
      exact ⟨(List.pairwise_append.1 h2).2.1, fun m hm => (hi j).2 m (h1 ▸ List.mem_append_right _ hm)⟩
    · simp only [set_other p _ hj]; exact hi j
  | popPacked i n =>
    simp only [step] at hs
    rw [Res.bind_eq_ok] at hs
    obtain ⟨⟨l, out, ret⟩, h1, h2⟩ := hs
    simp only [Res.ok.injEq, Prod.mk.injEq] at h2
    obtain ⟨rfl, _⟩ := h2
    by_cases hj : j = i
    · subst hj
      simp only [set_same]
      obtain ⟨_, h3⟩ := Loader.popPacked_cases h1
      rcases h3 with ⟨rfl, _⟩ | ⟨rfl, _⟩ | ⟨f, fs, m0, ms, taken, left, rest, _, hf, hq, _, ht, hb, h4⟩
      · exact hi j
      · exact hi j
      · obtain ⟨hsplit, _, m, ms', hrest, hm⟩ := Loader.takeUpTo_spec ht
        obtain ⟨tk, htk⟩ := Loader.back_ok hb
        have hpw := (hi j).1
        rw [hsplit] at hpw
        obtain ⟨_, hpw2, hpw3⟩ := List.pairwise_append.1 hpw
        have hmem : ∀ x ∈ rest, x ∈ (p.loaders j).imuMeas := fun x hx => by
          rw [hsplit]; exact List.mem_append_right _ hx
        have hlm : left ∈ (p.loaders j).imuMeas := by rw [hsplit, htk]; simp
        rcases h4 with ⟨_, rfl, _⟩ | ⟨_, right, hr, rfl, _⟩
        · constructor
          · rw [List.pairwise_cons]
            exact ⟨fun x hx => hpw3 left (by rw [htk]; simp) x hx, hpw2⟩
          · intro x hx
            rcases List.mem_cons.1 hx with rfl | hx
            · exact (hi j).2 _ hlm
            · exact (hi j).2 _ (hmem x hx)
        · have hfv : Valid f.ts := (hv j).2 f (by rw [hf]; simp)
          have hmv : Valid m.ts := (hv j).1 m (hmem m (by rw [hrest]; simp))
          have hlt : TimeOps.lt f.ts m.ts = true := tlt_of_not_le hmv hfv hm
          constructor
          · rw [List.pairwise_cons]
            refine ⟨?_, hpw2⟩
            intro x hx
            show TimeOps.lt f.ts x.ts = true
            rw [hrest] at hx hpw2
            rcases List.mem_cons.1 hx with rfl | hx
            · exact hlt
            · exact tlt_of_lt_of_le hlt (tlt_le ((List.pairwise_cons.1 hpw2).1 x hx))
          · intro x hx
            rcases List.mem_cons.1 hx with rfl | hx
            · obtain ⟨t, h5, h6⟩ := (hi j).2 m (hmem m (by rw [hrest]; simp))
              exact ⟨t, h5, tlt_le (tlt_of_lt_of_le hlt h6)⟩
            · exact (hi j).2 _ (hmem x hx)
    · simp only [set_other p _ hj]; exact hi j

theorem featSorted_step {p p' : LProc K T} {op : LOp K T} {o : LOut K T}
    (hp : OffsetsFixed p) (hi : FeatSorted p)
    (hinc : ∀ t, p.statics.lastFeat = some t → ∀ t' ∈ featTimes [op], TimeOps.lt t t' = true)
    (hs : p.step op = .ok (p', o)) : FeatSorted p' := by
  intro j
  cases op with
  | clear i =>
    simp only [step, Res.ok.injEq, Prod.mk.injEq] at hs
    obtain ⟨rfl, _⟩ := hs
    by_cases hj : j = i
    · subst hj; simp [Loader.clear]
    · simp only [set_other p _ hj]; exact hi j
  | setPeriod i d =>
    simp only [step, Res.ok.injEq, Prod.mk.injEq] at hs
    obtain ⟨rfl, _⟩ := hs
    by_cases hj : j = i
    · subst hj; simp only [set_same]; exact hi j
    · simp only [set_other p _ hj]; exact hi j
  | pushImu i m =>
    simp only [step, Res.ok.injEq, Prod.mk.injEq] at hs
    obtain ⟨rfl, _⟩ := hs
    by_cases hj : j = i
    · subst hj; simp only [set_same, pushImu_eq _ _ _ (hp j)]; exact hi j
    · simp only [set_other p _ hj, pushImu_eq _ _ _ (hp i)]; exact hi j
  | pushFeatures i m =>
    simp only [step, Res.ok.injEq, Prod.mk.injEq] at hs
    obtain ⟨rfl, _⟩ := hs
    by_cases hm : m.ids.length = m.observes.length
    · have hall : ∀ x ∈ (p.loaders j).featMeas, TimeOps.lt x.ts (shift m.ts) = true := by
        intro x hx
        obtain ⟨t, ht, hle⟩ := (hi j).2 x hx
        exact tlt_of_le_of_lt hle (hinc t ht (shift m.ts) (by simp [featTimes, hm]))
      by_cases hj : j = i
      · subst hj
        simp only [set_same, pushFeatures_eq _ _ _ (hp j) hm]
        split
        · rename_i ha
          constructor
          · rw [List.pairwise_append]
            refine ⟨(hi j).1, by simp, ?_⟩
            intro x hx y hy
            simp only [List.mem_singleton] at hy
            subst hy
            exact hall x hx
          · intro x hx
            refine ⟨_, rfl, ?_⟩
            rcases List.mem_append.1 hx with hx | hx
            · exact tlt_le (hall x hx)
            · simp only [List.mem_singleton] at hx
              subst hx
              exact valid_of_accepts ha
        · exact ⟨(hi j).1, fun x hx => ⟨_, rfl, tlt_le (hall x hx)⟩⟩
      · simp only [set_other p _ hj, pushFeatures_eq _ _ _ (hp i) hm]
        exact ⟨(hi j).1, fun x hx => ⟨_, rfl, tlt_le (hall x hx)⟩⟩
    · by_cases hj : j = i
      · subst hj; simp only [set_same, pushFeatures_bad _ _ _ hm]; exact hi j
      · simp only [set_other p _ hj, pushFeatures_bad _ _ _ hm]; exact hi j
  | popOne i =>
    simp only [step, Res.ok.injEq, Prod.mk.injEq] at hs
    obtain ⟨rfl, _⟩ := hs
    by_cases hj : j = i
    · subst hj
      simp only [set_same]
      obtain ⟨_, h1⟩ := Loader.popOne_conserves (p.loaders j)
      have h2 := (hi j).1
      rw [h1] at h2
      exact ⟨(List.pairwise_append.1 h2).2.1, fun m hm => (hi j).2 m (h1 ▸ List.mem_append_right _ hm)⟩
    · simp only [set_other p _ hj]; exact hi j
  | popPacked i n =>
    simp only [step] at hs
    rw [Res.bind_eq_ok] at hs
    obtain ⟨⟨l, out, ret⟩, h1, h2⟩ := hs
    simp only [Res.ok.injEq, Prod.mk.injEq] at h2
    obtain ⟨rfl, _⟩ := h2
    by_cases hj : j = i
    · subst hj
      simp only [set_same]
      obtain ⟨_, h3⟩ := Loader.popPacked_cases h1
      rcases h3 with ⟨rfl, _⟩ | ⟨rfl, _⟩ | ⟨f, fs, m0, ms, taken, left, rest, _, hf, hq, _, ht, hb, h4⟩
      · exact hi j
      · exact ⟨(hi j).1.sublist (List.tail_sublist _), fun m hm => (hi j).2 m (List.mem_of_mem_tail hm)⟩
      · have hh := hi j
        rw [hf] at hh
        have : (FeatSorted ⟨p.statics, fun _ => { p.loaders j with featMeas := fs }⟩) := fun _ =>
          ⟨(List.pairwise_cons.1 hh.1).2, fun m hm => hh.2 m (List.mem_cons_of_mem _ hm)⟩
        rcases h4 with ⟨_, rfl, _⟩ | ⟨_, right, hr, rfl, _⟩ <;> exact this 0
    · simp only [set_other p _ hj]; exact hi j

theorem imuTimes_single_le (op : LOp K T) : imuTimes [op] = [] ∨ ∃ t, imuTimes [op] = [t] := by
  cases op <;> simp [imuTimes]

theorem featTimes_single_le (op : LOp K T) : featTimes [op] = [] ∨ ∃ t, featTimes [op] = [t] := by
  cases op <;> simp [featTimes]
  split <;> simp_all

theorem imuSorted_run {ops : List (LOp K T)} {p q : LProc K T} {outs : List (LOut K T)}
    (hp : OffsetsFixed p) (hv : QueuesValid p) (hi : ImuSorted p)
    (hinc : (p.statics.lastImu.toList ++ imuTimes ops).Pairwise (fun a b => TimeOps.lt a b = true))
    (hr : p.run ops = .ok (q, outs)) : ImuSorted q := by
  induction ops generalizing p outs with
  | nil =>
    simp only [run, Res.ok.injEq, Prod.mk.injEq] at hr
    obtain ⟨rfl, _⟩ := hr
    exact hi
  | cons op ops ih =>
    obtain ⟨p', o, os, h1, h2, rfl⟩ := run_cons_ok hr
    rw [imuTimes_cons, ← List.append_assoc] at hinc
    obtain ⟨ha, hb, hc⟩ := List.pairwise_append.1 hinc
    refine ih (offsets_step _ _ _ _ hp h1) (queuesValid_step hp hv h1) (imuSorted_step hp hv hi ?_ h1) ?_ h2
    · intro t ht t' ht'
      exact (List.pairwise_append.1 ha).2.2 t (by simp [ht]) t' ht'
    · rw [(statics_step hp h1).1]
      rcases imuTimes_single_le op with h | ⟨t, h⟩
      · rw [h] at hinc ⊢
        simpa using hinc
      · rw [h] at hinc ⊢
        simp only [List.append_assoc] at hinc
        simpa using (List.pairwise_append.1 hinc).2.1

theorem featSorted_run {ops : List (LOp K T)} {p q : LProc K T} {outs : List (LOut K T)}
    (hp : OffsetsFixed p) (hi : FeatSorted p)
    (hinc : (p.statics.lastFeat.toList ++ featTimes ops).Pairwise (fun a b => TimeOps.lt a b = true))
    (hr : p.run ops = .ok (q, outs)) : FeatSorted q := by
  induction ops generalizing p outs with
  | nil =>
    simp only [run, Res.ok.injEq, Prod.mk.injEq] at hr
    obtain ⟨rfl, _⟩ := hr
    exact hi
  | cons op ops ih =>
    obtain ⟨p', o, os, h1, h2, rfl⟩ := run_cons_ok hr
    rw [featTimes_cons, ← List.append_assoc] at hinc
    obtain ⟨ha, hb, hc⟩ := List.pairwise_append.1 hinc
    refine ih (offsets_step _ _ _ _ hp h1) (featSorted_step hp hi ?_ h1) ?_ h2
    · intro t ht t' ht'
      exact (List.pairwise_append.1 ha).2.2 t (by simp [ht]) t' ht'
    · rw [(statics_step hp h1).2]
      rcases featTimes_single_le op with h | ⟨t, h⟩
      · rw [h] at hinc ⊢
        simpa using hinc
      · rw [h] at hinc ⊢
        simp only [List.append_assoc] at hinc
        simpa using (List.pairwise_append.1 hinc).2.1

end LProc

/-! ### Draining -/

namespace Loader

variable [LinearOrder T] [TimeLaws T]

/-- Order condition under which draining is globally sorted. -/
def Drainable (l : Loader K T) : Prop :=
  l.imuMeas.Pairwise (fun a b => a.ts ≤ b.ts) ∧
  l.featMeas.Pairwise (fun a b => a.ts ≤ b.ts ∧ TimeOps.lt (TimeOps.sub b.ts a.ts) l.imuPeriod = false)

theorem popOne_drain (l : Loader K T) (h : Drainable l) :
    Drainable l.popOne.loader ∧
    (outTimes l.popOne.out).Pairwise (· ≤ ·) ∧
    ∀ t ∈ outTimes l.popOne.out,
      (∀ m ∈ l.popOne.loader.imuMeas, t ≤ m.ts) ∧ (∀ m ∈ l.popOne.loader.featMeas, t ≤ m.ts) := by
  obtain ⟨h1, h2⟩ := h
  unfold Drainable
  rw [popOne_period]
  unfold popOne
  cases hI : l.imuMeas with
  | nil =>
    cases hF : l.featMeas with
    | nil => simp [outTimes, Combined.cleared, hI, hF]
    | cons f fs =>
      rw [hF] at h2
      obtain ⟨h3, h4⟩ := List.pairwise_cons.1 h2
      simp only [outTimes, Option.toList_some, List.map_cons, List.map_nil, List.append_nil]
      refine ⟨⟨by simp, h4⟩, by simp, ?_⟩
      intro t ht
      simp only [List.mem_singleton] at ht
      subst ht
      exact ⟨by simp, fun m hm => (h3 m hm).1⟩
  | cons i is =>
    rw [hI] at h1
    obtain ⟨h5, h6⟩ := List.pairwise_cons.1 h1
    cases hF : l.featMeas with
    | nil =>
      simp only [outTimes, Option.toList_none, List.map_cons, List.map_nil, List.nil_append]
      refine ⟨⟨h6, by simp⟩, by simp, ?_⟩
      intro t ht
      simp only [List.mem_singleton] at ht
      subst ht
      exact ⟨h5, by simp⟩
    | cons f fs =>
      rw [hF] at h2
      obtain ⟨h3, h4⟩ := List.pairwise_cons.1 h2
      simp only
      split
      · rename_i hle
        rw [TimeLaws.le_iff] at hle
        split
        · rename_i hb
          simp only [outTimes, Option.toList_some, List.map_cons, List.map_nil, List.cons_append, List.nil_append]
          refine ⟨⟨h6, h4⟩, by simpa using hle, ?_⟩
          have him : ∀ m ∈ fs, i.ts ≤ m.ts := by
            intro m hm
            by_contra hlt
            rw [not_le] at hlt
            have h7 : TimeOps.sub m.ts f.ts ≤ TimeOps.sub i.ts f.ts := TimeLaws.sub_le_sub_left _ _ _ hlt.le
            have h8 : TimeOps.tlit 0 ≤ TimeOps.sub i.ts f.ts := by
              rw [← TimeLaws.sub_self f.ts]; exact TimeLaws.sub_le_sub_left _ _ _ hle
            rw [TimeLaws.fabs_sub_comm, TimeLaws.fabs_of_nonneg _ h8, TimeLaws.lt_iff] at hb
            have h9 := (h3 m hm).2
            rw [Bool.eq_false_iff, ne_eq, TimeLaws.lt_iff] at h9
            exact h9 (lt_of_le_of_lt h7 hb)
          intro t ht
          simp only [List.mem_cons, List.not_mem_nil, or_false] at ht
          rcases ht with rfl | rfl
          · exact ⟨fun m hm => hle.trans (h5 m hm), fun m hm => (h3 m hm).1⟩
          · exact ⟨h5, him⟩
        · simp only [outTimes, Option.toList_some, List.map_cons, List.map_nil, List.append_nil]
          refine ⟨⟨h1, h4⟩, by simp, ?_⟩
          intro t ht
          simp only [List.mem_singleton] at ht
          subst ht
          refine ⟨?_, fun m hm => (h3 m hm).1⟩
          intro m hm
          rcases List.mem_cons.1 hm with rfl | hm
          · exact hle
          · exact hle.trans (h5 m hm)
      · rename_i hle
        rw [TimeLaws.le_iff, not_le] at hle
        simp only [outTimes, Option.toList_none, List.map_cons, List.map_nil, List.nil_append]
        refine ⟨⟨h6, h2⟩, by simp, ?_⟩
        intro t ht
        simp only [List.mem_singleton] at ht
        subst ht
        refine ⟨h5, ?_⟩
        intro m hm
        rcases List.mem_cons.1 hm with rfl | hm
        · exact hle.le
        · exact hle.le.trans (h3 m hm).1

end Loader

namespace LProc

variable [LinearOrder T] [TimeLaws T]

theorem drain_run (i n : Nat) {p q : LProc K T} {outs : List (LOut K T)} (h : (p.loaders i).Drainable)
    (hr : p.run (List.replicate n (.popOne i)) = .ok (q, outs)) :
    (q.loaders i).Drainable ∧
    (outs.flatMap visibleTimes).Pairwise (· ≤ ·) ∧
    ∀ t ∈ outs.flatMap visibleTimes, (∃ m ∈ (p.loaders i).imuMeas, m.ts = t) ∨ (∃ m ∈ (p.loaders i).featMeas, m.ts = t) := by
  induction n generalizing p outs with
  | zero =>
    simp only [List.replicate_zero, run, Res.ok.injEq, Prod.mk.injEq] at hr
    obtain ⟨rfl, rfl⟩ := hr
    simp [h]
  | succ n ih =>
    rw [List.replicate_succ] at hr
    obtain ⟨p', o, os, h1, h2, rfl⟩ := run_cons_ok hr
    simp only [step, Res.ok.injEq, Prod.mk.injEq] at h1
    obtain ⟨rfl, rfl⟩ := h1
    obtain ⟨hd, hs, hb⟩ := Loader.popOne_drain _ h
    obtain ⟨hc1, hc2⟩ := Loader.popOne_conserves (p.loaders i)
    obtain ⟨h3, h4, h5⟩ := ih (by simpa using hd) h2
    simp only [set_same] at h5
    refine ⟨h3, ?_, ?_⟩
    · rw [List.flatMap_cons, List.pairwise_append]
      refine ⟨hs, h4, ?_⟩
      intro t ht t' ht'
      rcases h5 t' ht' with ⟨m, hm, rfl⟩ | ⟨m, hm, rfl⟩
      · exact (hb t ht).1 m hm
      · exact (hb t ht).2 m hm
    · rw [List.flatMap_cons]
      intro t ht
      rcases List.mem_append.1 ht with ht | ht
      · simp only [visibleTimes, outTimes, List.mem_append, List.mem_map] at ht
        rcases ht with ⟨m, hm, rfl⟩ | ⟨m, hm, rfl⟩
        · exact Or.inr ⟨m, by rw [hc2]; exact List.mem_append_left _ hm, rfl⟩
        · exact Or.inl ⟨m, by rw [hc1]; exact List.mem_append_left _ hm, rfl⟩
      · rcases h5 t ht with ⟨m, hm, rfl⟩ | ⟨m, hm, rfl⟩
        · exact Or.inl ⟨m, by rw [hc1]; exact List.mem_append_right _ hm, rfl⟩
        · exact Or.inr ⟨m, by rw [hc2]; exact List.mem_append_right _ hm, rfl⟩

end LProc

theorem Loader.popOne_progress (l : Loader K T) :
    l.popOne.loader.imuMeas.length + l.popOne.loader.featMeas.length ≤
      l.imuMeas.length + l.featMeas.length - 1 := by
  unfold popOne
  split
  · rename_i h1 h2
    split
    · split <;> simp [h1, h2]
    · simp [h1, h2]; omega
  all_goals (rename_i h1 h2; simp [h1, h2])

/-- After as many pops as there are buffered messages, the loader is empty. -/
theorem LProc.drain_empties (i n : Nat) {p q : LProc K T} {outs : List (LOut K T)}
    (hn : (p.loaders i).imuMeas.length + (p.loaders i).featMeas.length ≤ n)
    (hr : p.run (List.replicate n (.popOne i)) = .ok (q, outs)) :
    (q.loaders i).imuMeas = [] ∧ (q.loaders i).featMeas = [] := by
  induction n generalizing p outs with
  | zero =>
    simp only [List.replicate_zero, run, Res.ok.injEq, Prod.mk.injEq] at hr
    obtain ⟨rfl, rfl⟩ := hr
    exact ⟨List.length_eq_zero_iff.1 (by omega), List.length_eq_zero_iff.1 (by omega)⟩
  | succ n ih =>
    rw [List.replicate_succ] at hr
    obtain ⟨p', o, os, h1, h2, rfl⟩ := run_cons_ok hr
    simp only [step, Res.ok.injEq, Prod.mk.injEq] at h1
    obtain ⟨rfl, rfl⟩ := h1
    refine ih ?_ h2
    simp only [set_same]
    have := Loader.popOne_progress (p.loaders i)
    omega

namespace LProc

/-- The period of a loader only changes by a period setting. -/
theorem period_run (i : Nat) {ops : List (LOp K T)} {p q : LProc K T} {outs : List (LOut K T)}
    (hn : ∀ d, LOp.setPeriod i d ∉ ops) (hr : p.run ops = .ok (q, outs)) :
    (q.loaders i).imuPeriod = (p.loaders i).imuPeriod := by
  induction ops generalizing p outs with
  | nil =>
    simp only [run, Res.ok.injEq, Prod.mk.injEq] at hr
    obtain ⟨rfl, _⟩ := hr
    rfl
  | cons op ops ih =>
    obtain ⟨p', o, os, h1, h2, rfl⟩ := run_cons_ok hr
    rw [ih (fun d hd => hn d (List.mem_cons_of_mem _ hd)) h2]
    cases op with
    | setPeriod j d =>
      simp only [step, Res.ok.injEq, Prod.mk.injEq] at h1
      obtain ⟨rfl, _⟩ := h1
      have hj : i ≠ j := fun h => hn d (by rw [h]; simp)
      simp [set_other p _ hj]
    | popPacked j n =>
      simp only [step] at h1
      rw [Res.bind_eq_ok] at h1
      obtain ⟨⟨l, out, ret⟩, h3, h4⟩ := h1
      simp only [Res.ok.injEq, Prod.mk.injEq] at h4
      obtain ⟨rfl, _⟩ := h4
      by_cases hj : i = j
      · subst hj
        simp only [set_same]
        obtain ⟨_, h5⟩ := Loader.popPacked_cases h3
        rcases h5 with ⟨rfl, _⟩ | ⟨rfl, _⟩ | ⟨f, fs, m0, ms, taken, left, rest, _, _, _, _, _, _, h6⟩
        · rfl
        · rfl
        · rcases h6 with ⟨_, rfl, _⟩ | ⟨_, _, _, rfl, _⟩ <;> rfl
      · simp [set_other p _ hj]
    | clear j =>
      simp only [step, Res.ok.injEq, Prod.mk.injEq] at h1
      obtain ⟨rfl, _⟩ := h1
      by_cases hj : i = j
      · subst hj
        simp only [set_same]
        rfl
      · simp [set_other p _ hj]
    | pushFeatures j m =>
      simp only [step, Res.ok.injEq, Prod.mk.injEq] at h1
      obtain ⟨rfl, _⟩ := h1
      by_cases hj : i = j
      · subst hj
        simp only [set_same]
        unfold Loader.pushFeatures; split <;> rfl
      · simp [set_other p _ hj]
    | pushImu j m =>
      simp only [step, Res.ok.injEq, Prod.mk.injEq] at h1
      obtain ⟨rfl, _⟩ := h1
      by_cases hj : i = j
      · subst hj
        simp only [set_same]
        rfl
      · simp [set_other p _ hj]
    | popOne j =>
      simp only [step, Res.ok.injEq, Prod.mk.injEq] at h1
      obtain ⟨rfl, _⟩ := h1
      by_cases hj : i = j
      · subst hj
        simp only [set_same]
        exact Loader.popOne_period _
      · simp [set_other p _ hj]

/-- Two processes that agree on loader `i` and judge its next pushes alike produce the same outputs. -/
theorem same_outputs [TimeOrd T] (i : Nat) {ops : List (LOp K T)} {p q p' : LProc K T} {outs : List (LOut K T)}
    (hp : OffsetsFixed p) (hq : OffsetsFixed q) (hon : ∀ op ∈ ops, UsesOnly i op)
    (hl : p.loaders i = q.loaders i)
    (hi : ∀ t ∈ (imuTimes ops).head?, accepts p.statics.lastImu t = accepts q.statics.lastImu t)
    (hf : ∀ t ∈ (featTimes ops).head?, accepts p.statics.lastFeat t = accepts q.statics.lastFeat t)
    (hr : p.run ops = .ok (p', outs)) : ∃ q', q.run ops = .ok (q', outs) := by
  induction ops generalizing p q outs with
  | nil =>
    simp only [run, Res.ok.injEq, Prod.mk.injEq] at hr
    obtain ⟨_, rfl⟩ := hr
    exact ⟨q, rfl⟩
  | cons op ops ih =>
    obtain ⟨p1, o, os, h1, h2, rfl⟩ := run_cons_ok hr
    have hop := hon op (by simp)
    suffices h : ∃ q1, q.step op = .ok (q1, o) ∧ p1.loaders i = q1.loaders i by
      obtain ⟨q1, hs, hl1⟩ := h
      obtain ⟨a1, a2⟩ := statics_step hp h1
      obtain ⟨b1, b2⟩ := statics_step hq hs
      have hi1 : ∀ t ∈ (imuTimes ops).head?, accepts p1.statics.lastImu t = accepts q1.statics.lastImu t := by
        intro t ht
        rw [a1, b1]
        rcases imuTimes_single_le op with h | ⟨t', h⟩
        · rw [h]
          refine hi t ?_
          rw [imuTimes_cons, h]
          exact ht
        · rw [h]; rfl
      have hf1 : ∀ t ∈ (featTimes ops).head?, accepts p1.statics.lastFeat t = accepts q1.statics.lastFeat t := by
        intro t ht
        rw [a2, b2]
        rcases featTimes_single_le op with h | ⟨t', h⟩
        · rw [h]
          refine hf t ?_
          rw [featTimes_cons, h]
          exact ht
        · rw [h]; rfl
      obtain ⟨q', hq'⟩ := ih (offsets_step _ _ _ _ hp h1) (offsets_step _ _ _ _ hq hs)
        (fun x hx => hon x (by simp [hx])) hl1 hi1 hf1 h2
      exact ⟨q', by simp [run, hs, hq']⟩
    cases op with
    | popPacked j n =>
      simp only [UsesOnly] at hop
      subst hop
      simp only [step] at h1 ⊢
      rw [Res.bind_eq_ok] at h1
      obtain ⟨⟨l, out, ret⟩, h3, h4⟩ := h1
      simp only [Res.ok.injEq, Prod.mk.injEq] at h4
      obtain ⟨rfl, rfl⟩ := h4
      rw [hl] at h3
      rw [h3]
      exact ⟨_, rfl, by simp⟩
    | pushImu j m =>
      simp only [UsesOnly] at hop
      subst hop
      simp only [step, Res.ok.injEq, Prod.mk.injEq] at h1
      obtain ⟨rfl, rfl⟩ := h1
      have h := hi (shift m.ts) (by simp [imuTimes])
      refine ⟨⟨((q.loaders j).pushImu q.statics m).statics, q.set j ((q.loaders j).pushImu q.statics m).loader⟩, ?_, ?_⟩
      · simp only [step, pushImu_eq _ _ _ (hp j), pushImu_eq _ _ _ (hq j)]
      · simp only [set_same, pushImu_eq _ _ _ (hp j), pushImu_eq _ _ _ (hq j)]
        rw [hl, h]
    | pushFeatures j m =>
      simp only [UsesOnly] at hop
      subst hop
      simp only [step, Res.ok.injEq, Prod.mk.injEq] at h1
      obtain ⟨rfl, rfl⟩ := h1
      refine ⟨⟨((q.loaders j).pushFeatures q.statics m).statics, q.set j ((q.loaders j).pushFeatures q.statics m).loader⟩, ?_, ?_⟩
      · by_cases hm : m.ids.length = m.observes.length
        · simp only [step, pushFeatures_eq _ _ _ (hp j) hm, pushFeatures_eq _ _ _ (hq j) hm]
        · simp only [step, pushFeatures_bad _ _ _ hm]
      · by_cases hm : m.ids.length = m.observes.length
        · have h := hf (shift m.ts) (by simp [featTimes, hm])
          simp only [set_same, pushFeatures_eq _ _ _ (hp j) hm, pushFeatures_eq _ _ _ (hq j) hm]
          rw [hl, h]
        · simp only [set_same, pushFeatures_bad _ _ _ hm, hl]
    | popOne j =>
      simp only [UsesOnly] at hop
      subst hop
      simp only [step, Res.ok.injEq, Prod.mk.injEq] at h1
      obtain ⟨rfl, rfl⟩ := h1
      exact ⟨_, by simp only [step, hl]; rfl, by simp only [set_same, hl]⟩
    | clear j =>
      simp only [UsesOnly] at hop
      subst hop
      simp only [step, Res.ok.injEq, Prod.mk.injEq] at h1
      obtain ⟨rfl, rfl⟩ := h1
      exact ⟨_, by simp only [step]; rfl, by simp only [set_same, hl]⟩
    | setPeriod j d =>
      simp only [UsesOnly] at hop
      subst hop
      simp only [step, Res.ok.injEq, Prod.mk.injEq] at h1
      obtain ⟨rfl, rfl⟩ := h1
      exact ⟨_, by simp only [step]; rfl, by simp only [set_same, hl]⟩

end LProc

end Vio

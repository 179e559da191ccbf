/-
Lemmas about whole histories of loader calls.
-/
import Verif.Lemmas.Loader

set_option linter.unusedSectionVars false

namespace Vio

open LoaderSpec

variable {K T : Type _} [Add K] [Sub K] [Mul K] [Neg K] [Div K] [Zero K] [One K] [ScalarFn K]
  [TimeOps T] [TimeCast T K]

namespace Loader

/-- `PopOneMessage` neither loses nor duplicates a message. -/
theorem popOne_conserves (l : Loader K T) :
    l.imuMeas = l.popOne.out.imuMeas ++ l.popOne.loader.imuMeas ∧
    l.featMeas = l.popOne.out.featMeas.toList ++ l.popOne.loader.featMeas := by
  unfold popOne
  split
  · rename_i h1 h2
    split
    · split <;> simp [h1, h2]
    · simp [h1, h2]
  all_goals (rename_i h1 h2; simp [h1, h2, Combined.cleared])

end Loader

namespace LProc

/-- Statics after one call, as a function of the call only. -/
theorem statics_step [TimeOrd T] {p p' : LProc K T} {op : LOp K T} {o : LOut K T} (hp : OffsetsFixed p)
    (hs : p.step op = .ok (p', o)) :
    p'.statics.lastImu = (imuTimes [op]).getLast?.or p.statics.lastImu ∧
    p'.statics.lastFeat = (featTimes [op]).getLast?.or p.statics.lastFeat := by
  cases op with
  | clear i =>
    simp only [step, Res.ok.injEq, Prod.mk.injEq] at hs
    obtain ⟨rfl, _⟩ := hs
    simp [imuTimes, featTimes]
  | setPeriod i d =>
    simp only [step, Res.ok.injEq, Prod.mk.injEq] at hs
    obtain ⟨rfl, _⟩ := hs
    simp [imuTimes, featTimes]
  | pushFeatures i m =>
    simp only [step, Res.ok.injEq, Prod.mk.injEq] at hs
    obtain ⟨rfl, _⟩ := hs
    by_cases hm : m.ids.length = m.observes.length
    · simp [pushFeatures_eq _ _ _ (hp i) hm, imuTimes, featTimes, hm]
    · simp [pushFeatures_bad _ _ _ hm, imuTimes, featTimes, hm]
  | pushImu i m =>
    simp only [step, Res.ok.injEq, Prod.mk.injEq] at hs
    obtain ⟨rfl, _⟩ := hs
    simp [pushImu_eq _ _ _ (hp i), imuTimes, featTimes]
  | popOne i =>
    simp only [step, Res.ok.injEq, Prod.mk.injEq] at hs
    obtain ⟨rfl, _⟩ := hs
    simp [imuTimes, featTimes]
  | popPacked i n =>
    simp only [step] at hs
    rw [Res.bind_eq_ok] at hs
    obtain ⟨⟨l, out, ret⟩, h1, h2⟩ := hs
    simp only [Res.ok.injEq, Prod.mk.injEq] at h2
    obtain ⟨rfl, _⟩ := h2
    simp [imuTimes, featTimes]

theorem imuTimes_cons (op : LOp K T) (ops : List (LOp K T)) :
    imuTimes (op :: ops) = imuTimes [op] ++ imuTimes ops := by
  cases op <;> simp [imuTimes]

theorem featTimes_cons (op : LOp K T) (ops : List (LOp K T)) :
    featTimes (op :: ops) = featTimes [op] ++ featTimes ops := by
  cases op <;> simp [featTimes]
  split <;> simp

theorem statics_run [TimeOrd T] {ops : List (LOp K T)} {p q : LProc K T} {outs : List (LOut K T)}
    (hp : OffsetsFixed p) (hr : p.run ops = .ok (q, outs)) :
    q.statics.lastImu = (imuTimes ops).getLast?.or p.statics.lastImu ∧
    q.statics.lastFeat = (featTimes ops).getLast?.or p.statics.lastFeat := by
  induction ops generalizing p outs with
  | nil =>
    simp only [run, Res.ok.injEq, Prod.mk.injEq] at hr
    obtain ⟨rfl, _⟩ := hr
    simp [imuTimes, featTimes]
  | cons op ops ih =>
    obtain ⟨p', o, os, h1, h2, rfl⟩ := run_cons_ok hr
    obtain ⟨h3, h4⟩ := ih (offsets_step _ _ _ _ hp h1) h2
    obtain ⟨h5, h6⟩ := statics_step hp h1
    rw [imuTimes_cons, featTimes_cons, h3, h4, h5, h6, List.getLast?_append, List.getLast?_append,
      Option.or_assoc, Option.or_assoc]
    exact ⟨rfl, rfl⟩

/-- One call on the queues of loader `i`: old content plus accepted is delivered plus new content. -/
theorem fifo_step [TimeOrd T] {p p' : LProc K T} {op : LOp K T} {o : LOut K T} (i : Nat) (hp : OffsetsFixed p)
    (hs : p.step op = .ok (p', o)) (hc : op ≠ .clear i) (hk : ∀ b, op ≠ .popPacked i b) :
    (p.loaders i).imuMeas ++ acceptedImu i p.statics.lastImu [op] =
      deliveredImu i [op] [o] ++ (p'.loaders i).imuMeas ∧
    (p.loaders i).featMeas ++ acceptedFeat i p.statics.lastFeat [op] =
      deliveredFeat i [op] [o] ++ (p'.loaders i).featMeas := by
  cases op with
  | clear j =>
    simp only [step, Res.ok.injEq, Prod.mk.injEq] at hs
    obtain ⟨rfl, rfl⟩ := hs
    have hj : i ≠ j := fun h => hc (h ▸ rfl)
    simp [acceptedImu, acceptedFeat, deliveredImu, deliveredFeat, set_other p _ hj]
  | setPeriod j d =>
    simp only [step, Res.ok.injEq, Prod.mk.injEq] at hs
    obtain ⟨rfl, rfl⟩ := hs
    by_cases hj : i = j
    · subst hj; simp [acceptedImu, acceptedFeat, deliveredImu, deliveredFeat]
    · simp [acceptedImu, acceptedFeat, deliveredImu, deliveredFeat, set_other p _ hj]
  | pushFeatures j m =>
    simp only [step, Res.ok.injEq, Prod.mk.injEq] at hs
    obtain ⟨rfl, rfl⟩ := hs
    by_cases hm : m.ids.length = m.observes.length
    · by_cases hj : i = j
      · subst hj
        simp [acceptedImu, acceptedFeat, deliveredImu, deliveredFeat, pushFeatures_eq _ _ _ (hp i) hm, hm]
        split <;> simp
      · have hj' : ¬ j = i := fun h => hj h.symm
        simp [acceptedImu, acceptedFeat, deliveredImu, deliveredFeat, set_other p _ hj, hj', hm]
    · by_cases hj : i = j
      · subst hj
        simp [acceptedImu, acceptedFeat, deliveredImu, deliveredFeat, pushFeatures_bad _ _ _ hm, hm]
      · simp [acceptedImu, acceptedFeat, deliveredImu, deliveredFeat, set_other p _ hj, hm]
  | pushImu j m =>
    simp only [step, Res.ok.injEq, Prod.mk.injEq] at hs
    obtain ⟨rfl, rfl⟩ := hs
    by_cases hj : i = j
    · subst hj
      simp [acceptedImu, acceptedFeat, deliveredImu, deliveredFeat, pushImu_eq _ _ _ (hp i)]
      split <;> simp
    · have hj' : ¬ j = i := fun h => hj h.symm
      simp [acceptedImu, acceptedFeat, deliveredImu, deliveredFeat, set_other p _ hj, hj']
  | popOne j =>
    simp only [step, Res.ok.injEq, Prod.mk.injEq] at hs
    obtain ⟨rfl, rfl⟩ := hs
    by_cases hj : i = j
    · subst hj
      have h := Loader.popOne_conserves (p.loaders i)
      simp [acceptedImu, acceptedFeat, deliveredImu, deliveredFeat, ← h.1, ← h.2]
    · have hj' : ¬ j = i := fun h => hj h.symm
      simp [acceptedImu, acceptedFeat, deliveredImu, deliveredFeat, set_other p _ hj, hj']
  | popPacked j n =>
    simp only [step] at hs
    rw [Res.bind_eq_ok] at hs
    obtain ⟨⟨l, out, ret⟩, h1, h2⟩ := hs
    simp only [Res.ok.injEq, Prod.mk.injEq] at h2
    obtain ⟨rfl, rfl⟩ := h2
    have hj : i ≠ j := fun h => hk n (h ▸ rfl)
    simp [acceptedImu, acceptedFeat, deliveredImu, deliveredFeat, set_other p _ hj]

theorem deliveredImu_cons (i : Nat) (op : LOp K T) (ops : List (LOp K T)) (o : LOut K T) (os : List (LOut K T)) :
    deliveredImu i (op :: ops) (o :: os) = deliveredImu i [op] [o] ++ deliveredImu i ops os := by
  cases op <;> cases o <;> simp [deliveredImu]

theorem deliveredFeat_cons (i : Nat) (op : LOp K T) (ops : List (LOp K T)) (o : LOut K T) (os : List (LOut K T)) :
    deliveredFeat i (op :: ops) (o :: os) = deliveredFeat i [op] [o] ++ deliveredFeat i ops os := by
  cases op <;> cases o <;> simp [deliveredFeat]

theorem acceptedImu_cons (i : Nat) (prev : Option T) (op : LOp K T) (ops : List (LOp K T)) :
    acceptedImu i prev (op :: ops) =
      acceptedImu i prev [op] ++ acceptedImu i ((imuTimes [op]).getLast?.or prev) ops := by
  cases op <;> simp [acceptedImu, imuTimes]
  split <;> simp

theorem acceptedFeat_cons (i : Nat) (prev : Option T) (op : LOp K T) (ops : List (LOp K T)) :
    acceptedFeat i prev (op :: ops) =
      acceptedFeat i prev [op] ++ acceptedFeat i ((featTimes [op]).getLast?.or prev) ops := by
  cases op <;> simp [acceptedFeat, featTimes]
  split
  · split <;> simp
  · simp

/-- Whole histories: old content plus accepted is delivered plus new content. -/
theorem fifo_run [TimeOrd T] {ops : List (LOp K T)} {p q : LProc K T} {outs : List (LOut K T)} (i : Nat)
    (hp : OffsetsFixed p) (hr : p.run ops = .ok (q, outs)) (hn : NoClearNoPacked i ops) :
    (p.loaders i).imuMeas ++ acceptedImu i p.statics.lastImu ops =
      deliveredImu i ops outs ++ (q.loaders i).imuMeas ∧
    (p.loaders i).featMeas ++ acceptedFeat i p.statics.lastFeat ops =
      deliveredFeat i ops outs ++ (q.loaders i).featMeas := by
  induction ops generalizing p outs with
  | nil =>
    simp only [run, Res.ok.injEq, Prod.mk.injEq] at hr
    obtain ⟨rfl, rfl⟩ := hr
    simp [acceptedImu, acceptedFeat, deliveredImu, deliveredFeat]
  | cons op ops ih =>
    obtain ⟨p', o, os, h1, h2, rfl⟩ := run_cons_ok hr
    have hop := hn op (by simp)
    obtain ⟨h3, h4⟩ := ih (offsets_step _ _ _ _ hp h1) h2 (fun x hx => hn x (by simp [hx]))
    obtain ⟨h5, h6⟩ := statics_step hp h1
    obtain ⟨h7, h8⟩ := fifo_step i hp h1 hop.1 hop.2
    constructor
    · rw [acceptedImu_cons, deliveredImu_cons, ← List.append_assoc, h7, List.append_assoc, ← h5, h3,
        List.append_assoc]
    · rw [acceptedFeat_cons, deliveredFeat_cons, ← List.append_assoc, h8, List.append_assoc, ← h6, h4,
        List.append_assoc]

/-- Every call does to its message what `ShiftedBy` says. -/
theorem shifted_step [TimeOrd T] {p p' : LProc K T} {op : LOp K T} {o : LOut K T} (hp : OffsetsFixed p)
    (hs : p.step op = .ok (p', o)) : ShiftedBy op o := by
  cases op with
  | pushFeatures i m =>
    simp only [step, Res.ok.injEq, Prod.mk.injEq] at hs
    obtain ⟨rfl, rfl⟩ := hs
    simp only [ShiftedBy]
    split
    · rename_i hm
      exact ⟨true, by simp [pushFeatures_eq _ _ _ (hp i) hm]⟩
    · rename_i hm
      exact ⟨false, by simp [pushFeatures_bad _ _ _ hm]⟩
  | pushImu i m =>
    simp only [step, Res.ok.injEq, Prod.mk.injEq] at hs
    obtain ⟨rfl, rfl⟩ := hs
    exact ⟨true, by simp [pushImu_eq _ _ _ (hp i)]⟩
  | _ => trivial

theorem shifted_run [TimeOrd T] {ops : List (LOp K T)} {p q : LProc K T} {outs : List (LOut K T)}
    (hp : OffsetsFixed p) (hr : p.run ops = .ok (q, outs)) : List.Forall₂ ShiftedBy ops outs := by
  induction ops generalizing p outs with
  | nil =>
    simp only [run, Res.ok.injEq, Prod.mk.injEq] at hr
    obtain ⟨rfl, rfl⟩ := hr
    exact .nil
  | cons op ops ih =>
    obtain ⟨p', o, os, h1, h2, rfl⟩ := run_cons_ok hr
    exact .cons (shifted_step hp h1) (ih (offsets_step _ _ _ _ hp h1) h2)

/-! ### Validity of queued time stamps, and safety -/

/-- All queued time stamps compare with themselves (none is NaN). -/
def QueuesValid (p : LProc K T) : Prop :=
  ∀ i, (∀ m ∈ (p.loaders i).imuMeas, Valid m.ts) ∧ (∀ m ∈ (p.loaders i).featMeas, Valid m.ts)

theorem valid_of_accepts [TimeOrd T] {prev : Option T} {t : T} (h : accepts prev t = true) : Valid t := by
  cases prev with
  | none => exact TimeOrd.le_right _ _ ((TimeOrd.lt_iff _ _).1 h).1
  | some p => exact TimeOrd.le_right _ _ ((TimeOrd.lt_iff _ _).1 h).1

theorem queuesValid_init : QueuesValid (init : LProc K T) := fun _ => ⟨by simp [init, Loader.init], by simp [init, Loader.init]⟩

theorem queuesValid_step [TimeOrd T] {p p' : LProc K T} {op : LOp K T} {o : LOut K T}
    (hp : OffsetsFixed p) (hv : QueuesValid p)
    (hs : p.step op = .ok (p', o)) : QueuesValid p' := by
  intro j
  cases op with
  | clear i =>
    simp only [step, Res.ok.injEq, Prod.mk.injEq] at hs
    obtain ⟨rfl, _⟩ := hs
    by_cases hj : j = i
    · subst hj; simp [Loader.clear]
    · simp only [set_other p _ hj]; exact hv j
  | setPeriod i d =>
    simp only [step, Res.ok.injEq, Prod.mk.injEq] at hs
    obtain ⟨rfl, _⟩ := hs
    by_cases hj : j = i
    · subst hj; simp only [set_same]; exact hv j
    · simp only [set_other p _ hj]; exact hv j
  | pushFeatures i m =>
    simp only [step, Res.ok.injEq, Prod.mk.injEq] at hs
    obtain ⟨rfl, _⟩ := hs
    by_cases hj : j = i
    · subst hj
      simp only [set_same]
      by_cases hm : m.ids.length = m.observes.length
      · rw [pushFeatures_eq _ _ _ (hp j) hm]
        refine ⟨(hv j).1, ?_⟩
        simp only
        split
        · rename_i ha
          intro x hx
          rcases List.mem_append.1 hx with hx | hx
          · exact (hv j).2 x hx
          · simp only [List.mem_singleton] at hx
            subst hx
            exact valid_of_accepts ha
        · exact (hv j).2
      · rw [pushFeatures_bad _ _ _ hm]; exact hv j
    · simp only [set_other p _ hj]; exact hv j
  | pushImu i m =>
    simp only [step, Res.ok.injEq, Prod.mk.injEq] at hs
    obtain ⟨rfl, _⟩ := hs
    by_cases hj : j = i
    · subst hj
      simp only [set_same]
      rw [pushImu_eq _ _ _ (hp j)]
      refine ⟨?_, (hv j).2⟩
      simp only
      split
      · rename_i ha
        intro x hx
        rcases List.mem_append.1 hx with hx | hx
        · exact (hv j).1 x hx
        · simp only [List.mem_singleton] at hx
          subst hx
          exact valid_of_accepts ha
      · exact (hv j).1
    · simp only [set_other p _ hj]; exact hv j
  | popOne i =>
    simp only [step, Res.ok.injEq, Prod.mk.injEq] at hs
    obtain ⟨rfl, _⟩ := hs
    by_cases hj : j = i
    · subst hj
      simp only [set_same]
      obtain ⟨h1, h2⟩ := Loader.popOne_conserves (p.loaders j)
      exact ⟨fun m hm => (hv j).1 m (h1 ▸ List.mem_append_right _ hm),
        fun m hm => (hv j).2 m (h2 ▸ List.mem_append_right _ hm)⟩
    · simp only [set_other p _ hj]; exact hv j
  | popPacked i n =>
    simp only [step] at hs
    rw [Res.bind_eq_ok] at hs
    obtain ⟨⟨l, out, ret⟩, h1, h2⟩ := hs
    simp only [Res.ok.injEq, Prod.mk.injEq] at h2
    obtain ⟨rfl, _⟩ := h2
    by_cases hj : j = i
    · subst hj
      simp only [set_same]
      obtain ⟨_, h3⟩ := Loader.popPacked_cases h1
      rcases h3 with ⟨rfl, _⟩ | ⟨rfl, _⟩ | ⟨f, fs, m0, ms, taken, left, rest, _, hf, hi, _, ht, hb, h4⟩
      · exact hv j
      · exact ⟨(hv j).1, fun m hm => (hv j).2 m (List.mem_of_mem_tail hm)⟩
      · obtain ⟨hsplit, _, _⟩ := Loader.takeUpTo_spec ht
        obtain ⟨tk, htk⟩ := Loader.back_ok hb
        have hrest : ∀ m ∈ rest, Valid m.ts := fun m hm => (hv j).1 m (by rw [hsplit]; exact List.mem_append_right _ hm)
        have hleft : Valid left.ts := (hv j).1 left (by rw [hsplit, htk]; simp)
        have hfs : ∀ m ∈ fs, Valid m.ts := fun m hm => (hv j).2 m (by rw [hf]; exact List.mem_cons_of_mem _ hm)
        have hfv : Valid f.ts := (hv j).2 f (by rw [hf]; simp)
        rcases h4 with ⟨_, rfl, _⟩ | ⟨_, right, _, rfl, _⟩
        · refine ⟨?_, hfs⟩
          intro m hm
          rcases List.mem_cons.1 hm with rfl | hm
          · exact hleft
          · exact hrest m hm
        · refine ⟨?_, hfs⟩
          intro m hm
          rcases List.mem_cons.1 hm with rfl | hm
          · exact hfv
          · exact hrest m hm
    · simp only [set_other p _ hj]; exact hv j

/-- On valid queues a packet request with a non-null output has no undefined behaviour. -/
theorem popPacked_safe [TimeOrd T] (l : Loader K T) (h1 : ∀ m ∈ l.imuMeas, Valid m.ts)
    (h2 : ∀ m ∈ l.featMeas, Valid m.ts) : ∃ r, l.popPacked false = .ok r := by
  unfold Loader.popPacked
  simp only [Bool.false_eq_true, ↓reduceIte]
  cases hI : l.imuMeas with
  | nil => simp
  | cons m0 ms =>
    cases hF : l.featMeas with
    | nil => simp
    | cons f fs =>
      rw [hI] at h1
      rw [hF] at h2
      simp only [List.isEmpty_cons, Bool.or_self, Bool.false_eq_true, ↓reduceIte, front_cons, List.tail_cons]
      obtain ⟨lastI, hl⟩ : ∃ x, back (m0 :: ms) = .ok x := by
        refine ⟨(m0 :: ms).getLast (by simp), ?_⟩
        simp [back, List.getLast?_eq_some_getLast]
      obtain ⟨pre, hpre⟩ := Loader.back_ok hl
      have hlmem : lastI ∈ m0 :: ms := by rw [hpre]; simp
      rw [hl]
      simp only [Res.bind_ok]
      by_cases c1 : TimeOps.le lastI.ts f.ts = true
      · simp [c1]
      · simp only [c1, Bool.false_eq_true, ↓reduceIte]
        by_cases c2 : TimeOps.le f.ts m0.ts = true
        · simp [c2]
        · simp only [c2, Bool.false_eq_true, ↓reduceIte]
          obtain ⟨a, b, hab⟩ := Loader.takeUpTo_ok (t := f.ts) ⟨lastI, hlmem, by simpa using c1⟩
          rw [hab]
          simp only [Res.bind_ok]
          obtain ⟨hs1, hs2, m, ms', hb, hm⟩ := Loader.takeUpTo_spec hab
          have ha : a ≠ [] := by
            rintro rfl
            simp only [List.nil_append] at hs1
            rw [hb] at hs1
            have : m = m0 := by
              have := congrArg List.head? hs1
              simpa using this.symm
            subst this
            have hv0 : Valid m.ts := h1 m (by simp)
            have hvf : Valid f.ts := h2 f (by simp)
            rcases TimeOrd.le_total m.ts f.ts hv0 hvf with h | h
            · simp [h] at hm
            · exact c2 h
          obtain ⟨left, hleft⟩ : ∃ x, back a = .ok x := by
            refine ⟨a.getLast ha, ?_⟩
            simp [back, List.getLast?_eq_some_getLast ha]
          rw [hleft]
          simp only [Res.bind_ok, hb, front_cons]
          split <;> simp

/-- A call with non-null outputs on valid queues has no undefined behaviour. -/
theorem step_safe [TimeOrd T] {p : LProc K T} {op : LOp K T} (hv : QueuesValid p)
    (hn : ∀ i, op ≠ .popPacked i true) : ∃ r, p.step op = .ok r := by
  cases op with
  | popPacked i n =>
    cases n with
    | true => exact absurd rfl (hn i)
    | false =>
      obtain ⟨r, hr⟩ := popPacked_safe (p.loaders i) (hv i).1 (hv i).2
      exact ⟨_, by simp only [step, hr]; rfl⟩
  | _ => exact ⟨_, rfl⟩

theorem run_safe [TimeOrd T] {ops : List (LOp K T)} {p : LProc K T} (hp : OffsetsFixed p) (hv : QueuesValid p)
    (hn : OutputsNonNull ops) : ∃ r, p.run ops = .ok r := by
  induction ops generalizing p with
  | nil => exact ⟨_, rfl⟩
  | cons op ops ih =>
    obtain ⟨⟨p', o⟩, h1⟩ := step_safe hv (hn op (by simp))
    obtain ⟨⟨q, os⟩, h2⟩ := ih (offsets_step _ _ _ _ hp h1) (queuesValid_step hp hv h1) (fun x hx => hn x (by simp [hx]))
    exact ⟨(q, o :: os), by simp [run, h1, h2]⟩

end LProc
end Vio

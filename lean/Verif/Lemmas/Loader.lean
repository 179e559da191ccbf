/-
Helper lemmas for the data loader properties.
-/
import Verif.Spec.Loader

set_option linter.unusedSectionVars false

namespace Vio

open LoaderSpec

variable {K T : Type _} [Add K] [Sub K] [Mul K] [Neg K] [Div K] [Zero K] [One K] [ScalarFn K]
  [TimeOps T] [TimeCast T K]

namespace LProc

theorem run_nil (p : LProc K T) : p.run [] = .ok (p, []) := rfl

theorem run_cons_ok {p q : LProc K T} {op : LOp K T} {ops : List (LOp K T)} {outs : List (LOut K T)}
    (h : p.run (op :: ops) = .ok (q, outs)) :
    ∃ p' o os, p.step op = .ok (p', o) ∧ p'.run ops = .ok (q, os) ∧ outs = o :: os := by
  simp only [run] at h
  rw [Res.bind_eq_ok] at h
  obtain ⟨⟨p', o⟩, h1, h2⟩ := h
  rw [Res.bind_eq_ok] at h2
  obtain ⟨⟨p'', os⟩, h3, h4⟩ := h2
  simp only [Res.ok.injEq, Prod.mk.injEq] at h4
  obtain ⟨rfl, rfl⟩ := h4
  exact ⟨p', o, os, h1, h3, rfl⟩

theorem run_append {p q : LProc K T} {a b : List (LOp K T)} {outs : List (LOut K T)}
    (h : p.run (a ++ b) = .ok (q, outs)) :
    ∃ p' o1 o2, p.run a = .ok (p', o1) ∧ p'.run b = .ok (q, o2) ∧ outs = o1 ++ o2 ∧ o1.length = a.length := by
  induction a generalizing p outs with
  | nil => exact ⟨p, [], outs, rfl, h, rfl, rfl⟩
  | cons op ops ih =>
    obtain ⟨p', o, os, h1, h2, rfl⟩ := run_cons_ok h
    obtain ⟨p'', o1, o2, h3, h4, rfl, h5⟩ := ih h2
    refine ⟨p'', o :: o1, o2, ?_, h4, rfl, by simp [h5]⟩
    simp [run, h1, h3]

/-- An invariant of single steps is an invariant of histories. -/
theorem run_invariant {I : LProc K T → Prop}
    (hstep : ∀ p op p' o, I p → p.step op = .ok (p', o) → I p') :
    ∀ (ops : List (LOp K T)) (p q : LProc K T) (outs : List (LOut K T)), I p → p.run ops = .ok (q, outs) → I q := by
  intro ops
  induction ops with
  | nil =>
    intro p q outs h hr
    simp only [run, Res.ok.injEq, Prod.mk.injEq] at hr
    exact hr.1 ▸ h
  | cons op ops ih =>
    intro p q outs h hr
    obtain ⟨p', o, os, h1, h2, rfl⟩ := run_cons_ok hr
    exact ih p' q os (hstep _ _ _ _ h h1) h2

@[simp] theorem set_same (p : LProc K T) (i : Nat) (l : Loader K T) : p.set i l i = l := by
  simp [set]

theorem set_other (p : LProc K T) {i j : Nat} (l : Loader K T) (h : j ≠ i) : p.set i l j = p.loaders j := by
  simp [set, h]

/-- Every loader has the offset `-1`. -/
def OffsetsFixed (p : LProc K T) : Prop := ∀ i, (p.loaders i).offset = TimeOps.tlit (-1)

theorem offsets_init : OffsetsFixed (init : LProc K T) := fun _ => rfl

end LProc

namespace Loader

theorem popOne_offset (l : Loader K T) : l.popOne.loader.offset = l.offset := by
  unfold popOne
  split
  · split
    · split <;> rfl
    · rfl
  all_goals rfl

theorem popOne_period (l : Loader K T) : l.popOne.loader.imuPeriod = l.imuPeriod := by
  unfold popOne
  split
  · split
    · split <;> rfl
    · rfl
  all_goals rfl

/-- The four outcomes of a successful packet request and the ones of an unsuccessful request. -/
theorem popPacked_cases {n : Bool} {l l' : Loader K T} {out : Combined K T} {r : Bool}
    (h : l.popPacked n = .ok (l', out, r)) :
    n = false ∧
    ((l' = l ∧ out = .cleared ∧ r = false) ∨
     (l' = { l with featMeas := l.featMeas.tail } ∧ out = .cleared ∧ r = false) ∨
     (∃ f fs m0 ms taken left rest, r = true ∧ l.featMeas = f :: fs ∧ l.imuMeas = m0 :: ms ∧
        TimeOps.le f.ts m0.ts = false ∧
        takeUpTo f.ts l.imuMeas = .ok (taken, rest) ∧ back taken = .ok left ∧
        ((TimeOps.lt (TimeOps.tlit (1/1000000)) (TimeOps.fabs (TimeOps.sub left.ts f.ts)) = false ∧
          l' = { l with featMeas := fs, imuMeas := left :: rest } ∧ out = ⟨some f, taken⟩) ∨
         (TimeOps.lt (TimeOps.tlit (1/1000000)) (TimeOps.fabs (TimeOps.sub left.ts f.ts)) = true ∧
          ∃ right, front rest = .ok right ∧
          l' = { l with featMeas := fs, imuMeas := interpolate f.ts left right :: rest } ∧
          out = ⟨some f, taken ++ [interpolate f.ts left right]⟩)))) := by
  unfold popPacked at h
  cases n with
  | true => simp at h
  | false =>
    refine ⟨rfl, ?_⟩
    simp only [Bool.false_eq_true, ↓reduceIte] at h
    cases hI : l.imuMeas with
    | nil => rw [hI] at h; simp at h; exact Or.inl ⟨h.1.symm, h.2.1.symm, h.2.2⟩
    | cons m0 ms =>
      cases hF : l.featMeas with
      | nil => rw [hI, hF] at h; simp at h; exact Or.inl ⟨h.1.symm, h.2.1.symm, h.2.2⟩
      | cons f fs =>
        rw [hI, hF] at h
        simp only [List.isEmpty_cons, Bool.or_self, Bool.false_eq_true, ↓reduceIte] at h
        rw [Res.bind_eq_ok] at h
        obtain ⟨lastI, hl, h⟩ := h
        simp only [front_cons, Res.bind_ok, List.tail_cons] at h
        by_cases h1 : TimeOps.le lastI.ts f.ts = true
        · simp only [h1, ↓reduceIte, Res.ok.injEq, Prod.mk.injEq] at h
          exact Or.inl ⟨h.1.symm, h.2.1.symm, h.2.2.symm⟩
        · simp only [h1, Bool.false_eq_true, ↓reduceIte] at h
          by_cases h2 : TimeOps.le f.ts m0.ts = true
          · simp only [h2, ↓reduceIte, Res.ok.injEq, Prod.mk.injEq] at h
            exact Or.inr (Or.inl ⟨by simpa using h.1.symm, h.2.1.symm, h.2.2.symm⟩)
          · simp only [h2, Bool.false_eq_true, ↓reduceIte] at h
            rw [Res.bind_eq_ok] at h
            obtain ⟨⟨taken, rest⟩, ht, h⟩ := h
            simp only at h
            rw [Res.bind_eq_ok] at h
            obtain ⟨left, hb, h⟩ := h
            refine Or.inr (Or.inr ⟨f, fs, m0, ms, taken, left, rest, ?_, rfl, rfl, by simpa using h2, ht, hb, ?_⟩)
            · by_cases h3 : TimeOps.lt (TimeOps.tlit (1/1000000)) (TimeOps.fabs (TimeOps.sub left.ts f.ts)) = true
              · simp only [h3, ↓reduceIte] at h
                rw [Res.bind_eq_ok] at h
                obtain ⟨right, hr, h⟩ := h
                simp only [Res.ok.injEq, Prod.mk.injEq] at h
                exact h.2.2.symm
              · simp only [h3, Bool.false_eq_true, ↓reduceIte, Res.ok.injEq, Prod.mk.injEq] at h
                exact h.2.2.symm
            · by_cases h3 : TimeOps.lt (TimeOps.tlit (1/1000000)) (TimeOps.fabs (TimeOps.sub left.ts f.ts)) = true
              · right
                simp only [h3, ↓reduceIte] at h
                rw [Res.bind_eq_ok] at h
                obtain ⟨right, hr, h⟩ := h
                simp only [Res.ok.injEq, Prod.mk.injEq] at h
                exact ⟨h3, right, hr, h.1.symm, h.2.1.symm⟩
              · left
                simp only [h3, Bool.false_eq_true, ↓reduceIte, Res.ok.injEq, Prod.mk.injEq] at h
                exact ⟨by simpa using h3, h.1.symm, h.2.1.symm⟩

/-- What the loop of the packet request returns. -/
theorem takeUpTo_spec {t : T} {l a b : List (ImuMsg K T)} (h : takeUpTo t l = .ok (a, b)) :
    l = a ++ b ∧ (∀ m ∈ a, TimeOps.le m.ts t = true) ∧ ∃ m ms, b = m :: ms ∧ TimeOps.le m.ts t = false := by
  induction l generalizing a b with
  | nil => simp [takeUpTo] at h
  | cons m ms ih =>
    unfold takeUpTo at h
    split at h
    · rename_i hm
      rw [Res.bind_eq_ok] at h
      obtain ⟨⟨a', b'⟩, h1, h2⟩ := h
      simp only [Res.pure_eq, Res.ok.injEq, Prod.mk.injEq] at h2
      obtain ⟨rfl, rfl⟩ := h2
      obtain ⟨h3, h4, h5⟩ := ih h1
      refine ⟨by simp [h3], ?_, h5⟩
      intro x hx
      rcases List.mem_cons.1 hx with rfl | hx
      · exact hm
      · exact h4 x hx
    · rename_i hm
      simp only [Res.pure_eq, Res.ok.injEq, Prod.mk.injEq] at h
      obtain ⟨rfl, rfl⟩ := h
      exact ⟨rfl, by simp, m, ms, rfl, by simpa using hm⟩

/-- The loop stops inside the queue as soon as one message is not `≤ t`. -/
theorem takeUpTo_ok {t : T} {l : List (ImuMsg K T)} (h : ∃ m ∈ l, TimeOps.le m.ts t = false) :
    ∃ a b, takeUpTo t l = .ok (a, b) := by
  induction l with
  | nil => simp at h
  | cons m ms ih =>
    unfold takeUpTo
    by_cases hm : TimeOps.le m.ts t = true
    · simp only [hm, ↓reduceIte]
      obtain ⟨x, hx, hxt⟩ := h
      rcases List.mem_cons.1 hx with rfl | hx
      · simp [hm] at hxt
      · obtain ⟨a, b, hab⟩ := ih ⟨x, hx, hxt⟩
        exact ⟨m :: a, b, by simp [hab]⟩
    · simp only [hm, Bool.false_eq_true, ↓reduceIte]
      exact ⟨[], m :: ms, rfl⟩

theorem back_ok {α : Type _} {l : List α} {a : α} (h : back l = .ok a) : ∃ l', l = l' ++ [a] := by
  unfold back at h
  split at h
  · rename_i x hx
    simp only [Res.ok.injEq] at h
    subst h
    exact ⟨l.dropLast, by
      have := List.dropLast_append_getLast? x hx
      exact this.symm⟩
  · simp at h

theorem front_ok {α : Type _} {l : List α} {a : α} (h : front l = .ok a) : ∃ l', l = a :: l' := by
  cases l with
  | nil => simp [front] at h
  | cons x xs => simp [front] at h; exact ⟨xs, by simp [h]⟩

end Loader

namespace LProc

/-- One step preserves the offset `-1`. -/
theorem offsets_step [TimeOrd T] (p : LProc K T) (op : LOp K T) (p' : LProc K T) (o : LOut K T)
    (h : OffsetsFixed p) (hs : p.step op = .ok (p', o)) : OffsetsFixed p' := by
  intro j
  have hnan : TimeOps.isNaN (TimeOps.tlit (-1) : T) = false := TimeOrd.isNaN_lit _
  cases op with
  | clear i =>
    simp only [step, Res.ok.injEq, Prod.mk.injEq] at hs
    obtain ⟨rfl, _⟩ := hs
    by_cases hj : j = i
    · subst hj; simp [Loader.clear]
    · simp [set_other p _ hj, h j]
  | setPeriod i d =>
    simp only [step, Res.ok.injEq, Prod.mk.injEq] at hs
    obtain ⟨rfl, _⟩ := hs
    by_cases hj : j = i
    · subst hj; simp [h j]
    · simp [set_other p _ hj, h j]
  | pushFeatures i m =>
    simp only [step, Res.ok.injEq, Prod.mk.injEq] at hs
    obtain ⟨rfl, _⟩ := hs
    by_cases hj : j = i
    · subst hj
      simp only [set_same, Loader.pushFeatures]
      split
      · exact h j
      · simp [h j, hnan]
    · simp [set_other p _ hj, h j]
  | pushImu i m =>
    simp only [step, Res.ok.injEq, Prod.mk.injEq] at hs
    obtain ⟨rfl, _⟩ := hs
    by_cases hj : j = i
    · subst hj
      simp [Loader.pushImu, h j, hnan]
    · simp [set_other p _ hj, h j]
  | popOne i =>
    simp only [step, Res.ok.injEq, Prod.mk.injEq] at hs
    obtain ⟨rfl, _⟩ := hs
    by_cases hj : j = i
    · subst hj; simp [Loader.popOne_offset, h j]
    · simp [set_other p _ hj, h j]
  | popPacked i n =>
    simp only [step] at hs
    rw [Res.bind_eq_ok] at hs
    obtain ⟨⟨l, out, ret⟩, h1, h2⟩ := hs
    simp only [Res.ok.injEq, Prod.mk.injEq] at h2
    obtain ⟨rfl, _⟩ := h2
    by_cases hj : j = i
    · subst hj
      simp only [set_same]
      obtain ⟨_, h3⟩ := Loader.popPacked_cases h1
      rcases h3 with ⟨rfl, _⟩ | ⟨rfl, _⟩ | ⟨f, fs, m0, ms, taken, left, rest, _, _, _, _, _, _, h4⟩
      · exact h j
      · exact h j
      · rcases h4 with ⟨_, rfl, _⟩ | ⟨_, right, _, rfl, _⟩ <;> exact h j
    · simp [set_other p _ hj, h j]

theorem offsets_run [TimeOrd T] {ops : List (LOp K T)} {p q : LProc K T} {outs : List (LOut K T)}
    (h : OffsetsFixed p) (hr : p.run ops = .ok (q, outs)) : OffsetsFixed q :=
  run_invariant (I := OffsetsFixed) offsets_step ops p q outs h hr

/-- Explicit form of an IMU push when the offset is `-1`. -/
theorem pushImu_eq [TimeOrd T] (s : LoaderStatics T) (l : Loader K T) (m : ImuMsg K T)
    (h : l.offset = TimeOps.tlit (-1)) :
    l.pushImu s m = ⟨{ s with lastImu := some (shift m.ts) },
      { l with imuMeas := if accepts s.lastImu (shift m.ts) = true then
          l.imuMeas ++ [{ m with ts := shift m.ts }] else l.imuMeas },
      true, { m with ts := shift m.ts }⟩ := by
  have hnan : TimeOps.isNaN (TimeOps.tlit (-1) : T) = false := TimeOrd.isNaN_lit _
  cases hl : s.lastImu with
  | none => simp [Loader.pushImu, h, hnan, shift, accepts, hl]; rfl
  | some x => simp [Loader.pushImu, h, hnan, shift, accepts, hl]; rfl

/-- Explicit form of a well-formed features push when the offset is `-1`. -/
theorem pushFeatures_eq [TimeOrd T] (s : LoaderStatics T) (l : Loader K T) (m : FeatMsg K T)
    (h : l.offset = TimeOps.tlit (-1)) (hm : m.ids.length = m.observes.length) :
    l.pushFeatures s m = ⟨{ s with lastFeat := some (shift m.ts) },
      { l with featMeas := if accepts s.lastFeat (shift m.ts) = true then
          l.featMeas ++ [{ m with ts := shift m.ts }] else l.featMeas },
      true, { m with ts := shift m.ts }⟩ := by
  have hnan : TimeOps.isNaN (TimeOps.tlit (-1) : T) = false := TimeOrd.isNaN_lit _
  cases hl : s.lastFeat with
  | none => simp [Loader.pushFeatures, hm, h, hnan, shift, accepts, hl]; rfl
  | some x => simp [Loader.pushFeatures, hm, h, hnan, shift, accepts, hl]; rfl

theorem pushFeatures_bad (s : LoaderStatics T) (l : Loader K T) (m : FeatMsg K T)
    (hm : m.ids.length ≠ m.observes.length) :
    l.pushFeatures s m = ⟨s, l, false, m⟩ := by
  simp [Loader.pushFeatures, hm]

end LProc
end Vio

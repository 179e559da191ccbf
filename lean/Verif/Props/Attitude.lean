/-
Properties C24 - C30: the attitude estimator.
-/
import Verif.Lemmas.Attitude

set_option linter.unusedSectionVars false

namespace Vio

open AttSpec

section Structural
variable {K T : Type} [Add K] [Sub K] [Mul K] [Neg K] [Div K] [Zero K] [One K] [ScalarFn K]
  [TimeOps T] [TimeCast T K]

/-! ### C24: time order -/

/-- A sample older than the newest item is refused and nothing changes. -/
theorem C24_refused (s : Att K T) (g a w : Vec3 K) (t : T) (last : AttItem K T) (hl : s.items.getLast? = some last)
    (h : TimeOps.lt t last.ts = true) : s.propagate g a w t = (s, false) := by
  simp [Att.propagate, hl, h]

/-- Any refusal leaves the object as it was. -/
theorem C24_refusal_no_change (s : Att K T) (g a w : Vec3 K) (t : T) (h : (s.propagate g a w t).2 = false) : (s.propagate g a w t).1 = s := by
  revert h
  unfold Att.propagate
  split
  · dsimp only; split <;> simp
  · dsimp only; split <;> simp

/-- A sample not older than the newest item is accepted; exactly one item is appended, carrying its time and the bias-free readings. -/
theorem C24_accepted (s : Att K T) (g a w : Vec3 K) (t : T) (last : AttItem K T) (hl : s.items.getLast? = some last)
    (h : TimeOps.lt t last.ts = false) :
    ∃ q, (s.propagate g a w t).1.items = s.items ++ [⟨q, a - s.biasA, w - s.biasG, t⟩] ∧ (s.propagate g a w t).2 = true := by
  simp [Att.propagate, hl, h]

theorem propagate_items (s : Att K T) (g a w : Vec3 K) (t : T) :
    (s.propagate g a w t).1 = s ∨
    ∃ it : AttItem K T, (s.propagate g a w t).1.items = s.items ++ [it] ∧ it.ts = t ∧
      ∀ last, s.items.getLast? = some last → TimeOps.lt t last.ts = false := by
  unfold Att.propagate
  split
  · next h =>
    dsimp only
    have he := List.getLast?_eq_none_iff.1 h
    split
    · exact .inl rfl
    · refine .inr ⟨_, by rw [he]; rfl, rfl, by simp [he]⟩
  · next last h =>
    dsimp only
    split
    · exact .inl rfl
    · next hn => exact .inr ⟨_, rfl, rfl, by rintro l hl; rw [h] at hl; cases hl; simpa using hn⟩

theorem cleanLoop_spec (ts : T) (thr : K) (l : List (AttItem K T)) :
    (∃ old new, l = old ++ new ∧ new ≠ [] ∧ (∀ it ∈ old, Old ts thr it) ∧ (∀ it, new.head? = some it → ¬ Old ts thr it) ∧ Att.cleanLoop ts thr l = .ok new) ∨
    ((∀ it ∈ l, Old ts thr it) ∧ Att.cleanLoop ts thr l = .ub .emptyContainer) := by
  induction l with
  | nil => right; simp [Att.cleanLoop]
  | cons it rest ih =>
    by_cases h : ScalarFn.lt thr (TimeCast.toK (TimeOps.sub ts it.ts) : K) = true
    · simp only [Att.cleanLoop, h, if_true]
      rcases ih with ⟨old, new, h1, h2, h3, h4, h5⟩ | ⟨h1, h2⟩
      · refine .inl ⟨it :: old, new, by rw [h1]; rfl, h2, ?_, h4, h5⟩
        intro x hx
        rcases List.mem_cons.1 hx with rfl | hx
        · exact h
        · exact h3 x hx
      · refine .inr ⟨?_, h2⟩
        intro x hx
        rcases List.mem_cons.1 hx with rfl | hx
        · exact h
        · exact h1 x hx
    · refine .inl ⟨[], it :: rest, rfl, by simp, by simp, ?_, by simp [Att.cleanLoop, h]⟩
      rintro x hx
      cases hx
      exact h

theorem cleanOldItems_items (s s' : Att K T) (ts : T) (thr : K) (h : s.cleanOldItems ts thr = .ok s') :
    ∃ old, s.items = old ++ s'.items ∧ s' = { s with items := s'.items } := by
  unfold Att.cleanOldItems at h
  split at h
  · cases h; exact ⟨[], rfl, rfl⟩
  · rcases cleanLoop_spec ts thr s.items with ⟨old, new, h1, -, -, -, h5⟩ | ⟨-, h5⟩
    · rw [h5] at h
      cases h
      exact ⟨old, h1, rfl⟩
    · rw [h5] at h; cases h

variable [TimeOrd T] in
theorem sorted_step (s s' : Att K T) (op : AOp K T) (hnan : ∀ g a w t, op = .sample g a w t → TimeOps.le t t = true)
    (hs : Sorted s.items) (hn : ∀ it ∈ s.items, TimeOps.le it.ts it.ts = true) (h : step s op = .ok s') :
    Sorted s'.items ∧ ∀ it ∈ s'.items, TimeOps.le it.ts it.ts = true := by
  cases op with
  | sample g a w t =>
    have ht := hnan g a w t rfl
    cases h
    rcases propagate_items s g a w t with h | ⟨it, h, hit, hlast⟩
    · rw [h]; exact ⟨hs, hn⟩
    · rw [h]
      refine ⟨List.pairwise_append.2 ⟨hs, by simp, ?_⟩, ?_⟩
      · intro x hx y hy
        simp only [List.mem_singleton] at hy
        subst hy
        have hne : s.items ≠ [] := by rintro he; rw [he] at hx; cases hx
        obtain ⟨last, hl⟩ := Option.ne_none_iff_exists'.1 (mt List.getLast?_eq_none_iff.1 hne)
        have hmem := List.mem_of_getLast? hl
        have hle : TimeOps.le last.ts t = true := by
          rcases TimeOrd.le_total last.ts t (hn _ hmem) ht with h1 | h1
          · exact h1
          · by_contra hc
            have := (TimeOrd.lt_iff t last.ts).2 ⟨h1, by simpa using hc⟩
            rw [hlast last hl] at this
            cases this
        rw [hit]
        rcases List.eq_nil_or_concat s.items with he | ⟨l', z, he⟩
        · exact absurd he hne
        · rw [he] at hx hl hs
          simp only [List.concat_eq_append, List.getLast?_append, List.getLast?_singleton, Option.some_or, Option.some.injEq] at hl
          subst hl
          simp only [List.concat_eq_append, List.mem_append, List.mem_singleton] at hx
          rcases hx with hx | rfl
          · simp only [List.concat_eq_append] at hs
            exact TimeOrd.le_trans _ _ _ ((List.pairwise_append.1 hs).2.2 x hx z (by simp)) hle
          · exact hle
      · intro x hx
        simp only [List.mem_append, List.mem_singleton] at hx
        rcases hx with hx | rfl
        · exact hn x hx
        · rw [hit]; exact ht
  | clean t thr =>
    obtain ⟨old, h1, -⟩ := cleanOldItems_items s s' t thr h
    rw [h1] at hs hn
    exact ⟨(List.pairwise_append.1 hs).2.1, fun it hit => hn it (by simp [hit])⟩
  | setBias ba bg => cases h; exact ⟨hs, hn⟩

theorem run_cons_ok (s s' : Att K T) (op : AOp K T) (ops : List (AOp K T)) (h : run s (op :: ops) = .ok s') :
    ∃ s1, step s op = .ok s1 ∧ run s1 ops = .ok s' := by
  unfold run at h
  cases h1 : step s op with
  | ok s1 => rw [h1] at h; exact ⟨s1, rfl, h⟩
  | ub t => rw [h1] at h; cases h

/-- For every history of samples (none of them with a NaN time), cleanings and bias changes, the queue is in time order. -/
theorem C24_sorted [TimeOrd T] (ops : List (AOp K T)) (hnan : ∀ g a w t, AOp.sample g a w t ∈ ops → TimeOps.le t t = true)
    (s : Att K T) (h : run Att.init ops = .ok s) : Sorted s.items := by
  suffices ∀ (ops : List (AOp K T)) (s0 s : Att K T), (∀ g a w t, AOp.sample g a w t ∈ ops → TimeOps.le t t = true) → Sorted s0.items →
      (∀ it ∈ s0.items, TimeOps.le it.ts it.ts = true) → run s0 ops = .ok s → Sorted s.items from
    this ops _ s hnan (by simp [Att.init, Sorted]) (by simp [Att.init]) h
  intro ops
  induction ops with
  | nil => intro s0 s _ hs _ h; cases h; exact hs
  | cons op ops ih =>
    intro s0 s hnan hs hn h
    obtain ⟨s1, h1, h2⟩ := run_cons_ok s0 s op ops h
    obtain ⟨hs1, hn1⟩ := sorted_step s0 s1 op (fun g a w t he => hnan g a w t (by simp [he])) hs hn h1
    exact ih s1 s (fun g a w t hm => hnan g a w t (by simp [hm])) hs1 hn1 h2

/-! ### C27: cleaning -/

/-- `CleanOldItems` either leaves an empty queue alone, or splits the queue into its longest prefix of old items, which it removes, and a non-empty rest. -/
theorem C27_clean (s s' : Att K T) (ts : T) (thr : K) (h : s.cleanOldItems ts thr = .ok s') :
    (s.items = [] ∧ s' = s) ∨
    ∃ old it new, s.items = old ++ it :: new ∧ (∀ x ∈ old, Old ts thr x) ∧ ¬ Old ts thr it ∧ s' = { s with items := it :: new } := by
  unfold Att.cleanOldItems at h
  split at h
  · next he => cases h; exact .inl ⟨by simpa using he, rfl⟩
  · rcases cleanLoop_spec ts thr s.items with ⟨old, new, h1, h2, h3, h4, h5⟩ | ⟨-, h5⟩
    · rw [h5] at h
      cases h
      obtain ⟨it, new', rfl⟩ := List.exists_cons_of_ne_nil h2
      exact .inr ⟨old, it, new', h1, h3, h4 it rfl, rfl⟩
    · rw [h5] at h; cases h

/-- It runs past the end of the deque exactly when the queue is non-empty and every item is old. -/
theorem C27_ub_iff (s : Att K T) (ts : T) (thr : K) :
    (∃ t, s.cleanOldItems ts thr = .ub t) ↔ s.items ≠ [] ∧ ∀ it ∈ s.items, Old ts thr it := by
  unfold Att.cleanOldItems
  by_cases he : s.items = []
  · simp [he]
  · have he' : s.items.isEmpty = false := by simpa using he
    simp only [he', Bool.false_eq_true, if_false]
    rcases cleanLoop_spec ts thr s.items with ⟨old, new, h1, h2, h3, h4, h5⟩ | ⟨h1, h5⟩
    · rw [h5]
      obtain ⟨it, new', rfl⟩ := List.exists_cons_of_ne_nil h2
      constructor
      · rintro ⟨t, ht⟩; cases ht
      · rintro ⟨-, ho⟩
        exact absurd (ho it (by simp [h1])) (h4 it rfl)
    · rw [h5]
      exact ⟨fun _ => ⟨he, h1⟩, fun _ => ⟨_, rfl⟩⟩

/-- On a time ordered queue exactly the items that are not old survive, in order. -/
theorem C27_filter [LinearOrder T] [TimeLaws T] [CastLaws T K] (s s' : Att K T) (ts : T) (thr : K) (hs : Sorted s.items)
    (h : s.cleanOldItems ts thr = .ok s') :
    s'.items = s.items.filter (fun it => !ScalarFn.lt thr (TimeCast.toK (TimeOps.sub ts it.ts) : K)) := by
  rcases C27_clean s s' ts thr h with ⟨h1, rfl⟩ | ⟨old, it, new, h1, h2, h3, rfl⟩
  · simp [h1]
  · rw [h1, List.filter_append]
    have e1 : old.filter (fun it => !ScalarFn.lt thr (TimeCast.toK (TimeOps.sub ts it.ts) : K)) = [] := by
      rw [List.filter_eq_nil_iff]
      intro x hx
      have := h2 x hx
      simpa [Old] using this
    have e2 : (it :: new).filter (fun it => !ScalarFn.lt thr (TimeCast.toK (TimeOps.sub ts it.ts) : K)) = it :: new := by
      rw [List.filter_eq_self]
      intro x hx
      rw [h1] at hs
      have hle : it.ts ≤ x.ts := by
        rcases List.mem_cons.1 hx with rfl | hx
        · exact le_rfl
        · exact (TimeLaws.le_iff _ _).1 (List.rel_of_pairwise_cons (List.pairwise_append.1 hs).2.1 hx)
      by_contra hc
      refine h3 (CastLaws.gt_mono _ _ thr (TimeLaws.sub_le_sub_right ts it.ts x.ts hle) ?_)
      simpa using hc
    rw [e1, e2]
    rfl

/-! ### C25, C26: reading an attitude -/

section Search
variable [LinearOrder T] [TimeLaws T]

theorem dist_comm (a b : T) : tdist a b = tdist b a := TimeLaws.fabs_sub_comm a b

theorem dist_of_le (a b : T) (h : a ≤ b) : tdist a b = TimeOps.sub b a := by
  rw [dist_comm, tdist, TimeLaws.fabs_of_nonneg]
  rw [← TimeLaws.sub_self a]
  exact TimeLaws.sub_le_sub_left _ _ _ h

theorem dist_of_ge (a b : T) (h : b ≤ a) : tdist a b = TimeOps.sub a b := by rw [dist_comm, dist_of_le _ _ h]

/-- farther on the same side is farther -/
theorem dist_mono_le (a b t : T) (h : a ≤ b) (hb : b ≤ t) : tdist b t ≤ tdist a t := by
  rw [dist_of_le _ _ hb, dist_of_le _ _ (h.trans hb)]
  exact TimeLaws.sub_le_sub_right _ _ _ h

theorem dist_mono_ge (a b t : T) (h : a ≤ b) (ht : t ≤ a) : tdist a t ≤ tdist b t := by
  rw [dist_of_ge _ _ ht, dist_of_ge _ _ (ht.trans h)]
  exact TimeLaws.sub_le_sub_left _ _ _ h

/-- What `GetAttitude` is expected to return: the attitude of an item at minimal distance if that is below the threshold, else nothing. -/
def Nearest (l : List (AttItem K T)) (ts thr : T) : Option (Quat K) → Prop
  | some q => ∃ it ∈ l, it.q = q ∧ tdist it.ts ts < thr ∧ ∀ x ∈ l, tdist it.ts ts ≤ tdist x.ts ts
  | none => ∀ x ∈ l, ¬ tdist x.ts ts < thr

theorem search_spec (ts thr : T) (p : AttItem K T) (before rest : List (AttItem K T)) (hs : Sorted (rest.reverse ++ p :: before))
    (hp : ts < p.ts) (hex : ∃ it ∈ rest, it.ts ≤ ts) :
    ∃ r, Att.search ts thr (some p) rest = .ok r ∧ Nearest (rest.reverse ++ p :: before) ts thr r := by
  induction rest generalizing p before with
  | nil => obtain ⟨it, h, -⟩ := hex; cases h
  | cons it rest ih =>
    by_cases h : it.ts ≤ ts
    · have hle : TimeOps.le it.ts ts = true := (TimeLaws.le_iff _ _).2 h
      have hle' : ∀ a b : AttItem K T, TimeOps.le a.ts b.ts = true → a.ts ≤ b.ts := fun a b => (TimeLaws.le_iff _ _).1
      have hP : ∀ x ∈ ((it :: rest).reverse ++ p :: before), tdist it.ts ts ≤ tdist x.ts ts ∨ tdist p.ts ts ≤ tdist x.ts ts := by
        intro x hx
        simp only [List.reverse_cons, List.append_assoc, List.singleton_append, List.mem_append, List.mem_reverse, List.mem_cons] at hx
        simp only [List.reverse_cons, List.append_assoc, List.singleton_append, Sorted, List.pairwise_append, List.pairwise_cons, List.mem_cons, List.mem_reverse] at hs
        obtain ⟨-, ⟨hit, hpb, -⟩, hr⟩ := hs
        rcases hx with hx | rfl | rfl | hx
        · exact .inl (dist_mono_le _ _ _ (hle' _ _ (hr x hx it (by simp))) h)
        · exact .inl le_rfl
        · exact .inr le_rfl
        · exact .inr (dist_mono_ge _ _ _ (hle' _ _ (hpb x hx)) hp.le)
      have d1 := dist_of_le it.ts ts h
      have d2 := dist_of_ge p.ts ts hp.le
      have hm1 : it ∈ ((it :: rest).reverse ++ p :: before) := by simp
      have hm2 : p ∈ ((it :: rest).reverse ++ p :: before) := by simp
      have lt1 := TimeLaws.lt_iff (TimeOps.sub p.ts ts) (TimeOps.sub ts it.ts)
      have lt2 := TimeLaws.lt_iff (TimeOps.sub p.ts ts) thr
      have lt3 := TimeLaws.lt_iff (TimeOps.sub ts it.ts) thr
      rw [← d1, ← d2] at lt1
      rw [← d2] at lt2
      rw [← d1] at lt3
      simp only [Att.search, hle, if_true, Res.bind_ok]
      rw [← d1, ← d2]
      by_cases c1 : TimeOps.lt (tdist p.ts ts) (tdist it.ts ts) = true ∧ TimeOps.lt (tdist p.ts ts) thr = true
      · refine ⟨some p.q, by simp [c1.1, c1.2], p, hm2, rfl, lt2.1 c1.2, fun x hx => ?_⟩
        rcases hP x hx with h1 | h1
        · exact (lt1.1 c1.1).le.trans h1
        · exact h1
      · have c1' : (TimeOps.lt (tdist p.ts ts) (tdist it.ts ts) && TimeOps.lt (tdist p.ts ts) thr) = false := by
          rw [← Bool.not_eq_true, Bool.and_eq_true]; exact c1
        by_cases c3 : TimeOps.lt (tdist it.ts ts) thr = true
        · refine ⟨some it.q, by simp [c1', c3], it, hm1, rfl, lt3.1 c3, fun x hx => ?_⟩
          rcases hP x hx with h1 | h1
          · exact h1
          · rw [lt1, lt2] at c1
            rcases not_and_or.1 c1 with h2 | h2
            · exact (not_lt.1 h2).trans h1
            · exact (((lt3.1 c3).le).trans (not_lt.1 h2)).trans h1
        · refine ⟨none, by simp [c1', c3], fun x hx hlt => ?_⟩
          rw [lt3] at c3
          rw [lt1, lt2] at c1
          rcases hP x hx with h1 | h1
          · exact c3 (h1.trans_lt hlt)
          · exact c1 ⟨(h1.trans_lt hlt).trans_le (not_lt.1 c3), h1.trans_lt hlt⟩
    · have hle : ¬ TimeOps.le it.ts ts = true := by rwa [TimeLaws.le_iff]
      obtain ⟨y, hy, hyt⟩ := hex
      have hy' : y ∈ rest := by
        rcases List.mem_cons.1 hy with rfl | hy
        · exact absurd hyt h
        · exact hy
      obtain ⟨r, h1, h2⟩ := ih it (p :: before) (by simpa using hs) (not_le.1 h) ⟨y, hy', hyt⟩
      exact ⟨r, by simp [Att.search, hle, h1], by simpa using h2⟩

/-- With at least two time ordered items, `GetAttitude` never leaves the queue, and returns the attitude of a nearest item if one is
closer than the threshold and fails otherwise. -/
theorem C25_nearest (s : Att K T) (ts thr : T) (hs : Sorted s.items) (h2 : 2 ≤ s.items.length) :
    ∃ r, s.getAttitude ts thr = .ok r ∧ Nearest s.items ts thr r := by
  obtain ⟨a, rest, hl⟩ : ∃ a rest, s.items = a :: rest := by
    cases h : s.items with
    | nil => simp [h] at h2
    | cons a r => exact ⟨a, r, rfl⟩
  have hrest : rest ≠ [] := by rintro rfl; simp [hl] at h2
  obtain ⟨mid, b, hmid⟩ : ∃ mid b, rest = mid ++ [b] := by
    rcases List.eq_nil_or_concat rest with h | ⟨m, b, h⟩
    · exact absurd h hrest
    · exact ⟨m, b, by simpa using h⟩
  subst hmid
  have hle' : ∀ a b : AttItem K T, TimeOps.le a.ts b.ts = true → a.ts ≤ b.ts := fun a b => (TimeLaws.le_iff _ _).1
  have hhead : s.items.head? = some a := by rw [hl]; rfl
  have hlast : s.items.getLast? = some b := by rw [hl, ← List.cons_append, List.getLast?_append]; rfl
  have hlen : (decide (s.items.length > 1)) = true := decide_eq_true h2
  have hmin : ∀ x ∈ s.items, a.ts ≤ x.ts := by
    intro x hx
    rw [hl] at hx hs
    rcases List.mem_cons.1 hx with rfl | hx
    · exact le_rfl
    · exact hle' _ _ (List.rel_of_pairwise_cons hs hx)
  have hmax : ∀ x ∈ s.items, x.ts ≤ b.ts := by
    intro x hx
    rw [hl, ← List.cons_append] at hx hs
    rcases List.mem_append.1 hx with hx | hx
    · exact hle' _ _ ((List.pairwise_append.1 hs).2.2 x hx b (by simp))
    · rw [List.mem_singleton.1 hx]
  have ha : a ∈ s.items := by simp [hl]
  have hb : b ∈ s.items := by simp [hl]
  unfold Att.getAttitude
  rw [hhead, hlast]
  simp only [hlen, Bool.true_and]
  by_cases c1 : TimeOps.le b.ts ts = true
  · have c1' := (TimeLaws.le_iff _ _).1 c1
    simp only [c1, if_true]
    rw [← dist_of_le _ _ c1']
    have hd : ∀ x ∈ s.items, tdist b.ts ts ≤ tdist x.ts ts := fun x hx => dist_mono_le _ _ _ (hmax x hx) c1'
    by_cases c2 : TimeOps.lt (tdist b.ts ts) thr = true
    · exact ⟨some b.q, by simp [c2], b, hb, rfl, (TimeLaws.lt_iff _ _).1 c2, hd⟩
    · refine ⟨none, by simp [c2], fun x hx hlt => c2 ((TimeLaws.lt_iff _ _).2 ((hd x hx).trans_lt hlt))⟩
  · have c1' : ts < b.ts := by rw [TimeLaws.le_iff, not_le] at c1; exact c1
    simp only [c1]
    by_cases c2 : TimeOps.le ts a.ts = true
    · have c2' := (TimeLaws.le_iff _ _).1 c2
      simp only [c2, if_true]
      rw [← dist_of_ge _ _ c2']
      have hd : ∀ x ∈ s.items, tdist a.ts ts ≤ tdist x.ts ts := fun x hx => dist_mono_ge _ _ _ (hmin x hx) c2'
      by_cases c3 : TimeOps.lt (tdist a.ts ts) thr = true
      · exact ⟨some a.q, by simp [c3], a, ha, rfl, (TimeLaws.lt_iff _ _).1 c3, hd⟩
      · refine ⟨none, by simp [c3], fun x hx hlt => c3 ((TimeLaws.lt_iff _ _).2 ((hd x hx).trans_lt hlt))⟩
    · have c2' : a.ts < ts := by rw [TimeLaws.le_iff, not_le] at c2; exact c2
      simp only [c2]
      have hrev : s.items.reverse = b :: (a :: mid).reverse := by rw [hl]; simp
      have hsorted : Sorted ((a :: mid).reverse.reverse ++ b :: []) := by rw [hl] at hs; simpa using hs
      obtain ⟨r, h3, h4⟩ := search_spec ts thr b [] ((a :: mid).reverse) hsorted c1' ⟨a, by simp, c2'.le⟩
      refine ⟨r, ?_, by rw [hl]; simpa using h4⟩
      rw [hrev]
      simp only [Att.search, c1]
      exact h3

/-- `GetAttitude` succeeds exactly when some stored item is closer than the threshold. -/
theorem C25_success_iff (s : Att K T) (ts thr : T) (hs : Sorted s.items) (h2 : 2 ≤ s.items.length) :
    (∃ q, s.getAttitude ts thr = .ok (some q)) ↔ ∃ it ∈ s.items, tdist it.ts ts < thr := by
  obtain ⟨r, h, hn⟩ := C25_nearest s ts thr hs h2
  rw [h]
  cases r with
  | none =>
    constructor
    · rintro ⟨q, hq⟩; cases hq
    · rintro ⟨it, h1, h2⟩; exact absurd h2 (hn it h1)
  | some q =>
    obtain ⟨it, h1, -, h3, -⟩ := hn
    exact ⟨fun _ => ⟨it, h1, h3⟩, fun _ => ⟨q, rfl⟩⟩

/-- With a single item the query succeeds only if the item is not newer than the asked time: what C26 keeps. -/
theorem C26_single_partial (s : Att K T) (it : AttItem K T) (h : s.items = [it]) (ts thr : T) :
    s.getAttitude ts thr = .ok (if it.ts ≤ ts ∧ tdist it.ts ts < thr then some it.q else none) := by
  unfold Att.getAttitude
  rw [h]
  simp only [List.head?_cons, List.getLast?_singleton, List.length_singleton, gt_iff_lt, lt_self_iff_false, decide_false, Bool.false_and,
    Bool.false_eq_true, if_false, List.reverse_singleton, Att.search]
  by_cases c1 : it.ts ≤ ts
  · have := (TimeLaws.le_iff _ _).2 c1
    simp only [this, if_true]
    rw [← dist_of_le _ _ c1]
    by_cases c2 : tdist it.ts ts < thr
    · simp [c1, c2, (TimeLaws.lt_iff _ _).2 c2]
    · have : ¬ TimeOps.lt (tdist it.ts ts) thr = true := by rwa [TimeLaws.lt_iff]
      simp [c2, this]
  · have : ¬ TimeOps.le it.ts ts = true := by rwa [TimeLaws.le_iff]
    simp [c1, this]

/-- C26 is false: a single item newer than the asked time is never found, however close it is. -/
theorem C26_single_newer_fails (s : Att K T) (it : AttItem K T) (h : s.items = [it]) (ts thr : T) (hn : ts < it.ts) :
    s.getAttitude ts thr = .ok none := by
  rw [C26_single_partial s it h, if_neg]
  rintro ⟨h1, -⟩
  exact absurd hn (not_lt.2 h1)

end Search

/-- No items: no attitude. -/
theorem C25_empty (s : Att K T) (h : s.items = []) (ts thr : T) : s.getAttitude ts thr = .ok none := by
  simp [Att.getAttitude, h]

end Structural

/-- Three samples and a query, used to show the hypotheses above can be met. -/
def attQ : Att ℚ ℚ := { (Att.init : Att ℚ ℚ) with items := [⟨⟨1,0,0,0⟩,0,0,1⟩, ⟨⟨2,0,0,0⟩,0,0,2⟩, ⟨⟨3,0,0,0⟩,0,0,4⟩] }
example : Sorted attQ.items ∧ 2 ≤ attQ.items.length ∧ attQ.getAttitude (7/2) 1 = .ok (some ⟨3,0,0,0⟩) ∧ attQ.getAttitude (5/2) 1 = .ok (some ⟨2,0,0,0⟩) ∧
    attQ.getAttitude 9 1 = .ok none := by
  refine ⟨?_, by decide, by decide +kernel, by decide +kernel, by decide +kernel⟩
  simp only [Sorted, attQ, List.pairwise_cons, List.mem_cons]
  simp [TimeOps.le]
  norm_num
/-- C26 witness: one item one millisecond newer than the asked time, threshold one second. -/
example : ({ (Att.init : Att ℚ ℚ) with items := [⟨⟨1,0,0,0⟩,0,0,1001/1000⟩] } : Att ℚ ℚ).getAttitude 1 1 = .ok none ∧ tdist (1001/1000 : ℚ) 1 < (1 : ℚ) := by
  refine ⟨by decide +kernel, by decide +kernel⟩
/-- C27: cleaning keeps a suffix; an all-old queue runs off the end. -/
example : (attQ.cleanOldItems 4 1).check (fun s => s.items.map (·.ts) = [4]) = true ∧ (attQ.cleanOldItems 9 1).isOk = false := by
  exact ⟨by decide +kernel, by decide +kernel⟩
/-- C24: two samples are accepted, an older one refused. -/
example : Res.check (run (Att.init : Att ℚ ℚ) [.sample ⟨0,0,1⟩ ⟨1,0,0⟩ 0 1, .sample ⟨0,0,1⟩ ⟨1,0,0⟩ 0 3, .sample ⟨0,0,1⟩ ⟨1,0,0⟩ 0 2])
    (fun s => s.items.map (·.ts) = [1, 3]) = true := by decide +kernel

/-! ### C28: unit attitudes.  Scalars are partial reals: exact, with NaN. -/

/-- No call of the history divides by zero: whenever the queue is empty an offered sample is not parallel to gravity, and later samples are not zero. -/
def NoDivZeroRun (s : Att ℝ ℝ) : List (AOp ℝ ℝ) → Prop
  | [] => True
  | op :: ops => NoDivZero s op ∧ ∀ s', step s op = .ok s' → NoDivZeroRun s' ops

theorem emb_run (ops : List (AOp ℝ ℝ)) (s : Att ℝ ℝ) (h : NoDivZeroRun s ops) :
    run s.emb (ops.map AOp.emb) = (run s ops).bind (fun s => .ok s.emb) := by
  induction ops generalizing s with
  | nil => rfl
  | cons op ops ih =>
    simp only [List.map_cons, run, Att.emb_step s op h.1]
    cases hs : step s op with
    | ok s1 => exact ih s1 (h.2 s1 hs)
    | ub u => rfl

theorem run_unit (ops : List (AOp ℝ ℝ)) (s s' : Att ℝ ℝ) (h : ∀ i ∈ s.items, i.q.sqNorm = 1) (hr : run s ops = .ok s') :
    ∀ i ∈ s'.items, i.q.sqNorm = 1 := by
  induction ops generalizing s with
  | nil => cases hr; exact h
  | cons op ops ih =>
    obtain ⟨s1, h1, h2⟩ := run_cons_ok s s' op ops hr
    exact ih s1 (Att.step_unit s s1 op h h1) h2

/-- In every history in which a starting sample is never parallel to gravity and a later sample never zero, every stored attitude is a finite unit quaternion. -/
theorem C28_unit_partial (ops : List (AOp ℝ ℝ)) (h : NoDivZeroRun Att.init ops) (s : Att PReal PReal) (hr : run Att.init (ops.map AOp.emb) = .ok s) :
    ∀ i ∈ s.items, UnitQ i.q := by
  rw [Att.emb_init, emb_run ops _ h] at hr
  cases hrr : run (Att.init : Att ℝ ℝ) ops with
  | ub u => rw [hrr] at hr; cases hr
  | ok s1 =>
    rw [hrr] at hr
    cases hr
    intro i hi
    simp only [Att.emb, List.mem_map] at hi
    obtain ⟨j, hj, rfl⟩ := hi
    exact ⟨j.q, rfl, run_unit ops _ s1 (by simp [Att.init]) hrr j hj⟩

/-- A later sample of zero acceleration (free fall) makes the attitude NaN, whatever came before. -/
theorem C28_free_fall_nan (s : Att PReal PReal) (g w : Vec3 PReal) (t : PReal) (last : AttItem PReal PReal) (hl : s.items.getLast? = some last)
    (ht : TimeOps.lt t last.ts = false) :
    ∃ it, (s.propagate g (Vec3.emb 0) w t).1.items = s.items ++ [it] ∧ it.q.w = .nan ∧ ¬ UnitQ it.q := by
  have hx : ((Vec3.emb 0).sdiv (Vec3.emb 0).norm : Vec3 PReal) = ⟨.nan, .nan, .nan⟩ := by
    have : (0 : Vec3 ℝ).norm = 0 := by rw [Vec3.norm_eq_zero]
    rw [Vec3.emb_norm, this]
    apply Vec3.ext <;> simp only [Vec3.sdiv, PReal.div_zero]
  have he : Att.gravErr g last.q (Vec3.emb 0) = ⟨.nan, .nan, .nan⟩ := by
    unfold Att.gravErr
    rw [hx]
    apply Vec3.ext <;> simp only [Vec3.cross, PReal.nan_mul, PReal.nan_sub]
  have hm : (-PReal.nan : PReal) = .nan := rfl
  have hw : (s.stepQuat g last (Vec3.emb 0) (w - s.biasG) t).1.w = .nan := by
    unfold Att.stepQuat
    simp only [he]
    have hsq : ∀ q : Quat PReal, q.w = .nan → q.normalized.w = .nan := by
      intro q hq
      unfold Quat.normalized
      have : q.sqNorm = .nan := by simp only [Quat.sqNorm, hq, PReal.nan_mul, PReal.nan_add]
      rw [this]
      simp only [PReal.lt_nan]
      exact hq
    apply hsq
    simp only [Quat.mul, Utility.deltaQ, Vec3.sdiv, Vec3.neg_x, Vec3.add_x, PReal.nan_mul, PReal.add_nan, hm, PReal.nan_div, PReal.mul_nan]
    generalize (last.q.w * 1 : PReal) = z
    have : z - PReal.nan = .nan := by cases z <;> rfl
    rw [this]; rfl
  refine ⟨⟨(s.stepQuat g last (Vec3.emb 0) (w - s.biasG) t).1, Vec3.emb 0 - s.biasA, w - s.biasG, t⟩, ?_, hw, ?_⟩
  · simp only [Att.propagate, hl, ht]; rfl
  · rintro ⟨r, hr, -⟩
    simp only at hr
    rw [hr] at hw
    cases hw

/-! ### C29: level start -/

/-- Every sample parallel to gravity gives a starting attitude that is not a number: C29 is false. -/
theorem C29_parallel_start_nan (a g : Vec3 ℝ) (h : a.cross g = 0) : (Att.initQuat a.emb g.emb).x = .nan ∧ ¬ UnitQ (Att.initQuat a.emb g.emb) := by
  have hx : (Att.initQuat a.emb g.emb).x = .nan := by
    have h0 : (a.cross g).norm = 0 := by rw [h, Vec3.norm_eq_zero]
    unfold Att.initQuat
    simp only [Vec3.emb_cross, Vec3.emb_norm, h0]
    have hn : ∀ q : Quat PReal, q.x = .nan → q.normalized = q := by
      intro q hq
      have : q.sqNorm = .nan := by simp only [Quat.sqNorm, hq, PReal.nan_mul, PReal.add_nan, PReal.nan_add]
      simp only [Quat.normalized, this, PReal.lt_nan]
      rfl
    have hd : (Utility.deltaQ (⟨((a.cross g).emb.sdiv (.of 0)).x * ScalarFn.atan2 (.of 0) (a.emb.dot g.emb),
      ((a.cross g).emb.sdiv (.of 0)).y * ScalarFn.atan2 (.of 0) (a.emb.dot g.emb),
      ((a.cross g).emb.sdiv (.of 0)).z * ScalarFn.atan2 (.of 0) (a.emb.dot g.emb)⟩ : Vec3 PReal)).x = .nan := by
      simp only [Utility.deltaQ, Vec3.sdiv, PReal.div_zero, PReal.nan_mul, PReal.nan_div]
    rw [hn _ hd, hn _ hd, hd]
  refine ⟨hx, ?_⟩
  rintro ⟨r, hr, -⟩
  rw [hr] at hx
  cases hx

/-- A device lying level, or upside down, is accepted as a start (its reading has the norm of gravity) and stored with an unusable attitude. -/
theorem C29_level_start_stored (g : Vec3 ℝ) (w : Vec3 ℝ) (t : ℝ) (k : ℝ) (hk : k = 1 ∨ k = -1) :
    ∃ it, ((Att.init : Att PReal PReal).propagate g.emb (Vec3.smul k g).emb w.emb (.of t)).1.items = [it] ∧ ¬ UnitQ it.q := by
  have hb : (Vec3.smul k g).emb - (Att.init : Att PReal PReal).biasA = (Vec3.smul k g).emb := by
    show (Vec3.smul k g).emb - (0 : Vec3 ℝ).emb = _
    rw [Vec3.emb_sub]
    congr 1
    apply Vec3.ext <;> simp
  have hn : (Vec3.smul k g).norm = g.norm := by
    rw [Vec3.norm_real, Vec3.norm_real]
    congr 1
    rcases hk with rfl | rfl <;> simp [Vec3.sqNorm]
  have hc : (Vec3.smul k g).cross g = 0 := by
    apply Vec3.ext <;> simp [Vec3.cross] <;> ring
  have hp := (C29_parallel_start_nan _ _ hc).2
  have e : (Att.init : Att PReal PReal).items.getLast? = none := rfl
  simp only [Att.propagate, e, hb, Vec3.emb_norm, hn, PReal.of_sub, PReal.of_fabs, PReal.of_ofK, PReal.of_tlit, PReal.of_tlt]
  have : TimeOps.lt (TimeOps.tlit (4/100) : ℝ) (TimeCast.ofK (ScalarFn.fabs (g.norm - g.norm)) : ℝ) = false := by
    simp
    norm_num
  rw [this]
  exact ⟨_, rfl, hp⟩

/-- Off the gravity axis the start is fine: a finite unit quaternion. -/
theorem C29_off_axis_partial (a g : Vec3 ℝ) (h : a.cross g ≠ 0) : UnitQ (Att.initQuat a.emb g.emb) :=
  ⟨_, Att.emb_initQuat a g h, Att.initQuat_unit a g⟩

/-! ### C30: alignment of the starting attitude -/

/-- The start turns the specific force towards gravity in their common plane, but by `2 arctan(theta/2)` instead of the angle `theta`
between them; the deficit is positive and at most `theta^3/12`. -/
theorem C30_alignment_partial (a g : Vec3 ℝ) (h : a.cross g ≠ 0) :
    ∃ err, 0 < err ∧ err ≤ angleBetween a g ^ 3 / 12 ∧ err < Real.pi ∧
      ((Att.initQuat a g).rotate a).dot g = a.norm * g.norm * Real.cos err ∧
      ((Att.initQuat a g).rotate a).norm = a.norm ∧ ((Att.initQuat a g).rotate a).dot (a.cross g) = 0 := by
  have hp := angle_pos a g h
  have h1 := arctan_lt_self (half_pos hp)
  have h2 := arctan_ge (half_pos hp).le
  have h3 := angle_le_pi a g
  have h4 : 0 < Real.arctan (angleBetween a g / 2) := Real.arctan_pos.2 (half_pos hp)
  refine ⟨angleBetween a g - 2 * Real.arctan (angleBetween a g / 2), by linarith, by nlinarith, by linarith, initQuat_dot a g h, ?_, ?_⟩
  · have hu := Att.initQuat_unit a g
    rw [Vec3.norm_real, Vec3.norm_real]
    congr 1
    generalize Att.initQuat a g = q at hu
    simp only [Quat.sqNorm] at hu
    simp only [Vec3.sqNorm, Quat.rotate, Quat.vec, Vec3.cross, Vec3.add_x, Vec3.add_y, Vec3.add_z, Vec3.smul_x, Vec3.smul_y, Vec3.smul_z]
    linear_combination (4 * ((q.y * a.z - q.z * a.y) ^ 2 + (q.z * a.x - q.x * a.z) ^ 2 + (q.x * a.y - q.y * a.x) ^ 2)) * hu
  · rw [initQuat_rotate a g h]
    simp only [Vec3.dot, Vec3.add_x, Vec3.add_y, Vec3.add_z, Vec3.smul_x, Vec3.smul_y, Vec3.smul_z, Vec3.cross]
    ring

/-- C30 is false, for every start off the gravity axis: the rotated specific force is never on the gravity direction. -/
theorem C30_never_aligned (a g : Vec3 ℝ) (h : a.cross g ≠ 0) : ((Att.initQuat a g).rotate a).dot g < a.norm * g.norm ∧
    ¬ ∃ k : ℝ, 0 ≤ k ∧ (Att.initQuat a g).rotate a = Vec3.smul k g := by
  obtain ⟨e, h0, -, h1, h2, h3, -⟩ := C30_alignment_partial a g h
  obtain ⟨ha, hg⟩ := ne_zero_of_cross a g h
  have hpos := mul_pos (a.norm_pos ha) (g.norm_pos hg)
  have hlt : ((Att.initQuat a g).rotate a).dot g < a.norm * g.norm := by
    rw [h2]
    have : Real.cos e < 1 := by
      rw [← Real.cos_zero]
      exact Real.cos_lt_cos_of_nonneg_of_le_pi le_rfl h1.le h0
    nlinarith
  refine ⟨hlt, ?_⟩
  rintro ⟨k, hk, he⟩
  rw [he] at hlt h3
  have hkn : (Vec3.smul k g).norm = k * g.norm := by
    rw [Vec3.norm_real, Vec3.norm_real]
    have : (Vec3.smul k g).sqNorm = k ^ 2 * g.sqNorm := by simp only [Vec3.sqNorm, Vec3.smul_x, Vec3.smul_y, Vec3.smul_z]; ring
    rw [this, Real.sqrt_mul (sq_nonneg k), Real.sqrt_sq hk]
  have hdot : (Vec3.smul k g).dot g = k * g.norm ^ 2 := by
    rw [Vec3.norm_sq]; simp only [Vec3.dot, Vec3.sqNorm, Vec3.smul_x, Vec3.smul_y, Vec3.smul_z]; ring
  rw [hdot] at hlt
  rw [hkn] at h3
  rw [← h3] at hlt
  nlinarith

/-- The hypotheses of C28 - C30 are met: a start with gravity along x, then a sample, gives a two item queue. -/
example : (⟨1, 0, 0⟩ : Vec3 ℝ).cross ⟨0, 0, 1⟩ ≠ 0 ∧
    NoDivZeroRun Att.init [.sample ⟨0, 0, 1⟩ ⟨1, 0, 0⟩ 0 1, .sample ⟨0, 0, 1⟩ ⟨1, 0, 0⟩ ⟨1, 0, 0⟩ 2] := by
  have hc : (⟨1, 0, 0⟩ : Vec3 ℝ).cross ⟨0, 0, 1⟩ ≠ 0 := by
    intro h
    have := congrArg Vec3.y h
    simp [Vec3.cross] at this
  refine ⟨hc, ?_, ?_⟩
  · have e0 : (Att.init : Att ℝ ℝ).items = [] := rfl
    simp only [NoDivZero, if_pos e0]
    have : ((⟨1, 0, 0⟩ : Vec3 ℝ) - (Att.init : Att ℝ ℝ).biasA) = ⟨1, 0, 0⟩ := by apply Vec3.ext <;> simp [Att.init]
    rw [this]; exact hc
  · intro s' hs
    cases hs
    refine ⟨?_, fun _ _ => trivial⟩
    have hn : ∀ v : Vec3 ℝ, v.sqNorm = 1 → v.norm = 1 := fun v hv => by rw [Vec3.norm_real, hv, Real.sqrt_one]
    have e : ((⟨1, 0, 0⟩ : Vec3 ℝ) - (Att.init : Att ℝ ℝ).biasA) = ⟨1, 0, 0⟩ := by apply Vec3.ext <;> simp [Att.init]
    have hne : ((Att.init : Att ℝ ℝ).propagate ⟨0, 0, 1⟩ ⟨1, 0, 0⟩ 0 1).1.items ≠ [] := by
      have e0 : (Att.init : Att ℝ ℝ).items.getLast? = none := rfl
      simp only [Att.propagate, e0, e]
      rw [hn ⟨0, 0, 1⟩ (by simp [Vec3.sqNorm]), hn ⟨1, 0, 0⟩ (by simp [Vec3.sqNorm])]
      rw [if_neg (by simp; norm_num)]
      simp
    simp only [NoDivZero, if_neg hne]
    constructor
    · intro h; have := congrArg Vec3.z h; simp at this
    · intro h; have := congrArg Vec3.x h; simp at this

end Vio

/-
Lemmas about association lists (`unordered_map`).
-/
import Verif.Basic
import Mathlib.Data.List.Nodup
import Mathlib.Data.List.Basic

namespace Vio

variable {α : Type _}

theorem lookup_append' (l1 l2 : List (Nat × α)) (k : Nat) :
    (l1 ++ l2).lookup k = (l1.lookup k).or (l2.lookup k) := by
  induction l1 with
  | nil => simp
  | cons e l ih =>
    obtain ⟨k', v⟩ := e
    simp only [List.cons_append, List.lookup_cons]
    cases h : (k == k') <;> simp [ih]

theorem lookup_filter_key (l : List (Nat × α)) (p : Nat → Bool) (k : Nat) :
    (l.filter (fun e => p e.1)).lookup k = if p k then l.lookup k else none := by
  induction l with
  | nil => simp
  | cons e l ih =>
    obtain ⟨k', v⟩ := e
    by_cases hk : k = k'
    · subst hk
      by_cases hp : p k = true
      · simp [hp]
      · simp only [Bool.not_eq_true] at hp
        rw [List.filter_cons]
        simp only [hp, Bool.false_eq_true, ↓reduceIte]
        rw [ih]
        simp [hp]
    · have hb : (k == k') = false := by simp [hk]
      by_cases hp : p k' = true
      · simp [hp, List.lookup_cons, hb, ih]
      · simp only [Bool.not_eq_true] at hp
        rw [List.filter_cons]
        simp [hp, List.lookup_cons, hb, ih]

theorem mem_of_lookup {l : List (Nat × α)} {k : Nat} {v : α} (h : l.lookup k = some v) : (k, v) ∈ l := by
  induction l with
  | nil => simp at h
  | cons e l ih =>
    obtain ⟨k', v'⟩ := e
    rw [List.lookup_cons] at h
    cases hb : (k == k') with
    | true =>
      rw [hb] at h
      simp only [Option.some.injEq] at h
      simp only [beq_iff_eq] at hb
      rw [hb, h]
      simp
    | false =>
      rw [hb] at h
      exact List.mem_cons_of_mem _ (ih h)

theorem lookup_of_mem {l : List (Nat × α)} (hn : (l.map (·.1)).Nodup) {k : Nat} {v : α} (h : (k, v) ∈ l) :
    l.lookup k = some v := by
  induction l with
  | nil => simp at h
  | cons e l ih =>
    obtain ⟨k', v'⟩ := e
    rw [List.map_cons, List.nodup_cons] at hn
    rcases List.mem_cons.1 h with h' | h'
    · simp only [Prod.mk.injEq] at h'
      obtain ⟨rfl, rfl⟩ := h'
      simp
    · have : k ≠ k' := by
        rintro rfl
        exact hn.1 (List.mem_map.2 ⟨_, h', rfl⟩)
      rw [List.lookup_cons]
      have hb : (k == k') = false := by simp [this]
      rw [hb]
      exact ih hn.2 h'

theorem lookup_eq_none_iff_keys (l : List (Nat × α)) (k : Nat) : l.lookup k = none ↔ k ∉ l.map (·.1) := by
  induction l with
  | nil => simp
  | cons e l ih =>
    obtain ⟨k', v'⟩ := e
    rw [List.lookup_cons]
    by_cases hk : k = k'
    · subst hk; simp
    · have hb : (k == k') = false := by simp [hk]
      rw [hb]
      simp [hk, ih]

theorem lookup_isSome_iff_keys (l : List (Nat × α)) (k : Nat) : (l.lookup k).isSome = true ↔ k ∈ l.map (·.1) := by
  rw [← not_iff_not]
  rw [Bool.not_eq_true, Option.isSome_eq_false_iff, Option.isNone_iff_eq_none, lookup_eq_none_iff_keys]

theorem nodup_filter_keys {l : List (Nat × α)} (hn : (l.map (·.1)).Nodup) (p : Nat × α → Bool) :
    ((l.filter p).map (·.1)).Nodup :=
  hn.sublist (List.filter_sublist.map _)

end Vio

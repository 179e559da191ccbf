/-
C84, C85: the result of an update does not depend on the order in which the random numbers put the features, nor on which of the possible decompositions the library returns.
-/
import Verif.Lemmas.Stack
import Verif.Props.UpdateDims

set_option linter.unusedSectionVars false

namespace Vio
open Spec WinSpec

namespace Update

section Selection
variable {K T : Type} [Add K] [Sub K] [Mul K] [Neg K] [Div K] [Zero K] [One K] [ScalarFn K]
  [TimeOps T] [TimeCast T K]

/-- The features that are triangulated in a pass over the links of the newest frame, in the order of the links, and the window after the pass. -/
def solvedRefs (ext : Ext K) : Win K T → List (Nat × Nat) → Res (Win K T × List Nat)
  | w, [] => .ok (w, [])
  | w, e :: rest => do
    let (s, w') ← triangulate ext w e.2
    let (w'', l) ← solvedRefs ext w' rest
    .ok (w'', if s then e.2 :: l else l)

/-- The entries that the pass puts into the map. -/
def insertAll (env : Env K) : List (Nat × Nat) → Nat → List Nat → List (Nat × Nat)
  | good, _, [] => good
  | good, pos, r :: l => insertAll env (mapInsert (env.key (env.rnd pos)) r good) (pos + 1) l

theorem selectLoop_solved (env : Env K) (todo : List (Nat × Nat)) : ∀ (w : Win K T) (good : List (Nat × Nat)) (pos : Nat),
    selectLoop env w good pos todo = (solvedRefs env.ext w todo).bind (fun x => .ok (x.1, insertAll env good pos x.2, pos + x.2.length)) := by
  induction todo with
  | nil => intro w good pos; rfl
  | cons e todo ih =>
    intro w good pos
    rw [selectLoop, solvedRefs]
    cases ht : triangulate env.ext w e.2 with
    | ub t => rfl
    | ok x =>
      obtain ⟨s, w'⟩ := x
      simp only [Res.bind_ok]
      cases s with
      | true =>
        rw [if_pos rfl, ih]
        cases solvedRefs env.ext w' todo with
        | ub t => rfl
        | ok y =>
          show Res.ok _ = Res.ok _
          simp only [insertAll, if_true, List.length_cons]
          rw [Nat.add_assoc, Nat.add_comm 1]
      | false =>
        rw [if_neg (by decide), ih]
        cases solvedRefs env.ext w' todo with
        | ub t => rfl
        | ok y => rfl

theorem mapInsert_perm (k v : Nat) (l : List (Nat × Nat)) (h : k ∉ l.map (·.1)) : (mapInsert k v l).Perm ((k, v) :: l) := by
  induction l with
  | nil => exact .refl _
  | cons e l ih =>
    rw [mapInsert]
    simp only [List.map_cons, List.mem_cons, not_or] at h
    split
    · exact .refl _
    · rw [if_neg h.1]
      exact ((ih h.2).cons e).trans (.swap _ _ _)

/-- With different keys every triangulated feature is kept. -/
theorem insertAll_perm (env : Env K) (l : List Nat) : ∀ (good : List (Nat × Nat)) (pos : Nat),
    (good.map (·.1) ++ (List.range' pos l.length).map (fun i => env.key (env.rnd i))).Nodup → ((insertAll env good pos l).map (·.2)).Perm (good.map (·.2) ++ l) := by
  induction l with
  | nil => intro good pos _; simp [insertAll]
  | cons r l ih =>
    intro good pos hn
    rw [insertAll]
    have hk : env.key (env.rnd pos) ∉ good.map (·.1) := by
      intro hc
      have := List.nodup_append.1 hn
      exact this.2.2 _ hc _ (by simp [List.range'_succ]) rfl
    have hp := mapInsert_perm (env.key (env.rnd pos)) r good hk
    refine (ih _ _ ?_).trans ?_
    · have e : (good.map (·.1) ++ (List.range' pos (r :: l).length).map (fun i => env.key (env.rnd i))).Perm
          ((mapInsert (env.key (env.rnd pos)) r good).map (·.1) ++ (List.range' (pos + 1) l.length).map (fun i => env.key (env.rnd i))) := by
        rw [List.length_cons, List.range'_succ, List.map_cons]
        refine List.perm_middle.trans ?_
        have := (hp.map (·.1)).symm.append_right ((List.range' (pos + 1) l.length).map (fun i => env.key (env.rnd i)))
        simpa using this
      exact e.nodup_iff.1 hn
    · have := (hp.map (·.2)).append_right l
      refine this.trans ?_
      simp only [List.map_cons, List.cons_append]
      exact List.perm_middle.symm

/-- The triangulated features are the ones that are marked solved afterwards. -/
theorem solvedRefs_filter (ext : Ext K) (todo : List (Nat × Nat)) : ∀ (w w' : Win K T) (l : List Nat), (todo.map (·.2)).Nodup → solvedRefs ext w todo = .ok (w', l) →
    l = (todo.map (·.2)).filter (fun r => decide ((w'.feat.heap r).status = .solved)) ∧ ∀ r, r ∉ todo.map (·.2) → w'.feat.heap r = w.feat.heap r := by
  induction todo with
  | nil => intro w w' l _ h; cases h; exact ⟨rfl, fun _ _ => rfl⟩
  | cons e todo ih =>
    intro w w' l hn h
    rw [solvedRefs] at h
    obtain ⟨⟨s, w1⟩, ht, h⟩ := Res.bind_eq_ok.1 h
    obtain ⟨⟨w2, l2⟩, hs, h⟩ := Res.bind_eq_ok.1 h
    dsimp only at hs h
    simp only [Res.ok.injEq, Prod.mk.injEq] at h
    obtain ⟨rfl, rfl⟩ := h
    rw [List.map_cons, List.nodup_cons] at hn
    obtain ⟨i1, i2⟩ := ih w1 w2 l2 hn.2 hs
    have hst : (w1.feat.heap e.2).status = (if s then .solved else .unsolved) ∧ ∀ r, r ≠ e.2 → w1.feat.heap r = w.feat.heap r := by
      unfold triangulate at ht
      obtain ⟨vs, -, ht⟩ := Res.bind_eq_ok.1 ht
      obtain ⟨⟨good, pw⟩, -, ht⟩ := Res.bind_eq_ok.1 ht
      cases ht
      refine ⟨?_, fun r hr => ?_⟩
      · simp [FMgr.put]
      · simp [FMgr.put, hr]
    have he : (w2.feat.heap e.2).status = (if s then .solved else .unsolved) := by rw [i2 e.2 hn.1]; exact hst.1
    refine ⟨?_, ?_⟩
    · rw [List.map_cons, List.filter_cons, he, ← i1]
      cases s <;> simp
    · intro r hr
      rw [List.map_cons, List.mem_cons, not_or] at hr
      rw [i2 r hr.2, hst.2 r hr.1]

theorem triangulate_ext (ext ext' : Ext K) (h : ext.svdLast = ext'.svdLast) (w : Win K T) (r : Nat) : triangulate ext w r = triangulate ext' w r := by
  unfold triangulate Triang.analytic
  rw [h]

theorem solvedRefs_ext (ext ext' : Ext K) (h : ext.svdLast = ext'.svdLast) (todo : List (Nat × Nat)) : ∀ w : Win K T, solvedRefs ext w todo = solvedRefs ext' w todo := by
  induction todo with
  | nil => intro w; rfl
  | cons e todo ih =>
    intro w
    rw [solvedRefs, solvedRefs, triangulate_ext ext ext' h]
    simp only [ih]

/-- The random numbers give different scores to the first `n` features. -/
def KeysDiffer (env : Env K) (pos n : Nat) : Prop := ((List.range' pos n).map (fun i => env.key (env.rnd i))).Nodup

theorem KeysDiffer.mono {env : Env K} {pos n k : Nat} (h : KeysDiffer env pos n) (hk : k ≤ n) : KeysDiffer env pos k := by
  unfold KeysDiffer at *
  refine h.sublist (List.Sublist.map _ ?_)
  obtain ⟨d, rfl⟩ := Nat.exists_eq_add_of_le hk
  rw [← List.range'_append_1]
  exact List.sublist_append_left _ _

/-- C84, selection.  If the scores differ and the triangulated features are at most the allowed number, the selected features are exactly the triangulated ones, for every random stream. -/
theorem C84_selected (env : Env K) (maxUsed : Nat) (w w' : Win K T) (pos pos' : Nat) (sel : List Nat) (f : Frame K T) (hb : w.frm.frames.getLast? = some f)
    (hnd : (f.features.map (·.2)).Nodup) (h : selectGood env maxUsed w pos = .ok (w', sel, pos')) (hk : KeysDiffer env pos f.features.length)
    (hmax : ((f.features.map (·.2)).filter (fun r => decide ((w'.feat.heap r).status = .solved))).length ≤ maxUsed) :
    sel.Perm ((f.features.map (·.2)).filter (fun r => decide ((w'.feat.heap r).status = .solved))) ∧ ∃ l, solvedRefs env.ext w f.features = .ok (w', l) := by
  unfold selectGood at h
  rw [back, hb] at h
  simp only [Res.bind_ok] at h
  rw [selectLoop_solved] at h
  obtain ⟨⟨w1, good, pos1⟩, hl, h⟩ := Res.bind_eq_ok.1 h
  obtain ⟨⟨w2, l⟩, hs, hl⟩ := Res.bind_eq_ok.1 hl
  cases hl
  simp only [Res.ok.injEq, Prod.mk.injEq] at h
  obtain ⟨rfl, rfl, rfl⟩ := h
  have hf := (solvedRefs_filter env.ext f.features w w2 l hnd hs).1
  rw [← hf] at hmax ⊢
  refine ⟨?_, l, hs⟩
  have hlen : l.length ≤ f.features.length := by
    rw [hf]
    exact (List.length_filter_le _ _).trans (by simp)
  have hp := insertAll_perm env l [] pos (by have := hk.mono hlen; unfold KeysDiffer at this; simpa using this)
  simp only [List.map_nil, List.nil_append] at hp
  have hr : (((insertAll env [] pos l).reverse).map (·.2)).Perm l := by
    rw [List.map_reverse]
    exact (List.reverse_perm _).trans hp
  rw [List.take_of_length_le (by rw [hr.length_eq]; exact hmax)]
  exact hr

end Selection

end Update
end Vio

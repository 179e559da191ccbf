/-
Lemmas about the feature manager.
-/
import Verif.Lemmas.Assoc
import Verif.Spec.Window
import Mathlib.Algebra.BigOperators.Group.List.Basic

set_option linter.unusedSectionVars false

namespace Vio

variable {K T : Type _} [Add K] [Sub K] [Mul K] [Neg K] [Div K] [Zero K] [One K] [ScalarFn K]
  [TimeOps T] [TimeCast T K]

/-- Number of camera observations stored in a feature. -/
def Feature.camCount (f : Feature K) : Nat := (f.observes.map (fun o => o.norms.length)).sum

namespace FMgr

/-- Well-formed manager: unique keys; every managed feature sits at an allocated reference under its own id, has an observation, and its
counter is right. -/
structure WF (s : FMgr K) : Prop where
  nodup : (s.map.map (·.1)).Nodup
  lt : ∀ id r, s.map.lookup id = some r → r < s.next
  ids : ∀ id r, s.map.lookup id = some r → (s.heap r).id = id
  ne : ∀ id r, s.map.lookup id = some r → (s.heap r).observes ≠ []
  num : ∀ id r, s.map.lookup id = some r → (s.heap r).observeNum = (s.heap r).camCount % two32

theorem wf_init : (init : FMgr K).WF := ⟨by simp [init], by simp [init], by simp [init], by simp [init], by simp [init]⟩

@[simp] theorem put_same (s : FMgr K) (r : Nat) (f : Feature K) : (s.put r f).heap r = f := by simp [put]
theorem put_other (s : FMgr K) {r r' : Nat} (f : Feature K) (h : r' ≠ r) : (s.put r f).heap r' = s.heap r' := by
  simp [put, h]

theorem lookup_mem (s : FMgr K) (h : s.WF) {e : Nat × Nat} (he : e ∈ s.map) : s.map.lookup e.1 = some e.2 :=
  lookup_of_mem h.nodup he

theorem refs_nodup (s : FMgr K) (h : s.WF) : (s.map.map (·.2)).Nodup := by
  have hn := h.nodup
  rw [List.nodup_map_iff_inj_on (hn.of_map _)] at hn
  rw [List.nodup_map_iff_inj_on (h.nodup.of_map _)]
  intro x hx y hy hxy
  apply hn x hx y hy
  have h1 := h.ids _ _ (s.lookup_mem h hx)
  have h2 := h.ids _ _ (s.lookup_mem h hy)
  rw [hxy] at h1
  rw [← h1, h2]

theorem ref_inj (s : FMgr K) (h : s.WF) {i j r : Nat} (h1 : s.map.lookup i = some r) (h2 : s.map.lookup j = some r) : i = j := by
  rw [← h.ids _ _ h1, h.ids _ _ h2]

end FMgr

namespace Feature

theorem addNewObserve_id (f : Feature K) (o : Obs K) : (f.addNewObserve o).id = f.id := by
  unfold addNewObserve; split <;> rfl

theorem addNewObserve_observes (f : Feature K) (o : Obs K) (h : o.norms ≠ []) :
    (f.addNewObserve o).observes = f.observes ++ [o] := by
  unfold addNewObserve; simp [h]

theorem addNewObserve_first (f : Feature K) (o : Obs K) : (f.addNewObserve o).first = f.first := by
  unfold addNewObserve; split <;> rfl

theorem addNewObserve_ne (f : Feature K) (o : Obs K) (h : f.observes ≠ []) : (f.addNewObserve o).observes ≠ [] := by
  unfold addNewObserve; split <;> simp [h]

theorem addNewObserve_num (f : Feature K) (o : Obs K) (h : f.observeNum = f.camCount % two32) :
    (f.addNewObserve o).observeNum = (f.addNewObserve o).camCount % two32 := by
  unfold addNewObserve
  split
  · exact h
  · simp only [add32, camCount, List.map_append, List.sum_append, List.map_cons, List.map_nil, List.sum_cons, List.sum_nil, Nat.add_zero]
    rw [h, Nat.mod_add_mod]
    rfl

theorem make_num (id fid : Nat) (o : Obs K) : (make id fid o).observeNum = (make id fid o).camCount % two32 := by
  simp [make, camCount]

end Feature

namespace FMgr

/-- Effect of one iteration of `AddNewFeatures`. -/
theorem addOne_spec (s : FMgr K) (h : s.WF) (fid id : Nat) (o : Obs K) :
    (s.addOne fid id o).1.WF ∧ s.next ≤ (s.addOne fid id o).1.next ∧
    (s.addOne fid id o).1.map.lookup id = some (s.addOne fid id o).2 ∧
    (∀ id', id' ≠ id → (s.addOne fid id o).1.map.lookup id' = s.map.lookup id') ∧
    (∀ id' r, id' ≠ id → s.map.lookup id' = some r → (s.addOne fid id o).1.heap r = s.heap r) ∧
    (∀ r, s.map.lookup id = some r → (s.addOne fid id o).2 = r ∧ (s.addOne fid id o).1.heap r = (s.heap r).addNewObserve o) ∧
    (s.map.lookup id = none → (s.addOne fid id o).1.heap (s.addOne fid id o).2 = Feature.make id fid o) := by
  unfold addOne
  cases hl : s.map.lookup id with
  | some r =>
    simp only
    have hput : ∀ id' r', s.map.lookup id' = some r' → id' ≠ id → (s.put r ((s.heap r).addNewObserve o)).heap r' = s.heap r' := by
      intro id' r' h1 h2
      refine put_other _ _ ?_
      rintro rfl
      exact h2 (s.ref_inj h h1 hl)
    refine ⟨⟨h.nodup, h.lt, ?_, ?_, ?_⟩, le_rfl, hl, fun _ _ => rfl, fun id' r' h1 h2 => hput id' r' h2 h1, ?_, by simp⟩
    · intro id' r' h1
      by_cases h2 : id' = id
      · subst h2
        have h1' : s.map.lookup id' = some r' := h1
        have : r' = r := by rw [hl] at h1'; simpa using h1'.symm
        subst this
        rw [put_same, Feature.addNewObserve_id]
        exact h.ids _ _ hl
      · rw [hput id' r' h1 h2]; exact h.ids _ _ h1
    · intro id' r' h1
      by_cases h2 : id' = id
      · subst h2
        have h1' : s.map.lookup id' = some r' := h1
        have : r' = r := by rw [hl] at h1'; simpa using h1'.symm
        subst this
        rw [put_same]
        exact Feature.addNewObserve_ne _ _ (h.ne _ _ hl)
      · rw [hput id' r' h1 h2]; exact h.ne _ _ h1
    · intro id' r' h1
      by_cases h2 : id' = id
      · subst h2
        have h1' : s.map.lookup id' = some r' := h1
        have : r' = r := by rw [hl] at h1'; simpa using h1'.symm
        subst this
        rw [put_same]
        exact Feature.addNewObserve_num _ _ (h.num _ _ hl)
      · rw [hput id' r' h1 h2]; exact h.num _ _ h1
    · intro r' h1
      have : r = r' := by simpa using h1
      subst this
      exact ⟨rfl, put_same _ _ _⟩
  | none =>
    simp only
    have hlk : ∀ id', (s.map ++ [(id, s.next)]).lookup id' = if id' = id then some s.next else s.map.lookup id' := by
      intro id'
      rw [lookup_append']
      by_cases h2 : id' = id
      · subst h2; simp [hl]
      · have : (id' == id) = false := by simp [h2]
        simp [List.lookup_cons, this, h2]
    have hput : ∀ id' r', s.map.lookup id' = some r' → (s.put s.next (Feature.make id fid o)).heap r' = s.heap r' := by
      intro id' r' h1
      exact put_other _ _ (Nat.ne_of_lt (h.lt _ _ h1))
    refine ⟨⟨?_, ?_, ?_, ?_, ?_⟩, Nat.le_succ _, by rw [hlk]; simp, fun id' h1 => by rw [hlk]; simp [h1], fun id' r h1 h2 => hput id' r h2,
      by simp, fun _ => put_same _ _ _⟩
    · rw [List.map_append, List.nodup_append]
      refine ⟨h.nodup, by simp, ?_⟩
      intro a ha b hb
      simp only [List.map_cons, List.map_nil, List.mem_singleton] at hb
      subst hb
      rintro rfl
      exact (lookup_eq_none_iff_keys _ _).1 hl ha
    · intro id' r' h1
      simp only [hlk] at h1
      split at h1
      · simp only [Option.some.injEq] at h1; subst h1; exact Nat.lt_succ_self _
      · exact Nat.lt_succ_of_lt (h.lt _ _ h1)
    · intro id' r' h1
      simp only [hlk] at h1
      split at h1
      · rename_i h2
        simp only [Option.some.injEq] at h1
        subst h1 h2
        simp [put, Feature.make]
      · simp only [hput _ _ h1]; exact h.ids _ _ h1
    · intro id' r' h1
      simp only [hlk] at h1
      split at h1
      · rename_i h2
        simp only [Option.some.injEq] at h1
        subst h1 h2
        simp [put, Feature.make]
      · simp only [hput _ _ h1]; exact h.ne _ _ h1
    · intro id' r' h1
      simp only [hlk] at h1
      split at h1
      · rename_i h2
        simp only [Option.some.injEq] at h1
        subst h1 h2
        simp only [put_same]
        exact Feature.make_num _ _ _
      · simp only [hput _ _ h1]; exact h.num _ _ h1

/-- `AddNewFeatures` keeps the manager well formed, whatever the input. -/
theorem addAll_wf (s : FMgr K) (h : s.WF) (fid : Nat) (L : List (Nat × Obs K)) : (s.addAll fid L).1.WF := by
  induction L generalizing s with
  | nil => exact h
  | cons e L ih =>
    obtain ⟨id, o⟩ := e
    exact ih _ (s.addOne_spec h fid id o).1

/-- Effect of the loop of `AddNewFeatures` for distinct ids. -/
theorem addAll_spec (s : FMgr K) (h : s.WF) (fid : Nat) (L : List (Nat × Obs K)) (hn : (L.map (·.1)).Nodup) :
    (∀ id, L.lookup id = none → (s.addAll fid L).1.map.lookup id = s.map.lookup id) ∧
    (∀ id r, L.lookup id = none → s.map.lookup id = some r → (s.addAll fid L).1.heap r = s.heap r) ∧
    (∀ id o r, L.lookup id = some o → s.map.lookup id = some r →
      (s.addAll fid L).1.map.lookup id = some r ∧ (s.addAll fid L).1.heap r = (s.heap r).addNewObserve o) ∧
    (∀ id o, L.lookup id = some o → s.map.lookup id = none →
      ∃ r, (s.addAll fid L).1.map.lookup id = some r ∧ (s.addAll fid L).1.heap r = Feature.make id fid o) ∧
    List.Forall₂ (fun e r => (s.addAll fid L).1.map.lookup e.1 = some r) L (s.addAll fid L).2 := by
  induction L generalizing s with
  | nil => simp [addAll]
  | cons e L ih =>
    obtain ⟨id, o⟩ := e
    rw [List.map_cons, List.nodup_cons] at hn
    obtain ⟨w, _, a1, a2, a3, a4, a5⟩ := s.addOne_spec h fid id o
    obtain ⟨b1, b2, b3, b4, b5⟩ := ih _ w hn.2
    have hid : L.lookup id = none := (lookup_eq_none_iff_keys _ _).2 hn.1
    have hA : (s.addAll fid ((id, o) :: L)).1 = ((s.addOne fid id o).1.addAll fid L).1 := rfl
    have hB : (s.addAll fid ((id, o) :: L)).2 = (s.addOne fid id o).2 :: ((s.addOne fid id o).1.addAll fid L).2 := rfl
    rw [hA, hB]
    have hne : ∀ {id' : Nat}, id' ≠ id → ((id, o) :: L).lookup id' = L.lookup id' := by
      intro id' h1
      have : (id' == id) = false := by simp [h1]
      simp [List.lookup_cons, this]
    have heq : ((id, o) :: L).lookup id = some o := by simp
    refine ⟨?_, ?_, ?_, ?_, ?_⟩
    · intro id' h1
      have h2 : id' ≠ id := by rintro rfl; rw [heq] at h1; simp at h1
      rw [hne h2] at h1
      rw [b1 id' h1, a2 id' h2]
    · intro id' r h1 h3
      have h2 : id' ≠ id := by rintro rfl; rw [heq] at h1; simp at h1
      rw [hne h2] at h1
      rw [b2 id' r h1 (by rw [a2 id' h2]; exact h3), a3 id' r h2 h3]
    · intro id' o' r h1 h3
      by_cases h2 : id' = id
      · subst h2
        rw [heq] at h1
        simp only [Option.some.injEq] at h1
        subst h1
        obtain ⟨c1, c2⟩ := a4 r h3
        rw [c1] at a1
        refine ⟨by rw [b1 id' hid]; exact a1, ?_⟩
        rw [b2 id' r hid a1, c2]
      · rw [hne h2] at h1
        obtain ⟨c1, c2⟩ := b3 id' o' r h1 (by rw [a2 id' h2]; exact h3)
        exact ⟨c1, by rw [c2, a3 id' r h2 h3]⟩
    · intro id' o' h1 h3
      by_cases h2 : id' = id
      · subst h2
        rw [heq] at h1
        simp only [Option.some.injEq] at h1
        subst h1
        refine ⟨_, by rw [b1 id' hid]; exact a1, ?_⟩
        rw [b2 id' _ hid a1, a5 h3]
      · rw [hne h2] at h1
        exact b4 id' o' h1 (by rw [a2 id' h2]; exact h3)
    · refine .cons ?_ b5
      rw [b1 id hid]
      exact a1

/-! ### Removal -/

/-- One loop body of `RemoveByFrameID`. -/
def body (fid : Nat) (offset : Bool) (f : Feature K) : Res (Feature K × Bool) :=
  if offset then f.removeShift fid else f.removeFirst fid

/-- Value of the loop body (arbitrary when it is undefined). -/
def bodyVal (fid : Nat) (offset : Bool) (f : Feature K) : Feature K × Bool :=
  match body fid offset f with
  | .ok x => x
  | .ub _ => (f, false)

theorem body_defined (fid : Nat) (offset : Bool) (f : Feature K) (h : f.observes ≠ []) :
    body fid offset f = .ok (bodyVal fid offset f) := by
  suffices hx : ∃ x, body fid offset f = .ok x by
    obtain ⟨x, hx⟩ := hx
    simp [bodyVal, hx]
  have hlen : 0 < f.observes.length := List.length_pos_iff.2 h
  unfold body
  cases offset with
  | true =>
    simp only [↓reduceIte]
    unfold Feature.removeShift
    split
    · rename_i h1
      split
      · exact ⟨_, rfl⟩
      · have hlt : fid - f.first < f.observes.length := by
          obtain ⟨h2, h3⟩ := h1
          have : f.finalFrameID ≤ f.first + f.observes.length - 1 := by
            unfold Feature.finalFrameID
            have e : f.first + f.observes.length + (two32 - 1) = (f.first + f.observes.length - 1) + two32 := by
              unfold two32; omega
            rw [e, Nat.add_mod_right]
            exact Nat.mod_le _ _
          omega
        simp [idx, List.getElem?_eq_getElem hlt]
    · split <;> exact ⟨_, rfl⟩
  | false =>
    simp only [Bool.false_eq_true, ↓reduceIte]
    unfold Feature.removeFirst
    split
    · split
      · exact ⟨_, rfl⟩
      · simp [idx, List.getElem?_eq_getElem hlen]
    · exact ⟨_, rfl⟩

theorem removeLoop_spec (fid : Nat) (offset : Bool) (es : List (Nat × Nat)) (s : FMgr K)
    (hn : (es.map (·.2)).Nodup) (hd : ∀ e ∈ es, (s.heap e.2).observes ≠ []) :
    removeLoop fid offset s es = .ok
      ({ s with heap := fun r => if r ∈ es.map (·.2) then (bodyVal fid offset (s.heap r)).1 else s.heap r },
       (es.filter (fun e => (bodyVal fid offset (s.heap e.2)).2)).map (fun e => (s.heap e.2).id)) := by
  induction es generalizing s with
  | nil => simp [removeLoop]
  | cons e es ih =>
    obtain ⟨k, r⟩ := e
    simp only [List.map_cons, List.nodup_cons] at hn
    have hb := body_defined fid offset (s.heap r) (hd (k, r) (by simp))
    have hother : ∀ e ∈ es, (s.put r (bodyVal fid offset (s.heap r)).1).heap e.2 = s.heap e.2 := by
      intro e he
      refine put_other _ _ ?_
      rintro rfl
      exact hn.1 (List.mem_map.2 ⟨e, he, rfl⟩)
    have ih' := ih (s.put r (bodyVal fid offset (s.heap r)).1) hn.2
      (fun e he => by rw [hother e he]; exact hd e (List.mem_cons_of_mem _ he))
    have hb' : (if offset = true then (s.heap r).removeShift fid else (s.heap r).removeFirst fid) =
        .ok (bodyVal fid offset (s.heap r)) := hb
    have hstep : removeLoop fid offset s ((k, r) :: es) =
        (do let x ← (if offset = true then (s.heap r).removeShift fid else (s.heap r).removeFirst fid)
            let y ← removeLoop fid offset (s.put r x.1) es
            .ok (y.1, if x.2 then (s.heap r).id :: y.2 else y.2)) := by
      cases offset <;> simp [removeLoop]
    rw [hstep, hb']
    simp only [Res.bind_ok, ih']
    have h1 : (es.filter (fun e => (bodyVal fid offset ((s.put r (bodyVal fid offset (s.heap r)).1).heap e.2)).2)).map
          (fun e => ((s.put r (bodyVal fid offset (s.heap r)).1).heap e.2).id) =
        (es.filter (fun e => (bodyVal fid offset (s.heap e.2)).2)).map (fun e => (s.heap e.2).id) := by
      have h2 : es.filter (fun e => (bodyVal fid offset ((s.put r (bodyVal fid offset (s.heap r)).1).heap e.2)).2) =
          es.filter (fun e => (bodyVal fid offset (s.heap e.2)).2) :=
        List.filter_congr (fun e he => by rw [hother e he])
      rw [h2]
      refine List.map_congr_left (fun e he => ?_)
      rw [hother e (List.mem_of_mem_filter he)]
    rw [h1]
    congr 1
    refine Prod.ext ?_ ?_
    · simp only [put, mk.injEq, and_true]
      funext x
      by_cases hx : x = r
      · subst hx
        have : x ∉ es.map (·.2) := hn.1
        simp [this]
      · simp only [hx, ↓reduceIte]
        simp only [List.map_cons, List.mem_cons, hx, false_or]
    · simp only [List.filter_cons]
      split <;> simp

/-- Effect of `RemoveByFrameID` on a well-formed manager. -/
theorem removeByFrameID_spec (s : FMgr K) (h : s.WF) (fid : Nat) (offset : Bool) :
    ∃ s', s.removeByFrameID fid offset = .ok s' ∧ s'.next = s.next ∧ (s'.map.map (·.1)).Nodup ∧
      (∀ id r, s.map.lookup id = some r → s'.heap r = (bodyVal fid offset (s.heap r)).1) ∧
      (∀ id, s'.map.lookup id =
        match s.map.lookup id with
        | some r => if (bodyVal fid offset (s.heap r)).2 then none else some r
        | none => none) := by
  have hl := removeLoop_spec fid offset s.map s (s.refs_nodup h) (fun e he => h.ne _ _ (s.lookup_mem h he))
  have hr : s.removeByFrameID fid offset = .ok
      { heap := fun r => if r ∈ s.map.map (·.2) then (bodyVal fid offset (s.heap r)).1 else s.heap r
        next := s.next
        map := s.map.filter (fun e => !((s.map.filter (fun e => (bodyVal fid offset (s.heap e.2)).2)).map
          (fun e => (s.heap e.2).id)).contains e.1) } := by
    unfold removeByFrameID
    rw [hl]
    rfl
  refine ⟨_, hr, rfl, nodup_filter_keys h.nodup _, ?_, ?_⟩
  · intro id r hr
    have : r ∈ s.map.map (·.2) := List.mem_map.2 ⟨_, mem_of_lookup hr, rfl⟩
    simp only [this, ↓reduceIte]
  · intro id
    simp only
    rw [lookup_filter_key _ (fun k => !((s.map.filter (fun e => (bodyVal fid offset (s.heap e.2)).2)).map
      (fun e => (s.heap e.2).id)).contains k)]
    cases hr : s.map.lookup id with
    | none => simp
    | some r =>
      simp only
      have : ((s.map.filter (fun e => (bodyVal fid offset (s.heap e.2)).2)).map (fun e => (s.heap e.2).id)).contains id =
          (bodyVal fid offset (s.heap r)).2 := by
        rw [Bool.eq_iff_iff, List.contains_iff_mem, List.mem_map]
        constructor
        · rintro ⟨e, he, h1⟩
          obtain ⟨h2, h3⟩ := List.mem_filter.1 he
          have h4 := s.lookup_mem h h2
          have h5 := h.ids _ _ h4
          rw [h1] at h5
          rw [← h5, hr] at h4
          simp only [Option.some.injEq] at h4
          rw [h4]
          exact h3
        · intro h1
          exact ⟨(id, r), List.mem_filter.2 ⟨mem_of_lookup hr, h1⟩, h.ids _ _ hr⟩
      rw [this]
      cases (bodyVal fid offset (s.heap r)).2 <;> simp

theorem bodyVal_id (fid : Nat) (offset : Bool) (f : Feature K) : (bodyVal fid offset f).1.id = f.id := by
  unfold bodyVal
  cases hb : body fid offset f with
  | ub u => rfl
  | ok x =>
    simp only
    unfold body at hb
    cases offset with
    | true =>
      simp only [↓reduceIte] at hb
      unfold Feature.removeShift at hb
      split at hb
      · split at hb
        · simp only [Res.ok.injEq] at hb; rw [← hb]
        · rw [Res.bind_eq_ok] at hb
          obtain ⟨o, _, hb⟩ := hb
          simp only [Res.ok.injEq] at hb; rw [← hb]
      · split at hb <;> (simp only [Res.ok.injEq] at hb; rw [← hb])
    | false =>
      simp only [Bool.false_eq_true, ↓reduceIte] at hb
      unfold Feature.removeFirst at hb
      split at hb
      · split at hb
        · simp only [Res.ok.injEq] at hb; rw [← hb]
        · rw [Res.bind_eq_ok] at hb
          obtain ⟨o, _, hb⟩ := hb
          simp only [Res.ok.injEq] at hb; rw [← hb]
      · simp only [Res.ok.injEq] at hb; rw [← hb]

theorem sum_eraseIdx {l : List (Obs K)} {i : Nat} {o : Obs K} (h : l[i]? = some o) :
    ((l.eraseIdx i).map (fun o => o.norms.length)).sum + o.norms.length = (l.map (fun o => o.norms.length)).sum := by
  induction l generalizing i with
  | nil => simp at h
  | cons a l ih =>
    cases i with
    | zero =>
      simp only [List.getElem?_cons_zero, Option.some.injEq] at h
      subst h
      simp [Nat.add_comm]
    | succ i =>
      simp only [List.getElem?_cons_succ] at h
      have := ih h
      simp only [List.eraseIdx_cons_succ, List.map_cons, List.sum_cons]
      omega

theorem sub32_mod (a b : Nat) : sub32 ((a + b) % two32) b = a % two32 := by
  unfold sub32 two32
  omega

theorem idx_ok {α : Type _} {l : List α} {i : Nat} {a : α} (h : idx l i = .ok a) : l[i]? = some a := by
  unfold idx at h
  split at h
  · simp only [Res.ok.injEq] at h; subst h; assumption
  · simp at h

/-- A feature that survives keeps at least one observation, and its counter stays right. -/
theorem bodyVal_keep (fid : Nat) (offset : Bool) (f : Feature K) (hne : f.observes ≠ []) (hnum : f.observeNum = f.camCount % two32)
    (hk : (bodyVal fid offset f).2 = false) :
    (bodyVal fid offset f).1.observes ≠ [] ∧
    (bodyVal fid offset f).1.observeNum = (bodyVal fid offset f).1.camCount % two32 := by
  have key : ∀ i o (g : Feature K), f.observes.length ≠ 1 → f.observes[i]? = some o → g.observes = f.observes.eraseIdx i →
      g.observeNum = sub32 f.observeNum o.norms.length → g.observes ≠ [] ∧ g.observeNum = g.camCount % two32 := by
    intro i o g h1 h2 h3 h4
    have hlt : i < f.observes.length := by
      by_contra h
      rw [List.getElem?_eq_none (by omega)] at h2
      simp at h2
    constructor
    · rw [h3, ← List.length_pos_iff, List.length_eraseIdx_of_lt hlt]
      omega
    · rw [h4, hnum]
      have := sum_eraseIdx h2
      unfold Feature.camCount
      rw [← this, sub32_mod, h3]
  have hb := body_defined fid offset f hne
  revert hb hk
  generalize bodyVal fid offset f = x
  intro hk hb
  unfold body at hb
  cases offset with
  | true =>
    simp only [↓reduceIte] at hb
    unfold Feature.removeShift at hb
    split at hb
    · split at hb
      · simp only [Res.ok.injEq] at hb; subst hb; simp at hk
      · rename_i h1
        rw [Res.bind_eq_ok] at hb
        obtain ⟨o, ho, hb⟩ := hb
        simp only [Res.ok.injEq] at hb
        subst hb
        exact key _ o _ h1 (idx_ok ho) rfl rfl
    · split at hb <;> (simp only [Res.ok.injEq] at hb; subst hb; exact ⟨hne, hnum⟩)
  | false =>
    simp only [Bool.false_eq_true, ↓reduceIte] at hb
    unfold Feature.removeFirst at hb
    split at hb
    · split at hb
      · simp only [Res.ok.injEq] at hb; subst hb; simp at hk
      · rename_i h1
        rw [Res.bind_eq_ok] at hb
        obtain ⟨o, ho, hb⟩ := hb
        simp only [Res.ok.injEq] at hb
        subst hb
        exact key _ o _ h1 (idx_ok ho) rfl rfl
    · simp only [Res.ok.injEq] at hb; subst hb; exact ⟨hne, hnum⟩

theorem removeByFrameID_wf (s : FMgr K) (h : s.WF) (fid : Nat) (offset : Bool) :
    ∃ s', s.removeByFrameID fid offset = .ok s' ∧ s'.WF := by
  obtain ⟨s', h1, h2, h3, h4, h5⟩ := s.removeByFrameID_spec h fid offset
  have hold : ∀ id r, s'.map.lookup id = some r → s.map.lookup id = some r ∧ (bodyVal fid offset (s.heap r)).2 = false := by
    intro id r hr
    rw [h5] at hr
    cases hl : s.map.lookup id with
    | none => rw [hl] at hr; simp at hr
    | some r' =>
      rw [hl] at hr
      simp only at hr
      split at hr
      · simp at hr
      · rename_i hb
        simp only [Option.some.injEq] at hr
        subst hr
        exact ⟨rfl, by simpa using hb⟩
  refine ⟨s', h1, h3, ?_, ?_, ?_, ?_⟩
  · intro id r hr; rw [h2]; exact h.lt _ _ (hold id r hr).1
  · intro id r hr
    rw [h4 id r (hold id r hr).1, bodyVal_id]
    exact h.ids _ _ (hold id r hr).1
  · intro id r hr
    obtain ⟨h6, h7⟩ := hold id r hr
    rw [h4 id r h6]
    exact (bodyVal_keep _ _ _ (h.ne _ _ h6) (h.num _ _ h6) h7).1
  · intro id r hr
    obtain ⟨h6, h7⟩ := hold id r hr
    rw [h4 id r h6]
    exact (bodyVal_keep _ _ _ (h.ne _ _ h6) (h.num _ _ h6) h7).2

theorem removeByID_wf (s : FMgr K) (h : s.WF) (id : Nat) : (s.removeByID id).WF := by
  have hl : ∀ id' r, (s.removeByID id).map.lookup id' = some r → s.map.lookup id' = some r := by
    intro id' r hr
    unfold removeByID at hr
    simp only at hr
    rw [lookup_filter_key _ (fun k => k != id)] at hr
    split at hr
    · exact hr
    · simp at hr
  exact ⟨nodup_filter_keys h.nodup _, fun _ _ hr => h.lt _ _ (hl _ _ hr), fun _ _ hr => h.ids _ _ (hl _ _ hr),
    fun _ _ hr => h.ne _ _ (hl _ _ hr), fun _ _ hr => h.num _ _ (hl _ _ hr)⟩

end FMgr
end Vio

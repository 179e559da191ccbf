/-
Refinement of the log specification by the feature and frame managers.
-/
import Verif.Lemmas.Features
import Verif.Model.Frames

set_option linter.unusedSectionVars false

namespace Vio

open WinSpec

variable {K T : Type _} [Add K] [Sub K] [Mul K] [Neg K] [Div K] [Zero K] [One K] [ScalarFn K]
  [TimeOps T] [TimeCast T K]

/-- The stored feature describes exactly what the log says about `id`. -/
structure Tracks (l : Log K T) (id : Nat) (f : Feature K) : Prop where
  ne : f.observes ≠ []
  lo : l.base ≤ f.first
  hi : f.first + f.observes.length ≤ l.base + l.msgs.length
  rep : ∀ i m, l.msgs[i]? = some m → report m id = if f.first ≤ l.base + i then f.observes[l.base + i - f.first]? else none

/-- A frame stored for message `m` under id `n`. -/
structure FrameOf (s : FMgr K) (n : Nat) (m : FeatMsg K T) (fr : Frame K T) : Prop where
  id_eq : fr.id = n
  ts_eq : fr.ts = m.ts
  nodup : (fr.features.map (·.1)).Nodup
  link : ∀ id, fr.features.lookup id = if (report m id).isSome then s.map.lookup id else none

/-- Simulation relation between log and managers. -/
structure Rel (l : Log K T) (w : Win K T) : Prop where
  wf : w.feat.WF
  lt : l.base + l.msgs.length < two32
  good : ∀ m ∈ l.msgs, m.ids.length = m.observes.length
  tracks : ∀ id r, w.feat.map.lookup id = some r → Tracks l id (w.feat.heap r)
  untracked : ∀ id, w.feat.map.lookup id = none → ∀ m ∈ l.msgs, report m id = none
  len : w.frm.frames.length = l.msgs.length
  frames : ∀ i fr m, w.frm.frames[i]? = some fr → l.msgs[i]? = some m → FrameOf w.feat (l.base + i) m fr

theorem Feature.finalFrameID_eq (f : Feature K) (h : f.observes ≠ []) (hlt : f.first + f.observes.length ≤ two32) :
    f.finalFrameID = f.first + f.observes.length - 1 := by
  have : 0 < f.observes.length := List.length_pos_iff.2 h
  unfold Feature.finalFrameID
  have e : f.first + f.observes.length + (two32 - 1) = (f.first + f.observes.length - 1) + two32 := by
    unfold two32; omega
  rw [e, Nat.add_mod_right, Nat.mod_eq_of_lt (by omega)]

/-- Removal of the frame at index `k ≠ 0`, later ids shift down by one: effect on one feature. -/
theorem tracks_shift (l : Log K T) (id : Nat) (f : Feature K) (hlt : l.base + l.msgs.length < two32) (ht : Tracks l id f) (k : Nat) (hk : 0 < k)
    (hkn : k < l.msgs.length) :
    ((FMgr.bodyVal (l.base + k) true f).2 = true → ∀ m ∈ l.msgs.eraseIdx k, report m id = none) ∧
    ((FMgr.bodyVal (l.base + k) true f).2 = false →
      Tracks ⟨l.base, l.msgs.eraseIdx k⟩ id (FMgr.bodyVal (l.base + k) true f).1) := by
  obtain ⟨hne, hlo, hhi, hrep⟩ := ht
  have hlen : 0 < f.observes.length := List.length_pos_iff.2 hne
  have hfin := f.finalFrameID_eq hne (by omega)
  have hel : (l.msgs.eraseIdx k).length = l.msgs.length - 1 := List.length_eraseIdx_of_lt hkn
  unfold FMgr.bodyVal FMgr.body
  simp only [↓reduceIte]
  unfold Feature.removeShift
  by_cases hin : f.first ≤ l.base + k ∧ l.base + k ≤ f.finalFrameID
  · rw [if_pos hin]
    by_cases h1 : f.observes.length = 1
    · rw [if_pos h1]
      refine ⟨fun _ m hm => ?_, by simp⟩
      obtain ⟨i, hi⟩ := List.mem_iff_getElem?.1 hm
      rw [List.getElem?_eraseIdx] at hi
      split at hi
      · rw [hrep i m hi, if_neg (by omega)]
      · rw [hrep _ m hi]
        split
        · exact List.getElem?_eq_none (by omega)
        · rfl
    · rw [if_neg h1]
      have hlt' : l.base + k - f.first < f.observes.length := by omega
      simp only [idx, List.getElem?_eq_getElem hlt', Res.bind_ok]
      refine ⟨by simp, fun _ => ⟨?_, hlo, ?_, ?_⟩⟩
      · rw [← List.length_pos_iff, List.length_eraseIdx_of_lt hlt']; omega
      · simp only [hel, List.length_eraseIdx_of_lt hlt']; omega
      · intro i m hi
        simp only at hi ⊢
        rw [List.getElem?_eraseIdx] at hi
        rw [List.getElem?_eraseIdx]
        split at hi
        · rename_i hik
          rw [hrep i m hi]
          split
          · rw [if_pos (by omega)]
          · rfl
        · rw [hrep _ m hi, if_pos (by omega), if_pos (by omega), if_neg (by omega),
            show l.base + (i + 1) - f.first = l.base + i - f.first + 1 by omega]
  · rw [if_neg hin]
    by_cases hb : l.base + k < f.first
    · rw [if_pos hb]
      refine ⟨by simp, fun _ => ⟨hne, by simp only; omega, by simp only [hel]; omega, ?_⟩⟩
      intro i m hi
      simp only at hi ⊢
      rw [List.getElem?_eraseIdx] at hi
      split at hi
      · rw [hrep i m hi, if_neg (by omega), if_neg (by omega)]
      · rw [hrep _ m hi]
        by_cases hc : f.first ≤ l.base + (i + 1)
        · rw [if_pos hc, if_pos (by omega), show l.base + (i + 1) - f.first = l.base + i - (f.first - 1) by omega]
        · rw [if_neg hc, if_neg (by omega)]
    · rw [if_neg hb]
      refine ⟨by simp, fun _ => ⟨hne, hlo, by simp only [hel]; omega, ?_⟩⟩
      intro i m hi
      simp only at hi ⊢
      rw [List.getElem?_eraseIdx] at hi
      split at hi
      · exact hrep i m hi
      · rw [hrep _ m hi, if_pos (by omega), if_pos (by omega), List.getElem?_eq_none (by omega), List.getElem?_eq_none (by omega)]

/-- Removal of the oldest frame: effect on one feature. -/
theorem tracks_oldest (l : Log K T) (id : Nat) (f : Feature K) (hlt : l.base + l.msgs.length < two32) (ht : Tracks l id f)
    (hn : l.msgs ≠ []) :
    ((FMgr.bodyVal l.base false f).2 = true → ∀ m ∈ l.msgs.eraseIdx 0, report m id = none) ∧
    ((FMgr.bodyVal l.base false f).2 = false → Tracks ⟨l.base + 1, l.msgs.eraseIdx 0⟩ id (FMgr.bodyVal l.base false f).1) := by
  obtain ⟨hne, hlo, hhi, hrep⟩ := ht
  have hlen : 0 < f.observes.length := List.length_pos_iff.2 hne
  have hnl : 0 < l.msgs.length := List.length_pos_iff.2 hn
  have hel : (l.msgs.eraseIdx 0).length = l.msgs.length - 1 := List.length_eraseIdx_of_lt hnl
  have hget : ∀ i, (l.msgs.eraseIdx 0)[i]? = l.msgs[i + 1]? := by
    intro i; rw [List.getElem?_eraseIdx]; simp
  unfold FMgr.bodyVal FMgr.body
  simp only [Bool.false_eq_true, ↓reduceIte]
  unfold Feature.removeFirst
  by_cases hin : f.first = l.base
  · rw [if_pos hin]
    by_cases h1 : f.observes.length = 1
    · rw [if_pos h1]
      refine ⟨fun _ m hm => ?_, by simp⟩
      obtain ⟨i, hi⟩ := List.mem_iff_getElem?.1 hm
      rw [hget] at hi
      rw [hrep _ m hi, if_pos (by omega)]
      exact List.getElem?_eq_none (by omega)
    · rw [if_neg h1]
      simp only [idx, List.getElem?_eq_getElem hlen, Res.bind_ok]
      have ha : add32 f.first 1 = l.base + 1 := by
        unfold add32; rw [hin]; exact Nat.mod_eq_of_lt (by omega)
      refine ⟨by simp, fun _ => ⟨?_, by simp only [ha]; exact le_rfl, ?_, ?_⟩⟩
      · rw [← List.length_pos_iff, List.length_eraseIdx_of_lt hlen]; omega
      · simp only [hel, List.length_eraseIdx_of_lt hlen, ha]; omega
      · intro i m hi
        simp only [ha] at hi ⊢
        rw [hget] at hi
        rw [hrep _ m hi, if_pos (by omega), if_pos (by omega), List.getElem?_eraseIdx]
        simp only [Nat.not_lt_zero, ↓reduceIte]
        rw [show l.base + (i + 1) - f.first = l.base + 1 + i - (l.base + 1) + 1 by omega]
  · rw [if_neg hin]
    refine ⟨by simp, fun _ => ⟨hne, by simp only; omega, by simp only [hel]; omega, ?_⟩⟩
    intro i m hi
    simp only at hi ⊢
    rw [hget] at hi
    rw [hrep _ m hi]
    have : l.base + (i + 1) = l.base + 1 + i := by omega
    rw [this]

/-- Frames after `RemoveFrame`. -/
theorem removeFrame_get (m : FrameMgr K T) (k i : Nat) (hk : k < m.frames.length) :
    (m.removeFrame k).1.frames[i]? =
      if i < k then m.frames[i]? else (m.frames[i + 1]?).map (fun f => if k = 0 then f else { f with id := sub32 f.id 1 }) := by
  unfold FrameMgr.removeFrame
  rw [if_neg (by omega)]
  simp only [List.getElem?_eraseIdx]
  by_cases hk0 : 0 < k
  · rw [if_pos hk0]
    have hl : (m.frames.take k).length = k := by rw [List.length_take]; omega
    split
    · rename_i h
      rw [List.getElem?_append_left (by omega), List.getElem?_take, if_pos h]
    · rw [List.getElem?_append_right (by omega), hl, List.getElem?_map, List.getElem?_drop]
      have h1 : k + (i + 1 - k) = i + 1 := by omega
      rw [h1]
      have h2 : k ≠ 0 := by omega
      simp [h2]
  · have : k = 0 := by omega
    subst this
    simp

theorem removeFrame_len (m : FrameMgr K T) (k : Nat) (hk : k < m.frames.length) :
    (m.removeFrame k).1.frames.length = m.frames.length - 1 := by
  unfold FrameMgr.removeFrame
  rw [if_neg (by omega)]
  simp only
  split
  · rw [List.length_eraseIdx_of_lt] <;>
      simp only [List.length_append, List.length_take, List.length_map, List.length_drop] <;> omega
  · rw [List.length_eraseIdx_of_lt hk]

/-- Common part of the three marginalisations. -/
theorem rel_remove (l : Log K T) (w : Win K T) (h : Rel l w) (k : Nat) (hkn : k < l.msgs.length) (off : Bool) (base' : Nat)
    (hbase : base' = if k = 0 then l.base + 1 else l.base)
    (hf : ∀ id f, Tracks l id f →
      ((FMgr.bodyVal (l.base + k) off f).2 = true → ∀ m ∈ l.msgs.eraseIdx k, report m id = none) ∧
      ((FMgr.bodyVal (l.base + k) off f).2 = false → Tracks ⟨base', l.msgs.eraseIdx k⟩ id (FMgr.bodyVal (l.base + k) off f).1)) :
    ∃ s', w.feat.removeByFrameID (l.base + k) off = .ok s' ∧ Rel ⟨base', l.msgs.eraseIdx k⟩ ⟨s', (w.frm.removeFrame k).1⟩ := by
  obtain ⟨s', h1, h2, h3, h4, h5⟩ := w.feat.removeByFrameID_spec h.wf (l.base + k) off
  obtain ⟨s'', h1', hwf⟩ := w.feat.removeByFrameID_wf h.wf (l.base + k) off
  have : s'' = s' := by rw [h1] at h1'; simpa using h1'.symm
  subst this
  have hel : (l.msgs.eraseIdx k).length = l.msgs.length - 1 := List.length_eraseIdx_of_lt hkn
  have hlt := h.lt
  refine ⟨s'', h1, hwf, ?_, fun m hm => h.good m (List.mem_of_mem_eraseIdx hm), ?_, ?_, ?_, ?_⟩
  · simp only [hel]; rw [hbase]; split <;> omega
  · intro id r hr
    rw [h5] at hr
    cases ho : w.feat.map.lookup id with
    | none => rw [ho] at hr; simp at hr
    | some r' =>
      rw [ho] at hr
      simp only at hr
      split at hr
      · simp at hr
      · rename_i hb
        simp only [Option.some.injEq] at hr
        subst hr
        simp only [h4 id r' ho]
        exact (hf id _ (h.tracks id r' ho)).2 (by simpa using hb)
  · intro id hr m hm
    simp only [h5] at hr
    cases ho : w.feat.map.lookup id with
    | none => exact h.untracked id ho m (List.mem_of_mem_eraseIdx hm)
    | some r' =>
      rw [ho] at hr
      simp only at hr
      split at hr
      · rename_i hb
        exact (hf id _ (h.tracks id r' ho)).1 hb m hm
      · simp at hr
  · simp only [hel]
    rw [removeFrame_len _ _ (by rw [h.len]; exact hkn), h.len]
  · intro i fr m hfr hm
    simp only at hfr hm ⊢
    have hmem : m ∈ l.msgs.eraseIdx k := List.mem_of_getElem? hm
    rw [removeFrame_get _ _ _ (by rw [h.len]; exact hkn)] at hfr
    rw [List.getElem?_eraseIdx] at hm
    have hlink : ∀ id, (if (report m id).isSome = true then w.feat.map.lookup id else none) =
        if (report m id).isSome = true then s''.map.lookup id else none := by
      intro id
      split
      · rename_i hs
        rw [h5]
        cases ho : w.feat.map.lookup id with
        | none => rfl
        | some r' =>
          simp only
          split
          · rename_i hb
            rw [(hf id _ (h.tracks id r' ho)).1 hb m hmem] at hs
            simp at hs
          · rfl
      · rfl
    split at hfr
    · rename_i hik
      rw [if_pos hik] at hm
      obtain ⟨a, b, c, d⟩ := h.frames i fr m hfr hm
      have : k ≠ 0 := by omega
      exact ⟨by rw [a, hbase, if_neg this], b, c, fun id => by rw [d id, hlink id]⟩
    · rename_i hik
      rw [if_neg hik] at hm
      rw [Option.map_eq_some_iff] at hfr
      obtain ⟨fr0, hfr0, rfl⟩ := hfr
      obtain ⟨a, b, c, d⟩ := h.frames (i + 1) fr0 m hfr0 hm
      have hi1 : i + 1 < l.msgs.length := by
        by_contra hc
        rw [List.getElem?_eq_none (by omega)] at hm
        simp at hm
      by_cases hk : k = 0
      · rw [if_pos hk]
        refine ⟨by rw [a, hbase, if_pos hk]; omega, b, c, fun id => by rw [d id, hlink id]⟩
      · rw [if_neg hk]
        refine ⟨?_, b, c, fun id => by rw [d id, hlink id]⟩
        simp only [a, hbase, if_neg hk]
        unfold sub32
        rw [show l.base + (i + 1) + (two32 - 1 % two32) = l.base + i + two32 by unfold two32; omega, Nat.add_mod_right]
        exact Nat.mod_eq_of_lt (by omega)

/-! ### Insertion -/

theorem addFeatures_features (s : FMgr K) (fr : Frame K T) (rs : List Nat) (hn : ((fr.features.map (·.1)) ++ rs.map (fun r => (s.heap r).id)).Nodup) :
    (fr.addFeatures s rs) = { fr with features := fr.features ++ rs.map (fun r => ((s.heap r).id, r)) } := by
  induction rs generalizing fr with
  | nil => simp [Frame.addFeatures]
  | cons r rs ih =>
    have hnot : (s.heap r).id ∉ fr.features.map (·.1) := by
      intro hm
      rw [List.nodup_append] at hn
      exact hn.2.2 _ hm _ (by simp) rfl
    have h1 : fr.addFeature s r = { fr with features := fr.features ++ [((s.heap r).id, r)] } := by
      unfold Frame.addFeature
      simp only
      rw [(lookup_eq_none_iff_keys _ _).2 hnot]
    have h2 : fr.addFeatures s (r :: rs) = (fr.addFeature s r).addFeatures s rs := rfl
    rw [h2, h1, ih]
    · simp
    · simpa using hn

theorem zip_keys {α : Type _} (a : List Nat) (b : List α) (h : a.length = b.length) : (a.zip b).map (·.1) = a := by
  rw [show (fun x : Nat × α => x.1) = Prod.fst from rfl, List.map_fst_zip (by omega)]

/-- `AddNewFeatures` with its length check passed. -/
theorem addNewFeatures_eq (s : FMgr K) (ids : List Nat) (obs : List (Obs K)) (fid : Nat) (h : ids.length = obs.length) :
    s.addNewFeatures ids obs fid = ((s.addAll fid (ids.zip obs)).1, true, (s.addAll fid (ids.zip obs)).2) := by
  unfold FMgr.addNewFeatures
  simp [h]

theorem forall2_map {α β γ : Type _} {R : α → β → Prop} {l1 : List α} {l2 : List β} (f : α → γ) (g : β → γ) (h : List.Forall₂ R l1 l2)
    (hfg : ∀ a b, R a b → f a = g b) : l1.map f = l2.map g := by
  induction h with
  | nil => rfl
  | cons h _ ih => simp [hfg _ _ h, ih]

theorem forall2_lookup {mp : List (Nat × Nat)} {α : Type _} {L : List (Nat × α)} {rs : List Nat} {idOf : Nat → Nat}
    (h : List.Forall₂ (fun (e : Nat × α) r => mp.lookup e.1 = some r) L rs) (hid : ∀ id r, mp.lookup id = some r → idOf r = id) (id : Nat) :
    (rs.map (fun r => (idOf r, r))).lookup id = if (L.lookup id).isSome then mp.lookup id else none := by
  induction h with
  | nil => simp
  | @cons e r L rs h1 h2 ih =>
    obtain ⟨k, o⟩ := e
    simp only [List.map_cons, List.lookup_cons]
    rw [hid _ _ h1]
    by_cases hk : id = k
    · subst hk
      simp [h1]
    · have : (id == k) = false := by simp [hk]
      simp only [this]
      exact ih

theorem report_some_mem {m : FeatMsg K T} {id : Nat} {o : Obs K} (h : report m id = some o) : id ∈ m.ids ∧ o ∈ m.observes :=
  List.of_mem_zip (mem_of_lookup h)

theorem report_of_mem {m : FeatMsg K T} (hl : m.ids.length = m.observes.length) {id : Nat} (h : id ∈ m.ids) : (report m id).isSome = true := by
  unfold report
  rw [lookup_isSome_iff_keys, zip_keys _ _ hl]
  exact h

/-- Frame id of the next message in a log. -/
def WinSpec.Log.nextId (l : Log K T) : Nat := if l.msgs = [] then 1 else l.base + l.msgs.length

theorem setupNew_id (l : Log K T) (w : Win K T) (h : Rel l w) (new : Frame K T) (hn : l.base + l.msgs.length + 1 < two32) :
    (w.frm.setupNew new).id = l.nextId := by
  unfold FrameMgr.setupNew WinSpec.Log.nextId
  have hlen := h.len
  cases hl : w.frm.frames.getLast? with
  | none =>
    rw [List.getLast?_eq_none_iff] at hl
    rw [hl] at hlen
    have : l.msgs = [] := List.length_eq_zero_iff.1 hlen.symm
    simp [this, Frame.initFrame]
  | some b =>
    have hpos : 0 < w.frm.frames.length := by
      cases hf : w.frm.frames with
      | nil => rw [hf] at hl; simp at hl
      | cons _ _ => simp
    have hne : l.msgs ≠ [] := by rw [← List.length_pos_iff]; omega
    rw [List.getLast?_eq_getElem?] at hl
    have hm : l.msgs[w.frm.frames.length - 1]? = some (l.msgs[w.frm.frames.length - 1]'(by omega)) := List.getElem?_eq_getElem _
    have := (h.frames _ _ _ hl hm).id_eq
    simp only [this, hne, ↓reduceIte]
    unfold add32
    rw [show l.base + (w.frm.frames.length - 1) + 1 = l.base + l.msgs.length by omega]
    exact Nat.mod_eq_of_lt (by omega)

theorem setupNew_ts (m : FrameMgr K T) (new : Frame K T) : (m.setupNew new).ts = new.ts := by
  unfold FrameMgr.setupNew
  split <;> rfl

theorem setupNew_features (m : FrameMgr K T) (new : Frame K T) (h : new.features = []) : (m.setupNew new).features = [] := by
  unfold FrameMgr.setupNew
  split
  · rfl
  · exact h

/-- What `insert` stores. -/
theorem insert_eq (w : Win K T) (m : FeatMsg K T) (hl : m.ids.length = m.observes.length) :
    w.insert m =
      { feat := (w.feat.addAll (w.frm.setupNew (Frame.make w.frm.nextAddr m.ts)).id (m.ids.zip m.observes)).1
        frm := { w.frm with
          nextAddr := w.frm.nextAddr + 1
          frames := w.frm.frames ++ [(w.frm.setupNew (Frame.make w.frm.nextAddr m.ts)).addFeatures
            (w.feat.addAll (w.frm.setupNew (Frame.make w.frm.nextAddr m.ts)).id (m.ids.zip m.observes)).1
            (w.feat.addAll (w.frm.setupNew (Frame.make w.frm.nextAddr m.ts)).id (m.ids.zip m.observes)).2] } } := by
  unfold Win.insert FrameMgr.addNewFrame
  have hs : ({ w.frm with nextAddr := w.frm.nextAddr + 1 } : FrameMgr K T).setupNew (Frame.make w.frm.nextAddr m.ts) =
      w.frm.setupNew (Frame.make w.frm.nextAddr m.ts) := rfl
  simp only [hs, addNewFeatures_eq _ _ _ _ hl]
  simp

theorem rel_insert (l : Log K T) (w : Win K T) (h : Rel l w) (m : FeatMsg K T) (hg : GoodMsg l m)
    (hn : l.base + l.msgs.length + 1 < two32) : Rel (l.step (.insert m)) (w.insert m) := by
  obtain ⟨g1, g2, g3, g4⟩ := hg
  rw [insert_eq w m g2, setupNew_id l w h _ hn]
  have hkeys : ((m.ids.zip m.observes).map (·.1)).Nodup := by rw [zip_keys _ _ g2]; exact g1
  obtain ⟨a1, a2, a3, a4, a5⟩ := w.feat.addAll_spec h.wf l.nextId (m.ids.zip m.observes) hkeys
  have hwf := w.feat.addAll_wf h.wf l.nextId (m.ids.zip m.observes)
  revert a1 a2 a3 a4 a5 hwf
  generalize w.feat.addAll l.nextId (m.ids.zip m.observes) = S
  obtain ⟨s', rs⟩ := S
  simp only
  intro a1 a2 a3 a4 a5 hwf
  -- the new log
  obtain ⟨hmsgs, hnext⟩ : (l.step (.insert m)).msgs = l.msgs ++ [m] ∧ (l.step (.insert m)).base + l.msgs.length = l.nextId := by
    unfold Log.step WinSpec.Log.nextId
    by_cases he : l.msgs = [] <;> simp [he]
  have hbase : l.msgs ≠ [] → (l.step (.insert m)).base = l.base := by
    intro he
    unfold Log.step
    simp [he]
  have hnolt : (l.step (.insert m)).base + l.msgs.length + 1 < two32 := by
    by_cases he : l.msgs = []
    · unfold Log.step; simp [he, two32]
    · rw [hbase he]; exact hn
  revert hmsgs hnext hbase hnolt
  generalize l.step (.insert m) = l'
  intro hmsgs hnext hbase hnolt
  have hlen' : l'.msgs.length = l.msgs.length + 1 := by rw [hmsgs]; simp
  have hnot : ∀ id r, w.feat.map.lookup id = some r → l.msgs ≠ [] := by
    intro id r hr he
    obtain ⟨h1, h2, h3, _⟩ := h.tracks id r hr
    have := List.length_pos_iff.2 h1
    rw [he] at h3
    simp only [List.length_nil] at h3
    omega
  have hgetcase : ∀ i m', l'.msgs[i]? = some m' → (i < l.msgs.length ∧ l.msgs[i]? = some m') ∨ (i = l.msgs.length ∧ m' = m) := by
    intro i m' hi
    rw [hmsgs] at hi
    by_cases hc : i < l.msgs.length
    · rw [List.getElem?_append_left hc] at hi; exact .inl ⟨hc, hi⟩
    · have : i < l.msgs.length + 1 := by
        by_contra hcc
        rw [List.getElem?_eq_none (by simp; omega)] at hi
        simp at hi
      have : i = l.msgs.length := by omega
      subst this
      simp only [List.getElem?_concat_length, Option.some.injEq] at hi
      exact .inr ⟨rfl, hi.symm⟩
  have hmap : ∀ id r, w.feat.map.lookup id = some r → s'.map.lookup id = some r := by
    intro id r hr
    cases hrep : (m.ids.zip m.observes).lookup id with
    | none => rw [a1 id hrep]; exact hr
    | some o => exact (a3 id o r hrep hr).1
  refine ⟨hwf, by rw [hlen']; omega, ?_, ?_, ?_, ?_, ?_⟩
  · intro m' hm'
    rw [hmsgs] at hm'
    rcases List.mem_append.1 hm' with hm' | hm'
    · exact h.good m' hm'
    · simp only [List.mem_singleton] at hm'
      subst hm'
      exact g2
  · intro id r hr
    simp only at hr ⊢
    cases hrep : (m.ids.zip m.observes).lookup id with
    | none =>
      rw [a1 id hrep] at hr
      rw [a2 id r hrep hr]
      obtain ⟨t1, t2, t3, t4⟩ := h.tracks id r hr
      have hb := hbase (hnot id r hr)
      refine ⟨t1, by rw [hb]; exact t2, by rw [hb, hlen']; omega, ?_⟩
      intro i m' hi
      rw [hb]
      rcases hgetcase i m' hi with ⟨_, hi⟩ | ⟨rfl, rfl⟩
      · exact t4 i m' hi
      · have : report m' id = none := hrep
        rw [this, if_pos (by omega), List.getElem?_eq_none (by omega)]
    | some o =>
      have hrepm : report m id = some o := hrep
      obtain ⟨hidm, hom⟩ := report_some_mem hrepm
      cases hold : w.feat.map.lookup id with
      | some r0 =>
        obtain ⟨c1, c2⟩ := a3 id o r0 hrep hold
        have : r = r0 := by rw [c1] at hr; simpa using hr.symm
        subst this
        rw [c2]
        have htr := h.tracks id r hold
        obtain ⟨t1, t2, t3, t4⟩ := htr
        have hpos := List.length_pos_iff.2 t1
        have hb := hbase (hnot id r hold)
        -- the track reaches the newest frame
        have hfull : (w.feat.heap r).first + (w.feat.heap r).observes.length = l.base + l.msgs.length := by
          have hex : ∃ m' ∈ l.msgs, id ∈ m'.ids := by
            have hi : (w.feat.heap r).first - l.base < l.msgs.length := by omega
            have hi' := List.getElem?_eq_getElem hi
            have hr' := t4 _ _ hi'
            rw [if_pos (by omega), show l.base + ((w.feat.heap r).first - l.base) - (w.feat.heap r).first = 0 by omega,
              List.getElem?_eq_getElem hpos] at hr'
            exact ⟨_, List.getElem_mem hi, (report_some_mem hr').1⟩
          obtain ⟨last, hlast, hmem⟩ := g4 id hidm hex
          have hlast' := hlast
          rw [List.getLast?_eq_getElem?] at hlast
          have hr' := t4 _ _ hlast
          have hcov : (report last id).isSome = true := report_of_mem (h.good last (List.mem_of_getLast? hlast')) hmem
          rw [hr'] at hcov
          split at hcov
          · by_contra hc
            rw [List.getElem?_eq_none (by omega)] at hcov
            simp at hcov
          · simp at hcov
        have hobs := Feature.addNewObserve_observes (w.feat.heap r) o (g3 o hom)
        have hfst := Feature.addNewObserve_first (w.feat.heap r) o
        refine ⟨by rw [hobs]; simp, by rw [hb, hfst]; exact t2, by rw [hb, hfst, hobs, hlen']; simp; omega, ?_⟩
        intro i m' hi
        rw [hb, hfst, hobs]
        rcases hgetcase i m' hi with ⟨hlt, hi⟩ | ⟨rfl, rfl⟩
        · rw [t4 i m' hi]
          split
          · rw [List.getElem?_append_left (by omega)]
          · rfl
        · rw [hrepm, if_pos (by omega), show l.base + l.msgs.length - (w.feat.heap r).first = (w.feat.heap r).observes.length by omega]
          simp
      | none =>
        obtain ⟨r0, c1, c2⟩ := a4 id o hrep hold
        have : r = r0 := by rw [c1] at hr; simpa using hr.symm
        subst this
        rw [c2]
        refine ⟨by simp [Feature.make], by simp only [Feature.make]; omega, by simp only [Feature.make, hlen']; simp; omega, ?_⟩
        intro i m' hi
        rcases hgetcase i m' hi with ⟨hlt, hi⟩ | ⟨rfl, rfl⟩
        · rw [h.untracked id hold m' (List.mem_of_getElem? hi), if_neg]
          simp only [Feature.make]; omega
        · rw [hrepm, if_pos (by simp only [Feature.make]; omega)]
          simp only [Feature.make]
          rw [hnext]
          simp
  · intro id hr m' hm'
    simp only at hr
    have hold : w.feat.map.lookup id = none := by
      cases ho : w.feat.map.lookup id with
      | none => rfl
      | some r => rw [hmap id r ho] at hr; simp at hr
    have hrep : (m.ids.zip m.observes).lookup id = none := by
      cases ho : (m.ids.zip m.observes).lookup id with
      | none => rfl
      | some o =>
        obtain ⟨r, c1, _⟩ := a4 id o ho hold
        rw [c1] at hr; simp at hr
    rw [hmsgs] at hm'
    rcases List.mem_append.1 hm' with hm' | hm'
    · exact h.untracked id hold m' hm'
    · simp only [List.mem_singleton] at hm'
      subst hm'
      exact hrep
  · simp [hlen', h.len]
  · intro i fr m' hfr hm'
    simp only at hfr ⊢
    rcases hgetcase i m' hm' with ⟨hlt, hi⟩ | ⟨rfl, rfl⟩
    · rw [List.getElem?_append_left (by rw [h.len]; exact hlt)] at hfr
      obtain ⟨f1, f2, f3, f4⟩ := h.frames i fr m' hfr hi
      have hne : l.msgs ≠ [] := by rw [← List.length_pos_iff]; omega
      refine ⟨by rw [f1, hbase hne], f2, f3, fun id => ?_⟩
      rw [f4 id]
      split
      · rename_i hs
        cases ho : w.feat.map.lookup id with
        | none => rw [h.untracked id ho m' (List.mem_of_getElem? hi)] at hs; simp at hs
        | some r => exact (hmap id r ho).symm
      · rfl
    · rw [← h.len, List.getElem?_concat_length] at hfr
      simp only [Option.some.injEq] at hfr
      have hids : (m'.ids.zip m'.observes).map (·.1) = rs.map (fun r => (s'.heap r).id) :=
        forall2_map _ _ a5 (fun e r he => (hwf.ids _ _ he).symm)
      rw [addFeatures_features] at hfr
      · subst hfr
        rw [setupNew_features _ _ rfl]
        refine ⟨?_, ?_, ?_, ?_⟩
        · simp only
          rw [setupNew_id l w h _ hn]
          exact hnext.symm
        · simp only [setupNew_ts]
          rfl
        · simp only [List.nil_append, List.map_map]
          have : rs.map ((fun x => x.1) ∘ fun r => ((s'.heap r).id, r)) = rs.map (fun r => (s'.heap r).id) := rfl
          rw [this, ← hids]
          exact hkeys
        · intro id
          simp only [List.nil_append]
          exact forall2_lookup a5 hwf.ids id
      · rw [setupNew_features _ _ rfl, ← hids]
        simpa using hkeys

/-! ### The simulation -/

/-- The relation holds between the empty log and managers without frames and features. -/
theorem rel_empty (w : Win K T) (hf : w.frm.frames = []) (hm : w.feat.map = []) : Rel Log.empty w := by
  refine ⟨⟨by simp [hm], by simp [hm], by simp [hm], by simp [hm], by simp [hm]⟩, by simp [Log.empty, two32], by simp [Log.empty], by simp [hm],
    by simp [Log.empty], by simp [hf, Log.empty], by simp [hf]⟩

theorem rel_step (l : Log K T) (w : Win K T) (h : Rel l w) (op : WOp K T) (ha : Allowed l op) :
    ∃ w', w.step op = .ok w' ∧ Rel (l.step op) w' := by
  have hlt := h.lt
  have hlen := h.len
  have hback : l.msgs ≠ [] → ∃ b, back w.frm.frames = .ok b ∧ b.id = l.base + (l.msgs.length - 1) := by
    intro hne
    have hpos := List.length_pos_iff.2 hne
    have h1 : w.frm.frames[l.msgs.length - 1]? = some (w.frm.frames[l.msgs.length - 1]'(by omega)) := List.getElem?_eq_getElem _
    have h2 : l.msgs[l.msgs.length - 1]? = some (l.msgs[l.msgs.length - 1]'(by omega)) := List.getElem?_eq_getElem _
    have h3 : w.frm.frames.getLast? = some (w.frm.frames[l.msgs.length - 1]'(by omega)) := by
      rw [← h1, List.getLast?_eq_getElem?, hlen]
    refine ⟨_, ?_, (h.frames _ _ _ h1 h2).id_eq⟩
    unfold back
    rw [h3]
  have hsub : ∀ k, k ≤ l.msgs.length → sub32 w.frm.frames.length k = l.msgs.length - k := by
    intro k hk
    unfold sub32
    rw [hlen, Nat.mod_eq_of_lt (a := k) (by omega), show l.msgs.length + (two32 - k) = l.msgs.length - k + two32 by omega, Nat.add_mod_right]
    exact Nat.mod_eq_of_lt (by omega)
  cases op with
  | insert m => exact ⟨_, rfl, rel_insert l w h m ha.1 ha.2⟩
  | marg p =>
    cases p with
    | noMarg => exact ⟨w, rfl, h⟩
    | margOldest =>
      have hne : l.msgs ≠ [] := ha
      have hpos := List.length_pos_iff.2 hne
      obtain ⟨s', h1, h2⟩ := rel_remove l w h 0 hpos false (l.base + 1) rfl (fun id f ht => tracks_oldest l id f hlt ht hne)
      have h3 : w.frm.frames[0]? = some (w.frm.frames[0]'(by omega)) := List.getElem?_eq_getElem _
      have h4 : l.msgs[0]? = some (l.msgs[0]'(by omega)) := List.getElem?_eq_getElem _
      have hid := (h.frames _ _ _ h3 h4).id_eq
      have hfront : front w.frm.frames = .ok (w.frm.frames[0]'(by omega)) := by
        unfold front
        rw [List.head?_eq_getElem?, h3]
      refine ⟨⟨s', (w.frm.removeFrame 0).1⟩, ?_, ?_⟩
      · simp only [Win.step, Win.marginalize, hfront, Res.bind_ok, hid, h1]
      · have : l.msgs.tail = l.msgs.eraseIdx 0 := by simp
        simp only [Log.step, this]
        exact h2
    | margNewest =>
      have h2len : 2 ≤ l.msgs.length := ha
      have hne : l.msgs ≠ [] := by rw [← List.length_pos_iff]; omega
      obtain ⟨s', h1, h2⟩ := rel_remove l w h (l.msgs.length - 1) (by omega) true l.base (by rw [if_neg (by omega)])
        (fun id f ht => tracks_shift l id f hlt ht _ (by omega) (by omega))
      obtain ⟨b, hb, hid⟩ := hback hne
      refine ⟨⟨s', (w.frm.removeFrame (l.msgs.length - 1)).1⟩, ?_, ?_⟩
      · simp only [Win.step, Win.marginalize, hb, Res.bind_ok, hid, h1, hsub 1 (by omega)]
      · have : l.msgs.dropLast = l.msgs.eraseIdx (l.msgs.length - 1) := by simp [List.eraseIdx_length_sub_one]
        simp only [Log.step, this]
        exact h2
    | margSubnew =>
      have h3len : 3 ≤ l.msgs.length := ha
      have hne : l.msgs ≠ [] := by rw [← List.length_pos_iff]; omega
      obtain ⟨s', h1, h2⟩ := rel_remove l w h (l.msgs.length - 2) (by omega) true l.base (by rw [if_neg (by omega)])
        (fun id f ht => tracks_shift l id f hlt ht _ (by omega) (by omega))
      obtain ⟨b, hb, hid⟩ := hback hne
      have hs : sub32 b.id 1 = l.base + (l.msgs.length - 2) := by
        rw [hid]
        unfold sub32
        rw [show l.base + (l.msgs.length - 1) + (two32 - 1 % two32) = l.base + (l.msgs.length - 2) + two32 by unfold two32; omega,
          Nat.add_mod_right]
        exact Nat.mod_eq_of_lt (by omega)
      refine ⟨⟨s', (w.frm.removeFrame (l.msgs.length - 2)).1⟩, ?_, h2⟩
      simp only [Win.step, Win.marginalize, hb, Res.bind_ok, hs, h1, hsub 2 (by omega)]

theorem rel_run (l : Log K T) (w : Win K T) (h : Rel l w) (ops : List (WOp K T)) (ha : AllowedRun l ops) :
    ∃ w', w.run ops = .ok w' ∧ Rel (l.run ops) w' := by
  induction ops generalizing l w with
  | nil => exact ⟨w, rfl, h⟩
  | cons op ops ih =>
    obtain ⟨w1, h1, h2⟩ := rel_step l w h op ha.1
    obtain ⟨w2, h3, h4⟩ := ih _ _ h2 ha.2
    exact ⟨w2, by simp [Win.run, h1, h3], h4⟩

/-! ### Reading the relation -/

/-- `GetNorm` under the relation. -/
theorem tracks_getNorm (l : Log K T) (id : Nat) (f : Feature K) (ht : Tracks l id f) (hlt : l.base + l.msgs.length < two32)
    (i : Nat) (m : FeatMsg K T) (hm : l.msgs[i]? = some m) (cam : Nat) :
    f.getNorm (l.base + i) cam = (report m id).bind (fun o => o.getNorm cam) := by
  obtain ⟨t1, t2, t3, t4⟩ := ht
  have hi : i < l.msgs.length := by
    by_contra hc
    rw [List.getElem?_eq_none (by omega)] at hm
    simp at hm
  rw [t4 i m hm]
  unfold Feature.getNorm
  by_cases hc : f.first ≤ l.base + i
  · rw [if_pos hc]
    have : sub32 (l.base + i) f.first = l.base + i - f.first := by
      unfold sub32
      rw [Nat.mod_eq_of_lt (a := f.first) (by omega),
        show l.base + i + (two32 - f.first) = l.base + i - f.first + two32 by omega, Nat.add_mod_right]
      exact Nat.mod_eq_of_lt (by omega)
    rw [this]
    cases f.observes[l.base + i - f.first]? <;> rfl
  · rw [if_neg hc]
    have : f.observes.length ≤ sub32 (l.base + i) f.first := by
      unfold sub32
      rw [Nat.mod_eq_of_lt (a := f.first) (by omega), Nat.mod_eq_of_lt (by omega)]
      omega
    rw [List.getElem?_eq_none this]
    rfl

/-- Outside the window nothing is reported, for every `uint32_t` frame id. -/
theorem tracks_getNorm_outside (l : Log K T) (id : Nat) (f : Feature K) (ht : Tracks l id f) (hlt : l.base + l.msgs.length < two32)
    (n : Nat) (hn : n < two32) (hout : n < l.base ∨ l.base + l.msgs.length ≤ n) (cam : Nat) : f.getNorm n cam = none := by
  obtain ⟨t1, t2, t3, t4⟩ := ht
  have hpos := List.length_pos_iff.2 t1
  unfold Feature.getNorm
  have : f.observes.length ≤ sub32 n f.first := by
    unfold sub32
    rw [Nat.mod_eq_of_lt (a := f.first) (by omega)]
    rcases hout with h | h
    · rw [Nat.mod_eq_of_lt (by omega)]; omega
    · rw [show n + (two32 - f.first) = n - f.first + two32 by omega, Nat.add_mod_right, Nat.mod_eq_of_lt (by omega)]; omega
  rw [List.getElem?_eq_none this]

end Vio

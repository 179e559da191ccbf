/-
Every function of the model commutes with an injective change of the ids of the landmarks.
-/
import Verif.Spec.Names
import Verif.Lemmas.Shift

set_option linter.unusedSectionVars false

namespace Vio
open Res

variable {K T : Type} [Add K] [Sub K] [Mul K] [Neg K] [Div K] [Zero K] [One K] [ScalarFn K] [TimeOps T] [TimeCast T K] (ρ : Renaming)

theorem Res.bind_congr_ok {α β : Type _} (x : Res α) (f g : α → Res β) (h : ∀ a, x = .ok a → f a = g a) : x >>= f = x >>= g := by
  cases x
  · exact h _ rfl
  · rfl

theorem lookup_rename {β : Type _} (hρ : ρ.Injective) (k : Nat) (l : List (Nat × β)) : (l.map (fun e => (ρ e.1, e.2))).lookup (ρ k) = l.lookup k := by
  induction l with
  | nil => rfl
  | cons e rest ih =>
    simp only [List.map_cons, List.lookup_cons, ih]
    rw [show (ρ k == ρ e.1) = (k == e.1) by rw [Bool.eq_iff_iff]; simp [Function.Injective.eq_iff hρ], List.lookup_cons]

/-! ### Loader -/

theorem pushFeatures_rename (s : LoaderStatics T) (l : Loader K T) (m : FeatMsg K T) :
    ((l.rename ρ).pushFeatures s (m.rename ρ)).loader = (l.pushFeatures s m).loader.rename ρ ∧ ((l.rename ρ).pushFeatures s (m.rename ρ)).statics = (l.pushFeatures s m).statics := by
  obtain ⟨ids, obs, t⟩ := m
  obtain ⟨fs, is, o, pd⟩ := l
  unfold Loader.pushFeatures
  simp only [FeatMsg.rename, Loader.rename, List.length_map]
  split
  · exact ⟨rfl, rfl⟩
  · refine ⟨?_, rfl⟩
    rcases Bool.eq_false_or_eq_true (TimeOps.isNaN o) with hN | hN <;> simp only [hN, Bool.false_eq_true, ↓reduceIte] <;> split <;> simp

theorem popOne_rename (l : Loader K T) : (l.rename ρ).popOne.loader = l.popOne.loader.rename ρ ∧ (l.rename ρ).popOne.out = l.popOne.out.rename ρ ∧ (l.rename ρ).popOne.ret = l.popOne.ret := by
  obtain ⟨fs, is, o, pd⟩ := l
  unfold Loader.popOne
  cases is <;> cases fs
  · exact ⟨rfl, rfl, rfl⟩
  · exact ⟨rfl, rfl, rfl⟩
  · exact ⟨rfl, rfl, rfl⟩
  · simp only [Loader.rename, List.map_cons, FeatMsg.rename]
    split
    · split <;> exact ⟨rfl, rfl, rfl⟩
    · exact ⟨rfl, rfl, rfl⟩

/-! ### Feature manager -/

namespace FMgr

/-- A feature at a reference. -/
def at' (s : FMgr K) (r : Nat) (f : Feature K) : Feature K := if r < s.next ∧ ρ.dead r = false then f.rename ρ else f

theorem heap_rename (s : FMgr K) (r : Nat) : (s.rename ρ).heap r = s.at' ρ r (s.heap r) := rfl

theorem at'_eq (s : FMgr K) (r : Nat) (f : Feature K) : s.at' ρ r f = { f with id := (s.at' ρ r f).id } := by
  unfold at'; split <;> rfl

theorem put_rename (s : FMgr K) (r : Nat) (f : Feature K) : (s.put r f).rename ρ = (s.rename ρ).put r (s.at' ρ r f) := by
  simp only [rename, put, at', mk.injEq, and_true]
  funext x
  by_cases hx : x = r
  · subst hx; simp
  · simp [hx]

theorem put_solved (s : FMgr K) (r : Nat) (pw : Vec3 K) (st : FStatus) :
    (s.rename ρ).put r ⟨((s.rename ρ).heap r).id, (s.heap r).first, (s.heap r).observes, ((s.rename ρ).heap r).observeNum, pw, st⟩ = (s.put r { s.heap r with pw := pw, status := st }).rename ρ := by
  rw [put_rename, heap_rename]
  congr 1
  unfold at'
  split <;> rfl

theorem at'_of_made (s : FMgr K) (h : s.Made ρ) (e : Nat × Nat) (he : e ∈ s.map) (f : Feature K) : s.at' ρ e.2 f = f.rename ρ := if_pos (h.1 e he)

theorem addNewObserve_at' (s : FMgr K) (r : Nat) (f : Feature K) (o : Obs K) : (s.at' ρ r f).addNewObserve o = s.at' ρ r (f.addNewObserve o) := by
  unfold at' Feature.addNewObserve
  split <;> split <;> rfl

theorem lookup_made (s : FMgr K) (h : s.Made ρ) (id r : Nat) (hl : s.map.lookup id = some r) : r < s.next ∧ ρ.dead r = false := by
  obtain ⟨a, b, e, -⟩ := List.lookup_eq_some_iff.1 hl
  exact h.1 (id, r) (by rw [e]; simp)

theorem addOne_rename (hρ : ρ.Injective) (s : FMgr K) (h : s.Made ρ) (frameID id : Nat) (o : Obs K) :
    (s.rename ρ).addOne frameID (ρ id) o = ((s.addOne frameID id o).1.rename ρ, (s.addOne frameID id o).2) ∧ (s.addOne frameID id o).1.Made ρ ∧ ((s.addOne frameID id o).2 < (s.addOne frameID id o).1.next ∧ ρ.dead (s.addOne frameID id o).2 = false) ∧
      s.next ≤ (s.addOne frameID id o).1.next := by
  unfold addOne
  rw [show (s.rename ρ).map = s.map.map (fun e => (ρ e.1, e.2)) from rfl, lookup_rename ρ hρ]
  cases hl : s.map.lookup id with
  | some r =>
    refine ⟨?_, h, lookup_made ρ s h id r hl, le_rfl⟩
    simp only [put_rename, heap_rename, addNewObserve_at']
  | none =>
    have hd : ρ.dead s.next = false := by
      cases hd : ρ.dead s.next
      · rfl
      · exact absurd (h.2 _ hd) (lt_irrefl _)
    refine ⟨?_, ?_, ⟨Nat.lt_succ_self _, hd⟩, Nat.le_succ _⟩
    · simp only [rename, put, List.map_append, List.map_cons, List.map_nil, Prod.mk.injEq, mk.injEq, and_true]
      funext x
      by_cases hx : x = s.next
      · subst hx; simp [Feature.make, Feature.rename, hd]
      · by_cases hlt : x < s.next
        · simp [hx, hlt, Nat.lt_succ_of_lt hlt]
        · simp [hx, hlt, show ¬ x < s.next + 1 by omega]
    · refine ⟨fun e he => ?_, fun r hr => Nat.lt_succ_of_lt (h.2 r hr)⟩
      rcases List.mem_append.1 he with he | he
      · exact ⟨Nat.lt_succ_of_lt (h.1 e he).1, (h.1 e he).2⟩
      · rw [List.mem_singleton.1 he]; exact ⟨Nat.lt_succ_self _, hd⟩

theorem addAll_rename (hρ : ρ.Injective) (frameID : Nat) (l : List (Nat × Obs K)) : ∀ s : FMgr K, s.Made ρ →
    (s.rename ρ).addAll frameID (l.map (fun e => (ρ e.1, e.2))) = ((s.addAll frameID l).1.rename ρ, (s.addAll frameID l).2) ∧ (s.addAll frameID l).1.Made ρ ∧
      (∀ r ∈ (s.addAll frameID l).2, r < (s.addAll frameID l).1.next ∧ ρ.dead r = false) ∧ s.next ≤ (s.addAll frameID l).1.next := by
  induction l with
  | nil => intro s h; exact ⟨rfl, h, by simp [addAll], le_rfl⟩
  | cons e rest ih =>
    intro s h
    obtain ⟨id, o⟩ := e
    obtain ⟨e1, h1, h2, h3⟩ := addOne_rename ρ hρ s h frameID id o
    obtain ⟨e2, k1, k2, k3⟩ := ih _ h1
    simp only [List.map_cons, addAll, e1, e2]
    refine ⟨trivial, k1, fun r hr => ?_, h3.trans k3⟩
    rcases List.mem_cons.1 hr with rfl | hr
    · exact ⟨h2.1.trans_le k3, h2.2⟩
    · exact k2 r hr

theorem addNewFeatures_rename (hρ : ρ.Injective) (s : FMgr K) (h : s.Made ρ) (ids : List Nat) (obs : List (Obs K)) (frameID : Nat) :
    (s.rename ρ).addNewFeatures (ids.map ρ.id) obs frameID = ((s.addNewFeatures ids obs frameID).1.rename ρ, (s.addNewFeatures ids obs frameID).2) ∧ (s.addNewFeatures ids obs frameID).1.Made ρ ∧
      ∀ r ∈ (s.addNewFeatures ids obs frameID).2.2, r < (s.addNewFeatures ids obs frameID).1.next ∧ ρ.dead r = false := by
  unfold addNewFeatures
  rw [List.length_map]
  split
  · exact ⟨rfl, h, by simp⟩
  · obtain ⟨e1, h1, h2, -⟩ := addAll_rename ρ hρ frameID (ids.zip obs) s h
    have ez : (ids.map ρ.id).zip obs = (ids.zip obs).map (fun e => (ρ e.1, e.2)) := by
      rw [List.zip_map_left]; rfl
    rw [ez, e1]
    exact ⟨rfl, h1, h2⟩

theorem removeShift_rename (f : Feature K) (k : Nat) : (f.rename ρ).removeShift k = (f.removeShift k).mapOk (fun x => (x.1.rename ρ, x.2)) := by
  unfold Feature.removeShift
  simp only [show (f.rename ρ).first = f.first from rfl, show (f.rename ρ).finalFrameID = f.finalFrameID from rfl, show (f.rename ρ).observes = f.observes from rfl, mapOk_ite, mapOk_bind, mapOk_ok]
  rfl

theorem removeFirst_rename (f : Feature K) (k : Nat) : (f.rename ρ).removeFirst k = (f.removeFirst k).mapOk (fun x => (x.1.rename ρ, x.2)) := by
  unfold Feature.removeFirst
  simp only [show (f.rename ρ).first = f.first from rfl, show (f.rename ρ).observes = f.observes from rfl, mapOk_ite, mapOk_bind, mapOk_ok]
  rfl

theorem removeLoop_rename (frameID : Nat) (offset : Bool) (l : List (Nat × Nat)) : ∀ s : FMgr K, (∀ e ∈ l, e.2 < s.next ∧ ρ.dead e.2 = false) →
    removeLoop frameID offset (s.rename ρ) (l.map (fun e => (ρ e.1, e.2))) = (removeLoop frameID offset s l).mapOk (fun x => (x.1.rename ρ, x.2.map ρ.id)) := by
  induction l with
  | nil => intro s h; rfl
  | cons e rest ih =>
    intro s h
    obtain ⟨k, r⟩ := e
    have hr : r < s.next ∧ ρ.dead r = false := h (k, r) (by simp)
    have eh : (s.rename ρ).heap r = (s.heap r).rename ρ := if_pos hr
    cases offset
    all_goals
      simp only [List.map_cons, removeLoop, eh, removeShift_rename, removeFirst_rename, bind_mapOk, mapOk_bind, Bool.false_eq_true, ↓reduceIte]
      refine bind_congr _ _ _ fun x => ?_
      have ep : (s.rename ρ).put r (x.1.rename ρ) = (s.put r x.1).rename ρ := by rw [put_rename, at', if_pos hr]
      rw [ep, ih (s.put r x.1) (fun e he => h e (by simp [he])), bind_mapOk]
      refine bind_congr _ _ _ fun y => ?_
      cases x.2 <;> rfl

theorem removeLoop_same (frameID : Nat) (offset : Bool) (l : List (Nat × Nat)) : ∀ (s s' : FMgr K) (ds : List Nat), removeLoop frameID offset s l = .ok (s', ds) → s'.map = s.map ∧ s'.next = s.next := by
  induction l with
  | nil => intro s s' ds h; cases h; exact ⟨rfl, rfl⟩
  | cons e rest ih =>
    intro s s' ds h
    obtain ⟨k, r⟩ := e
    cases offset
    all_goals
      simp only [removeLoop, Bool.false_eq_true, ↓reduceIte] at h
      obtain ⟨x, -, h⟩ := bind_eq_ok.1 h
      obtain ⟨y, h1, h2⟩ := bind_eq_ok.1 h
      cases h2
      exact ih (s.put r x.1) _ _ h1

theorem removeByFrameID_rename (hρ : ρ.Injective) (s : FMgr K) (h : s.Made ρ) (frameID : Nat) (offset : Bool) :
    (s.rename ρ).removeByFrameID frameID offset = (s.removeByFrameID frameID offset).mapOk (·.rename ρ) := by
  unfold removeByFrameID
  rw [show (s.rename ρ).map = s.map.map (fun e => (ρ e.1, e.2)) from rfl, removeLoop_rename ρ frameID offset s.map s h.1, bind_mapOk, mapOk_bind]
  refine bind_congr _ _ _ fun x => ?_
  simp only [rename, mapOk_ok, Res.ok.injEq, mk.injEq, true_and, List.filter_map]
  congr 1
  refine List.filter_congr fun e _ => ?_
  simp only [Function.comp_def]
  congr 1
  rw [Bool.eq_iff_iff]
  simp [Function.Injective.eq_iff hρ]

theorem removeByFrameID_made (s s' : FMgr K) (h : s.Made ρ) (frameID : Nat) (offset : Bool) (hr : s.removeByFrameID frameID offset = .ok s') : s'.Made ρ := by
  unfold removeByFrameID at hr
  obtain ⟨x, h1, h2⟩ := bind_eq_ok.1 hr
  obtain ⟨e1, e2⟩ := removeLoop_same _ _ _ _ _ _ h1
  cases h2
  refine ⟨fun e he => ?_, fun r hr => ?_⟩
  · show e.2 < x.1.next ∧ _
    rw [e2]
    exact h.1 e (by rw [← e1]; exact List.mem_of_mem_filter he)
  · show r < x.1.next
    rw [e2]
    exact h.2 r hr

end FMgr

/-! ### Window -/

theorem getFrame_rename (m : FrameMgr K T) (id : Nat) : (m.rename ρ).getFrame id = (m.getFrame id).map (·.rename ρ) := by
  unfold FrameMgr.getFrame
  simp only [FrameMgr.rename, List.getLast?_map, List.head?_map]
  cases m.frames.head? <;> cases m.frames.getLast? <;> simp only [Option.map_none, Option.map_some]
  simp only [show ∀ f : Frame K T, (f.rename ρ).id = f.id from fun _ => rfl, List.find?_map]
  split
  · rfl
  · congr 1

theorem idsFrom_rename (l : List (Frame K T)) : ∀ n, FrameMgr.idsFrom n (l.map (·.rename ρ)) = FrameMgr.idsFrom n l := by
  induction l with
  | nil => intro n; rfl
  | cons f rest ih =>
    intro n
    simp only [List.map_cons, FrameMgr.idsFrom, show (f.rename ρ).id = f.id from rfl, ih]

theorem findPrev_rename (a : Nat) (l : List (Frame K T)) : FrameMgr.findPrev a (l.map (·.rename ρ)) = (FrameMgr.findPrev a l).map (Option.map (·.rename ρ)) := by
  induction l with
  | nil => rfl
  | cons f rest ih =>
    simp only [List.map_cons, FrameMgr.findPrev, show (f.rename ρ).addr = f.addr from rfl, ih, List.head?_map]
    split <;> rfl

theorem getNorm_rename (s : FMgr K) (r a b : Nat) : ((s.rename ρ).heap r).getNorm a b = (s.heap r).getNorm a b := by
  rw [FMgr.heap_rename, FMgr.at'_eq]
  rfl

theorem trackStats_rename (hρ : ρ.Injective) (s : FMgr K) (f pre : Frame K T) : FrameMgr.trackStats (s.rename ρ) (f.rename ρ) (pre.rename ρ) = FrameMgr.trackStats s f pre := by
  unfold FrameMgr.trackStats
  rw [show (f.rename ρ).features = f.features.map (fun e => (ρ e.1, e.2)) from rfl, List.foldl_map]
  congr 1
  funext acc e
  unfold FrameMgr.trackStep
  simp only [show (pre.rename ρ).features = pre.features.map (fun e => (ρ e.1, e.2)) from rfl, lookup_rename ρ hρ, getNorm_rename]
  rfl

theorem isKeyFrame_rename (hρ : ρ.Injective) (m : FrameMgr K T) (s : FMgr K) (f : Frame K T) : (m.rename ρ).isKeyFrame (s.rename ρ) (some (f.rename ρ)) = m.isKeyFrame s (some f) := by
  unfold FrameMgr.isKeyFrame
  simp only [show (m.rename ρ).frames = m.frames.map (·.rename ρ) from rfl, ← List.map_reverse, findPrev_rename, show (f.rename ρ).addr = f.addr from rfl]
  cases FrameMgr.findPrev f.addr m.frames.reverse with
  | none => rfl
  | some p =>
    cases p with
    | none => rfl
    | some pre =>
      simp only [Option.map_some, trackStats_rename (T := T) ρ hρ s f pre]
      rfl

theorem addFeatures_rename (hρ : ρ.Injective) (s : FMgr K) (rs : List Nat) (h : ∀ r ∈ rs, r < s.next ∧ ρ.dead r = false) : ∀ f : Frame K T, (f.rename ρ).addFeatures (s.rename ρ) rs = (f.addFeatures s rs).rename ρ := by
  induction rs with
  | nil => intro f; rfl
  | cons r rest ih =>
    intro f
    have e : (f.rename ρ).addFeature (s.rename ρ) r = (f.addFeature s r).rename ρ := by
      unfold Frame.addFeature
      have eh : (s.rename ρ).heap r = (s.heap r).rename ρ := if_pos (h r (by simp))
      simp only [eh, show ((s.heap r).rename ρ).id = ρ (s.heap r).id from rfl, show (f.rename ρ).features = f.features.map (fun e => (ρ e.1, e.2)) from rfl, lookup_rename ρ hρ]
      cases f.features.lookup (s.heap r).id with
      | some _ => rfl
      | none => simp [Frame.rename]
    have := ih (fun r hr => h r (by simp [hr]))
    simp only [Frame.addFeatures, List.foldl_cons, e] at this ⊢
    exact this _

theorem insert_parts (w : Win K T) (m : FeatMsg K T) (new : Frame K T) (hn : new = w.frm.setupNew (.make w.frm.nextAddr m.ts)) (s : FMgr K) (r : Bool) (ch : List Nat)
    (hs : (s, r, ch) = w.feat.addNewFeatures m.ids m.observes new.id) :
    w.insert m = ⟨s, { w.frm with nextAddr := w.frm.nextAddr + 1, frames := (w.frm.frames ++ [new]).dropLast ++ [new.addFeatures s ch] }⟩ := by
  subst hn
  obtain ⟨rfl, h⟩ := Prod.mk.injEq .. ▸ hs
  obtain ⟨rfl, rfl⟩ := Prod.mk.injEq .. ▸ h
  rfl

theorem insert_rename (hρ : ρ.Injective) (w : Win K T) (hw : w.feat.Made ρ) (m : FeatMsg K T) : (w.rename ρ).insert (m.rename ρ) = (w.insert m).rename ρ ∧ (w.insert m).feat.Made ρ := by
  generalize hn : w.frm.setupNew (.make w.frm.nextAddr m.ts) = new
  have e : (w.rename ρ).frm.setupNew (.make (w.rename ρ).frm.nextAddr (m.rename ρ).ts) = new.rename ρ := by
    rw [← hn]
    unfold FrameMgr.setupNew
    simp only [show (w.rename ρ).frm.frames = w.frm.frames.map (·.rename ρ) from rfl, List.getLast?_map]
    cases w.frm.frames.getLast? <;> rfl
  obtain ⟨e1, e2, e3⟩ := FMgr.addNewFeatures_rename ρ hρ w.feat hw m.ids m.observes new.id
  generalize hs : w.feat.addNewFeatures m.ids m.observes new.id = x at e1 e2 e3
  obtain ⟨s, r, ch⟩ := x
  rw [insert_parts w m new hn.symm s r ch hs.symm, insert_parts (w.rename ρ) (m.rename ρ) (new.rename ρ) e.symm (s.rename ρ) r ch e1.symm]
  refine ⟨?_, e2⟩
  rw [addFeatures_rename ρ hρ s ch e3]
  simp [Win.rename, FrameMgr.rename]

theorem renumber_rename (d : Nat → Nat) (l : List (Frame K T)) (i : Nat) : (l.map (·.rename ρ)).take i ++ ((l.map (·.rename ρ)).drop i).map (fun f : Frame K T => { f with id := d f.id }) =
    (l.take i ++ (l.drop i).map (fun f : Frame K T => { f with id := d f.id })).map (fun f : Frame K T => f.rename ρ) := by
  simp only [List.map_append, List.map_take, List.map_drop, List.map_map]
  rfl

theorem removeFrame_rename (m : FrameMgr K T) (i : Nat) : (m.rename ρ).removeFrame i = ((m.removeFrame i).1.rename ρ, (m.removeFrame i).2) := by
  unfold FrameMgr.removeFrame
  simp only [show (m.rename ρ).frames = m.frames.map (·.rename ρ) from rfl, List.length_map]
  split
  · rfl
  · split
    · rw [renumber_rename ρ (fun n => sub32 n 1) m.frames i, List.eraseIdx_map]
      simp only [FrameMgr.rename]
    · simp [FrameMgr.rename, List.eraseIdx_map]

theorem marginalize_rename (hρ : ρ.Injective) (w : Win K T) (hw : w.feat.Made ρ) (p : MargPolicy) : (w.rename ρ).marginalize p = (w.marginalize p).mapOk (·.rename ρ) := by
  cases p <;> simp only [Win.marginalize, mapOk_bind, mapOk_ok, show (w.rename ρ).frm = w.frm.rename ρ from rfl, show (w.rename ρ).feat = w.feat.rename ρ from rfl,
    show (w.frm.rename ρ).frames = w.frm.frames.map (·.rename ρ) from rfl, front_map, back_map, bind_mapOk, removeFrame_rename, List.length_map, show ∀ f : Frame K T, (f.rename ρ).id = f.id from fun _ => rfl,
    FMgr.removeByFrameID_rename ρ hρ w.feat hw] <;> rfl

theorem marginalize_made (w w' : Win K T) (hw : w.feat.Made ρ) (p : MargPolicy) (h : w.marginalize p = .ok w') : w'.feat.Made ρ := by
  cases p
  case noMarg => cases h; exact hw
  all_goals
    simp only [Win.marginalize] at h
    obtain ⟨a, -, h⟩ := bind_eq_ok.1 h
    obtain ⟨f, h1, h2⟩ := bind_eq_ok.1 h
    cases h2
    exact FMgr.removeByFrameID_made ρ _ _ hw _ _ h1

/-! ### Update -/

namespace Update

theorem decidePolicy_rename (hρ : ρ.Injective) (w : Win K T) : decidePolicy (w.rename ρ) = decidePolicy w := by
  unfold decidePolicy FrameMgr.needMarginalize
  simp only [show (w.rename ρ).frm = w.frm.rename ρ from rfl, show (w.rename ρ).feat = w.feat.rename ρ from rfl, show (w.frm.rename ρ).frames = w.frm.frames.map (·.rename ρ) from rfl, ← List.map_reverse,
    List.length_map, show (w.frm.rename ρ).maxWindowSize = w.frm.maxWindowSize from rfl]
  split
  · cases w.frm.frames.reverse with
    | nil => rfl
    | cons a l =>
      cases l with
      | nil => rfl
      | cons b l => simp only [List.map_cons, isKeyFrame_rename ρ hρ w.frm w.feat b]
  · rfl

theorem constructCov_rename (s : PropQueue K T) (m : FrameMgr K T) : constructCov s (m.rename ρ) = constructCov s m := by
  unfold constructCov
  simp only [show (m.rename ρ).frames = m.frames.map (·.rename ρ) from rfl, List.length_map]
  rfl

theorem setBack_rename (l : List (Frame K T)) (st : Motion K) : setBack (l.map (·.rename ρ)) st = (setBack l st).map (·.rename ρ) := by
  unfold setBack
  rw [List.getLast?_map]
  cases l.getLast? with
  | none => rfl
  | some b => simp [Frame.rename]

theorem updateNewest_rename (s : PropQueue K T) (m : FrameMgr K T) : updateNewest s (m.rename ρ) = (updateNewest s m).mapOk (fun x => (x.1, x.2.rename ρ)) := by
  unfold updateNewest
  simp only [show (m.rename ρ).frames = m.frames.map (·.rename ρ) from rfl, List.isEmpty_map, mapOk_ite, mapOk_bind, mapOk_ok, setBack_rename]
  rfl

theorem obsViews_rename (m : FrameMgr K T) (f : Frame K T) (l : List (Nat × Vec2 K)) : obsViews (m.rename ρ) (f.rename ρ) l = obsViews m f l := by
  induction l with
  | nil => rfl
  | cons e rest ih =>
    simp only [obsViews, ih]
    rfl

theorem featViews_rename (m : FrameMgr K T) (first : Nat) (l : List (Obs K)) : ∀ i, featViews (m.rename ρ) first i l = featViews m first i l := by
  induction l with
  | nil => intro i; rfl
  | cons o rest ih =>
    intro i
    simp only [featViews, ih, getFrame_rename]
    cases m.getFrame (add32 i first) with
    | none => rfl
    | some f => simp only [Option.map_some, deref, bind_ok, obsViews_rename]

theorem triangulate_rename (ext : Ext K) (w : Win K T) (r : Nat) : triangulate ext (w.rename ρ) r = (triangulate ext w r).mapOk (fun x => (x.1, x.2.rename ρ)) := by
  unfold triangulate
  have eh : (w.rename ρ).feat.heap r = w.feat.at' ρ r (w.feat.heap r) := rfl
  have e1 : ((w.rename ρ).feat.heap r).first = (w.feat.heap r).first := by rw [eh, FMgr.at'_eq]
  have e2 : ((w.rename ρ).feat.heap r).observes = (w.feat.heap r).observes := by rw [eh, FMgr.at'_eq]
  have e3 : ((w.rename ρ).feat.heap r).pw = (w.feat.heap r).pw := by rw [eh, FMgr.at'_eq]
  simp only [e1, e2, e3, show (w.rename ρ).frm = w.frm.rename ρ from rfl, featViews_rename, mapOk_bind, mapOk_ok]
  refine bind_congr _ _ _ fun vs => bind_congr _ _ _ fun x => ?_
  obtain ⟨good, pw⟩ := x
  exact congrArg (fun s => Res.ok (good, (⟨s, w.frm.rename ρ⟩ : Win K T))) (FMgr.put_solved ρ w.feat r pw _)

theorem triangulate_made (ext : Ext K) (w w' : Win K T) (r : Nat) (g : Bool) (hw : w.feat.Made ρ) (h : triangulate ext w r = .ok (g, w')) : w'.feat.Made ρ := by
  unfold triangulate at h
  obtain ⟨vs, -, h⟩ := bind_eq_ok.1 h
  obtain ⟨x, -, h⟩ := bind_eq_ok.1 h
  cases h
  exact hw

theorem selectLoop_rename (env : Env K) (l : List (Nat × Nat)) : ∀ (w : Win K T) (good : List (Nat × Nat)) (pos : Nat),
    selectLoop env (w.rename ρ) good pos (l.map (fun e => (ρ e.1, e.2))) = (selectLoop env w good pos l).mapOk (fun x => (x.1.rename ρ, x.2)) := by
  induction l with
  | nil => intro w good pos; rfl
  | cons e rest ih =>
    intro w good pos
    simp only [List.map_cons, selectLoop, triangulate_rename, bind_mapOk, mapOk_bind, mapOk_ite, ih]

theorem selectLoop_made (env : Env K) (l : List (Nat × Nat)) : ∀ (w : Win K T) (good : List (Nat × Nat)) (pos : Nat) (x : Win K T × List (Nat × Nat) × Nat), w.feat.Made ρ →
    selectLoop env w good pos l = .ok x → x.1.feat.Made ρ := by
  induction l with
  | nil => intro w good pos x hw h; cases h; exact hw
  | cons e rest ih =>
    intro w good pos x hw h
    simp only [selectLoop] at h
    obtain ⟨y, h1, h⟩ := bind_eq_ok.1 h
    have := triangulate_made ρ _ _ _ _ _ hw h1
    split at h
    · exact ih _ _ _ _ this h
    · exact ih _ _ _ _ this h

theorem selectGood_rename (env : Env K) (n : Nat) (w : Win K T) (pos : Nat) : selectGood env n (w.rename ρ) pos = (selectGood env n w pos).mapOk (fun x => (x.1.rename ρ, x.2)) := by
  unfold selectGood
  simp only [show (w.rename ρ).frm.frames = w.frm.frames.map (·.rename ρ) from rfl, back_map, bind_mapOk, mapOk_bind, show ∀ f : Frame K T, (f.rename ρ).features = f.features.map (fun e => (ρ e.1, e.2)) from fun _ => rfl,
    selectLoop_rename]
  rfl

theorem selectGood_made (env : Env K) (n : Nat) (w : Win K T) (pos : Nat) (x : Win K T × List Nat × Nat) (hw : w.feat.Made ρ) (h : selectGood env n w pos = .ok x) : x.1.feat.Made ρ := by
  unfold selectGood at h
  obtain ⟨f, -, h⟩ := bind_eq_ok.1 h
  obtain ⟨y, h1, h⟩ := bind_eq_ok.1 h
  cases h
  exact selectLoop_made ρ env _ _ _ _ _ hw h1

theorem measNorms_rename (m : FrameMgr K T) (f : Frame K T) (i a b : Nat) (pw : Vec3 K) (l : List (Nat × Vec2 K)) : ∀ row M,
    measNorms (m.rename ρ) (f.rename ρ) i a b pw row M l = measNorms m f i a b pw row M l := by
  induction l with
  | nil => intro row M; rfl
  | cons e rest ih =>
    intro row M
    simp only [measNorms, ih]
    rfl

theorem measLoop_rename (m : FrameMgr K T) (ft : Feature K) (l : List (Obs K)) : ∀ i row M, measLoop (m.rename ρ) ft i row M l = measLoop m ft i row M l := by
  induction l with
  | nil => intro i row M; rfl
  | cons o rest ih =>
    intro i row M
    simp only [measLoop, getFrame_rename]
    cases m.getFrame (add32 i ft.first) with
    | none => rfl
    | some f =>
      simp only [Option.map_some, show (m.rename ρ).frames = m.frames.map (·.rename ρ) from rfl, front_map, back_map, bind_mapOk, measNorms_rename, ih]
      rfl

theorem measLoop_at' (m : FrameMgr K T) (s : FMgr K) (r : Nat) (ft : Feature K) (l : List (Obs K)) : ∀ i row M, measLoop m (s.at' ρ r ft) i row M l = measLoop m ft i row M l := by
  have e1 : (s.at' ρ r ft).first = ft.first := by rw [FMgr.at'_eq]
  have e2 : (s.at' ρ r ft).pw = ft.pw := by rw [FMgr.at'_eq]
  induction l with
  | nil => intro i row M; rfl
  | cons o rest ih =>
    intro i row M
    simp only [measLoop, e1, e2, ih]

theorem measFeature_rename (ext : Ext K) (m : FrameMgr K T) (s : FMgr K) (r : Nat) : measFeature ext (m.rename ρ) ((s.rename ρ).heap r) = measFeature ext m (s.heap r) := by
  have e : hxCols (m.rename ρ) = hxCols m := by simp only [hxCols, FrameMgr.rename, List.length_map]
  have e1 : (s.at' ρ r (s.heap r)).observes = (s.heap r).observes := by rw [FMgr.at'_eq]
  have e2 : (s.at' ρ r (s.heap r)).observeNum = (s.heap r).observeNum := by rw [FMgr.at'_eq]
  unfold measFeature
  rw [FMgr.heap_rename, measLoop_rename ρ, measLoop_at', e, e1, e2]

theorem subRows_rename (s : FMgr K) (r : Nat) : subRows ((s.rename ρ).heap r) = subRows (s.heap r) := by
  rw [FMgr.heap_rename, FMgr.at'_eq]
  rfl

theorem stackLoop_rename (ext : Ext K) (w : Win K T) (l : List Nat) : ∀ n M, stackLoop ext (w.rename ρ) n M l = stackLoop ext w n M l := by
  have e : hxCols (w.frm.rename ρ) = hxCols w.frm := by simp only [hxCols, FrameMgr.rename, List.length_map]
  induction l with
  | nil => intro n M; rfl
  | cons r rest ih =>
    intro n M
    simp only [stackLoop, show (w.rename ρ).frm = w.frm.rename ρ from rfl, show (w.rename ρ).feat = w.feat.rename ρ from rfl, measFeature_rename, subRows_rename, ih, e]

theorem measure_rename (env : Env K) (w : Win K T) (fs : List Nat) : Update.measure env (w.rename ρ) fs = Update.measure env w fs := by
  have e : hxCols (w.frm.rename ρ) = hxCols w.frm := by simp only [hxCols, FrameMgr.rename, List.length_map]
  have e2 : hxRows (w.rename ρ) fs = hxRows w fs := by
    unfold hxRows
    simp only [show (w.rename ρ).feat = w.feat.rename ρ from rfl, subRows_rename]
  unfold Update.measure
  rw [stackLoop_rename ρ, show hxCols (w.rename ρ).frm = hxCols w.frm from e, e2]

theorem corrFrames_rename (dx : DMat K) (b o : Nat) (st : Motion K) (l : List (Frame K T)) : ∀ i,
    corrFrames dx b o st i (l.map (·.rename ρ)) = (corrFrames dx b o st i l).mapOk (List.map (·.rename ρ)) := by
  induction l with
  | nil => intro i; rfl
  | cons f rest ih =>
    intro i
    simp only [List.map_cons, corrFrames, show (f.rename ρ).id = f.id from rfl, ih, mapOk_ite, mapOk_bind, bind_mapOk, mapOk_ok]
    rfl

theorem correct_rename (dx : DMat K) (s : PropQueue K T) (m : FrameMgr K T) : correct dx s (m.rename ρ) = (correct dx s m).mapOk (fun x => (x.1, x.2.rename ρ)) := by
  unfold correct
  cases s.items with
  | nil => rfl
  | cons i rest =>
    simp only [show (m.rename ρ).frames = m.frames.map (·.rename ρ) from rfl, back_map, corrFrames_rename, bind_mapOk, mapOk_bind, mapOk_ok]
    rfl

theorem expand_rename (junk : Nat → Nat → K) (m : FrameMgr K T) (c : DMat K) : expand junk (m.rename ρ) c = expand junk m c := by
  simp only [expand, FrameMgr.rename, List.length_map]

theorem reduce_rename (junk : Nat → Nat → K) (p : MargPolicy) (m : FrameMgr K T) (c : DMat K) : reduce junk p (m.rename ρ) c = reduce junk p m c := by
  simp only [reduce, FrameMgr.rename, List.length_map]

theorem finish_rename (env : Env K) (g : Vec3 K) (u : Upd K T) : finish env g (u.rename ρ) = (finish env g u).mapOk (fun x => (x.1, x.2.rename ρ)) := by
  unfold finish
  simp only [show (u.rename ρ).w.frm = u.w.frm.rename ρ from rfl, show (u.rename ρ).q = u.q from rfl, expand_rename, reduce_rename, mapOk_bind, mapOk_ok]
  rfl

theorem finish_window (env : Env K) (g : Vec3 K) (u : Upd K T) (x : Bool × Upd K T) (h : finish env g u = .ok x) : x.2.w = u.w := by
  unfold finish at h
  obtain ⟨_, -, h⟩ := bind_eq_ok.1 h
  obtain ⟨_, -, h⟩ := bind_eq_ok.1 h
  obtain ⟨_, -, h⟩ := bind_eq_ok.1 h
  cases h
  rfl

theorem updateState_rename (env : Env K) (noise : K) (u : Upd K T) (h : DMat K) : updateState env noise (u.rename ρ) h = (updateState env noise u h).mapOk (·.rename ρ) := by
  unfold updateState
  simp only [show (u.rename ρ).w.frm = u.w.frm.rename ρ from rfl, show (u.rename ρ).q = u.q from rfl, correct_rename, bind_mapOk, mapOk_bind]
  rfl

theorem updateState_feat (env : Env K) (noise : K) (u u' : Upd K T) (m : DMat K) (h : updateState env noise u m = .ok u') : u'.w.feat = u.w.feat := by
  unfold updateState at h
  obtain ⟨_, -, h⟩ := bind_eq_ok.1 h
  obtain ⟨_, -, h⟩ := bind_eq_ok.1 h
  cases h
  rfl

theorem update_rename (hρ : ρ.Injective) (env : Env K) (noise : K) (n : Nat) (g : Vec3 K) (u : Upd K T) (ts thr : T) :
    update env noise n g (u.rename ρ) ts thr = (update env noise n g u ts thr).mapOk (fun x => (x.1, x.2.rename ρ)) := by
  unfold update
  simp only [show (u.rename ρ).q = u.q from rfl, mapOk_ite]
  congr 1
  rw [mapOk_bind]
  have e : decidePolicy (u.rename ρ).w = decidePolicy u.w := decidePolicy_rename ρ hρ u.w
  have e2 : constructCov (u.q.resetOrigin ts thr).1 (u.rename ρ).w.frm = constructCov (u.q.resetOrigin ts thr).1 u.w.frm := constructCov_rename ρ _ _
  have e3 : updateNewest (u.q.resetOrigin ts thr).1 (u.rename ρ).w.frm = (updateNewest (u.q.resetOrigin ts thr).1 u.w.frm).mapOk (fun x => (x.1, x.2.rename ρ)) := updateNewest_rename ρ _ _
  rw [e]
  refine bind_congr _ _ _ fun policy => ?_
  rw [e2, mapOk_bind]
  refine bind_congr _ _ _ fun gc => ?_
  obtain ⟨good, c⟩ := gc
  dsimp only
  cases good
  · rfl
  · simp only [Bool.not_true, Bool.false_eq_true, ↓reduceIte]
    rw [e3, bind_mapOk, mapOk_bind]
    refine bind_congr _ _ _ fun gm => ?_
    obtain ⟨good, m⟩ := gm
    dsimp only
    cases good
    · rfl
    · simp only [Bool.not_true, Bool.false_eq_true, ↓reduceIte]
      have e4 := selectGood_rename ρ env n { u.w with frm := m } u.pos
      rw [show ({ (u.rename ρ).w with frm := m.rename ρ } : Win K T) = Win.rename ρ { u.w with frm := m } from rfl, show (u.rename ρ).pos = u.pos from rfl, e4, bind_mapOk, mapOk_bind]
      refine bind_congr _ _ _ fun x => ?_
      obtain ⟨w, fs, pos⟩ := x
      dsimp only
      split
      · exact finish_rename ρ env g { u with q := (u.q.resetOrigin ts thr).1, w := w, policy := policy, cov := c, features := fs, pos := pos }
      · rw [measure_rename ρ, mapOk_bind]
        refine bind_congr _ _ _ fun h => ?_
        cases h with
        | none => rfl
        | some hxr =>
          dsimp only
          have e5 := updateState_rename ρ env noise { u with q := (u.q.resetOrigin ts thr).1, w := w, policy := policy, cov := c, features := fs, pos := pos } hxr
          refine (congrArg (· >>= fun u => finish env g u) e5).trans ?_
          simp only [bind_mapOk, mapOk_bind, finish_rename]

theorem update_made (env : Env K) (noise : K) (n : Nat) (g : Vec3 K) (u : Upd K T) (ts thr : T) (x : Bool × Upd K T) (hw : u.w.feat.Made ρ) (h : update env noise n g u ts thr = .ok x) : x.2.w.feat.Made ρ := by
  unfold update at h
  simp only at h
  split at h
  · cases h; exact hw
  · obtain ⟨policy, -, h⟩ := bind_eq_ok.1 h
    obtain ⟨c, -, h⟩ := bind_eq_ok.1 h
    split at h
    · cases h; exact hw
    · obtain ⟨m, -, h⟩ := bind_eq_ok.1 h
      split at h
      · cases h; exact hw
      · obtain ⟨y, h1, h⟩ := bind_eq_ok.1 h
        have hy := selectGood_made ρ env n _ _ _ (show ({ u.w with frm := m.2 } : Win K T).feat.Made ρ from hw) h1
        split at h
        · rw [finish_window _ _ _ _ h]; exact hy
        · obtain ⟨hm, -, h⟩ := bind_eq_ok.1 h
          cases hm with
          | none => cases h; exact hy
          | some hxr =>
            obtain ⟨u', h2, h⟩ := bind_eq_ok.1 h
            rw [finish_window _ _ _ _ h, updateState_feat _ _ _ _ _ h2]
            exact hy

end Update

/-! ### Backend -/

namespace Backend

theorem triMultiView_rename (ext : Ext K) (f : Frame K T) (l : List (Nat × Nat)) : ∀ w : Win K T,
    triMultiView ext (f.rename ρ) (w.rename ρ) (l.map (fun e => (ρ e.1, e.2))) = (triMultiView ext f w l).mapOk (·.rename ρ) := by
  induction l with
  | nil => intro w; rfl
  | cons e rest ih =>
    intro w
    obtain ⟨k, r⟩ := e
    have eh : (w.rename ρ).feat.heap r = w.feat.at' ρ r (w.feat.heap r) := rfl
    have e1 : ((w.rename ρ).feat.heap r).first = (w.feat.heap r).first := by rw [eh, FMgr.at'_eq]
    have e2 : ((w.rename ρ).feat.heap r).observes = (w.feat.heap r).observes := by rw [eh, FMgr.at'_eq]
    have e3 : ((w.rename ρ).feat.heap r).pw = (w.feat.heap r).pw := by rw [eh, FMgr.at'_eq]
    simp only [List.map_cons, triMultiView, e1, e2, e3, show (w.rename ρ).frm = w.frm.rename ρ from rfl, show (f.rename ρ).id = f.id from rfl, Update.obsViews_rename, mapOk_bind, ← ih]
    refine bind_congr _ _ _ fun o => bind_congr _ _ _ fun vs => bind_congr _ _ _ fun x => ?_
    obtain ⟨good, pw⟩ := x
    exact congrArg (fun s => triMultiView ext (f.rename ρ) (⟨s, w.frm.rename ρ⟩ : Win K T) _) (FMgr.put_solved ρ w.feat r pw _)

theorem triMultiView_made (ext : Ext K) (f : Frame K T) (l : List (Nat × Nat)) : ∀ w w' : Win K T, w.feat.Made ρ → triMultiView ext f w l = .ok w' → w'.feat.Made ρ := by
  induction l with
  | nil => intro w w' hw h; cases h; exact hw
  | cons e rest ih =>
    intro w w' hw h
    simp only [triMultiView] at h
    obtain ⟨_, -, h⟩ := bind_eq_ok.1 h
    obtain ⟨_, -, h⟩ := bind_eq_ok.1 h
    obtain ⟨_, -, h⟩ := bind_eq_ok.1 h
    exact ih _ _ (by exact hw) h

theorem framePoints_rename (s : FMgr K) (f : Frame K T) : framePoints (s.rename ρ) (f.rename ρ) = framePoints s f := by
  unfold framePoints
  rw [show (f.rename ρ).features = f.features.map (fun e => (ρ e.1, e.2)) from rfl, List.filterMap_map]
  congr 1
  funext e
  have e1 : ((s.rename ρ).heap e.2).status = (s.heap e.2).status := by rw [FMgr.heap_rename, FMgr.at'_eq]
  have e2 : ((s.rename ρ).heap e.2).pw = (s.heap e.2).pw := by rw [FMgr.heap_rename, FMgr.at'_eq]
  simp only [Function.comp_def, e1, e2, getNorm_rename]
  rfl

theorem estimateFramePose_rename (ext : Ext K) (prm : PnpParam K) (w : Win K T) (f : Frame K T) :
    estimateFramePose ext prm (w.rename ρ) (f.rename ρ) = (estimateFramePose ext prm w f).mapOk (fun x => (x.1, x.2.rename ρ)) := by
  unfold estimateFramePose
  simp only [show (w.rename ρ).feat = w.feat.rename ρ from rfl, framePoints_rename, mapOk_ite, mapOk_bind, mapOk_ok]
  rfl

theorem initPropagator_rename (g : Vec3 K) (b : Backend K T) (st : Motion K) (t : T) : initPropagator g (b.rename ρ) st t = (initPropagator g b st t).mapOk (·.rename ρ) := by
  unfold initPropagator
  simp only [mapOk_bind]
  rfl

theorem initPropagator_window (g : Vec3 K) (b b' : Backend K T) (st : Motion K) (t : T) (h : initPropagator g b st t = .ok b') : b'.u.w = b.u.w := by
  unfold initPropagator at h
  obtain ⟨_, -, h⟩ := bind_eq_ok.1 h
  obtain ⟨_, -, h⟩ := bind_eq_ok.1 h
  cases h
  rfl

theorem shrink_rename (hρ : ρ.Injective) (n : Nat) : ∀ w : Win K T, w.feat.Made ρ → shrink n (w.rename ρ) = (shrink n w).mapOk (·.rename ρ) := by
  induction n with
  | zero => intro w _; rfl
  | succ n ih =>
    intro w hw
    simp only [shrink, show (w.rename ρ).frm.frames = w.frm.frames.map (·.rename ρ) from rfl, List.length_map, marginalize_rename ρ hρ w hw, mapOk_ite, mapOk_bind, bind_mapOk]
    congr 1
    exact Res.bind_congr_ok _ _ _ fun w' h => ih w' (marginalize_made ρ w w' hw _ h)

theorem shrink_made (n : Nat) : ∀ w w' : Win K T, w.feat.Made ρ → shrink n w = .ok w' → w'.feat.Made ρ := by
  induction n with
  | zero => intro w w' hw h; cases h; exact hw
  | succ n ih =>
    intro w w' hw h
    simp only [shrink] at h
    split at h
    · obtain ⟨w1, h1, h⟩ := bind_eq_ok.1 h
      exact ih w1 w' (marginalize_made ρ w w1 hw _ h1) h
    · cases h; exact hw

theorem shrunk_rename (hρ : ρ.Injective) (b : Backend K T) (hb : b.u.w.feat.Made ρ) : (b.rename ρ).shrunk = b.shrunk.mapOk (·.rename ρ) := by
  unfold shrunk
  have e := shrink_rename ρ hρ b.u.w.frm.frames.length b.u.w hb
  have el : (b.rename ρ).u.w.frm.frames.length = b.u.w.frm.frames.length := List.length_map _
  rw [el, show (b.rename ρ).u.w = b.u.w.rename ρ from rfl, e, bind_mapOk, mapOk_bind]
  rfl

theorem shrunk_made (b b' : Backend K T) (hb : b.u.w.feat.Made ρ) (h : b.shrunk = .ok b') : b'.u.w.feat.Made ρ := by
  unfold shrunk at h
  obtain ⟨w, h1, h⟩ := bind_eq_ok.1 h
  cases h
  exact shrink_made ρ _ _ _ hb h1

theorem initialise_rename (env : Env K) (g : Vec3 K) (b : Backend K T) : initialise env g (b.rename ρ) = (initialise env g b).mapOk (fun x => (x.1, x.2.rename ρ)) := by
  unfold initialise
  rw [show (b.rename ρ).u.w.frm.frames = b.u.w.frm.frames.map (·.rename ρ) from rfl]
  match b.u.w.frm.frames with
  | [] => rfl
  | [_] => rfl
  | fi :: fj :: rest =>
    simp only [List.map_cons, show ∀ f : Frame K T, (f.rename ρ).ts = f.ts from fun _ => rfl, show (b.rename ρ).att = b.att from rfl, show (b.rename ρ).loader.imuPeriod = b.loader.imuPeriod from rfl]
    split
    · rfl
    · rw [mapOk_bind]
      refine bind_congr _ _ _ fun a => ?_
      cases a with
      | none => rfl
      | some q =>
        dsimp only
        have e1 := triMultiView_rename ρ env.ext { fi with q := q, p := 0 } fi.features (setFrames b.u.w { fi with q := q, p := 0 } fj rest)
        refine (congrArg (· >>= _) e1).trans ?_
        rw [bind_mapOk, mapOk_bind]
        refine bind_congr _ _ _ fun w => ?_
        have e2 := estimateFramePose_rename ρ env.ext b.pnp w { fj with q := q, p := 0 }
        refine (congrArg (· >>= _) e2).trans ?_
        rw [bind_mapOk, mapOk_bind]
        refine bind_congr _ _ _ fun x => ?_
        obtain ⟨good, fj'⟩ := x
        cases good
        · rfl
        · dsimp only
          simp only [Bool.not_true, Bool.false_eq_true, ↓reduceIte]
          have e3 := initPropagator_rename ρ g (b.setWin (setFrames w { fi with q := q, p := 0, v := (fj'.p - 0).sdiv (TimeCast.toK (TimeOps.sub fj.ts fi.ts)) }
            { fj' with v := (fj'.p - 0).sdiv (TimeCast.toK (TimeOps.sub fj.ts fi.ts)) } rest)) ⟨0, (fj'.p - 0).sdiv (TimeCast.toK (TimeOps.sub fj.ts fi.ts)), q⟩ fi.ts
          refine (congrArg (· >>= _) e3).trans ?_
          rw [bind_mapOk, mapOk_bind]
          refine bind_congr _ _ _ fun b' => ?_
          rw [mapOk_bind]
          rfl

theorem initialise_made (env : Env K) (g : Vec3 K) (b : Backend K T) (x : Bool × Backend K T) (hb : b.u.w.feat.Made ρ) (h : initialise env g b = .ok x) : x.2.u.w.feat.Made ρ := by
  unfold initialise at h
  split at h
  · simp only at h
    split at h
    · cases h; exact hb
    · obtain ⟨a, -, h⟩ := bind_eq_ok.1 h
      cases a with
      | none => cases h; exact hb
      | some q =>
        obtain ⟨w, h1, h⟩ := bind_eq_ok.1 h
        have hw := triMultiView_made ρ _ _ _ _ _ (by exact hb) h1
        obtain ⟨y, -, h⟩ := bind_eq_ok.1 h
        split at h
        · cases h; exact hw
        · obtain ⟨b', h2, h⟩ := bind_eq_ok.1 h
          obtain ⟨_, -, h⟩ := bind_eq_ok.1 h
          cases h
          rw [initPropagator_window _ _ _ _ _ h2]
          exact hw
  · cases h; exact hb

theorem tryInit_rename (hρ : ρ.Injective) (env : Env K) (g : Vec3 K) (b : Backend K T) (hb : b.u.w.feat.Made ρ) : (b.rename ρ).tryInit env g = (b.tryInit env g).mapOk (·.rename ρ) := by
  unfold tryInit
  rw [show (b.rename ρ).status = b.status from rfl]
  cases b.status with
  | needInit =>
    simp only [initialise_rename, bind_mapOk, mapOk_bind, mapOk_ite]
    refine Res.bind_congr_ok _ _ _ fun x hx => ?_
    rw [shrunk_rename ρ hρ x.2 (initialise_made ρ env g b x hb hx)]
    rfl
  | initialized => rfl

theorem tryInit_made (env : Env K) (g : Vec3 K) (b b' : Backend K T) (hb : b.u.w.feat.Made ρ) (h : b.tryInit env g = .ok b') : b'.u.w.feat.Made ρ := by
  unfold tryInit at h
  split at h
  · obtain ⟨x, h1, h⟩ := bind_eq_ok.1 h
    have := initialise_made ρ env g b x hb h1
    obtain ⟨good, b1⟩ := x
    simp only at h
    split at h
    · cases h; exact this
    · exact shrunk_made ρ _ _ this h
  · cases h; exact hb

theorem tryUpdate_rename (hρ : ρ.Injective) (env : Env K) (g : Vec3 K) (b : Backend K T) (hb : b.u.w.feat.Made ρ) (ts : T) : (b.rename ρ).tryUpdate env g ts = (b.tryUpdate env g ts).mapOk (·.rename ρ) := by
  unfold tryUpdate
  rw [show (b.rename ρ).status = b.status from rfl]
  cases b.status with
  | needInit => rfl
  | initialized =>
    dsimp only
    rw [show (b.rename ρ).mounted = b.mounted from rfl]
    split
    · have e := Update.update_rename ρ hρ env b.noise b.maxUsed g b.u ts b.loader.imuPeriod
      refine (congrArg (· >>= _) e).trans ?_
      rw [bind_mapOk, mapOk_bind]
      refine Res.bind_congr_ok _ _ _ fun x hx => ?_
      have hm := Update.update_made ρ _ _ _ _ _ _ _ _ hb hx
      obtain ⟨good, u⟩ := x
      cases good
      · exact shrunk_rename ρ hρ { b with u := u, status := .needInit } hm
      · dsimp only
        simp only [↓reduceIte, show (u.rename ρ).w = u.w.rename ρ from rfl, show (u.rename ρ).policy = u.policy from rfl, marginalize_rename ρ hρ u.w hm, bind_mapOk, mapOk_bind]
        rfl
    · rfl

theorem tryUpdate_made (env : Env K) (g : Vec3 K) (b b' : Backend K T) (hb : b.u.w.feat.Made ρ) (ts : T) (h : b.tryUpdate env g ts = .ok b') : b'.u.w.feat.Made ρ := by
  unfold tryUpdate at h
  split at h
  · cases h; exact hb
  · split at h
    · obtain ⟨x, h1, h⟩ := bind_eq_ok.1 h
      have hm := Update.update_made ρ _ _ _ _ _ _ _ _ hb h1
      obtain ⟨good, u⟩ := x
      simp only at h
      split at h
      · obtain ⟨w, h2, h⟩ := bind_eq_ok.1 h
        cases h
        exact marginalize_made ρ _ _ hm _ h2
      · exact shrunk_made ρ _ _ (by exact hm) h
    · cases h

theorem cleanAtt_rename (b : Backend K T) : (b.rename ρ).cleanAtt = b.cleanAtt.mapOk (·.rename ρ) := by
  unfold cleanAtt
  simp only [show (b.rename ρ).u.w.frm.frames = b.u.w.frm.frames.map (·.rename ρ) from rfl, List.length_map, back_map, bind_mapOk, mapOk_ite, mapOk_bind]
  rfl

theorem cleanAtt_window (b b' : Backend K T) (h : b.cleanAtt = .ok b') : b'.u.w = b.u.w := by
  unfold cleanAtt at h
  split at h
  · obtain ⟨_, -, h⟩ := bind_eq_ok.1 h
    obtain ⟨_, -, h⟩ := bind_eq_ok.1 h
    cases h; rfl
  · cases h; rfl

theorem onFeat_rename (hρ : ρ.Injective) (env : Env K) (g : Vec3 K) (b : Backend K T) (hb : b.u.w.feat.Made ρ) (m : FeatMsg K T) :
    (b.rename ρ).onFeat env g (m.rename ρ) = (b.onFeat env g m).mapOk (·.rename ρ) ∧ ∀ b', b.onFeat env g m = .ok b' → b'.u.w.feat.Made ρ := by
  obtain ⟨ei, hi⟩ := insert_rename ρ hρ b.u.w hb m
  have hi' : (b.setWin (b.u.w.insert m)).u.w.feat.Made ρ := hi
  constructor
  · unfold onFeat
    have e := tryInit_rename ρ hρ env g (b.setWin (b.u.w.insert m)) hi'
    rw [show (b.rename ρ).setWin ((b.rename ρ).u.w.insert (m.rename ρ)) = (b.setWin (b.u.w.insert m)).rename ρ by
      rw [show (b.rename ρ).u.w = b.u.w.rename ρ from rfl, ei]; rfl]
    refine (congrArg (· >>= _) e).trans ?_
    rw [bind_mapOk, mapOk_bind]
    refine Res.bind_congr_ok _ _ _ fun b1 h1 => ?_
    rw [show (m.rename ρ).ts = m.ts from rfl, tryUpdate_rename ρ hρ env g b1 (tryInit_made ρ _ _ _ _ hi' h1), bind_mapOk, mapOk_bind]
    exact bind_congr _ _ _ fun b2 => cleanAtt_rename ρ b2
  · intro b' h
    unfold onFeat at h
    obtain ⟨b1, h1, h⟩ := bind_eq_ok.1 h
    obtain ⟨b2, h2, h⟩ := bind_eq_ok.1 h
    rw [cleanAtt_window _ _ h]
    exact tryUpdate_made ρ _ _ _ _ (tryInit_made ρ _ _ _ _ hi' h1) _ h2

theorem onImu_rename (g : Vec3 K) (b : Backend K T) (ms : List (ImuMsg K T)) : (b.rename ρ).onImu g ms = (b.onImu g ms).mapOk (fun x => (x.1, x.2.rename ρ)) := by
  cases ms with
  | nil => rfl
  | cons m rest =>
    simp only [onImu, show (b.rename ρ).att = b.att from rfl]
    rw [show (b.rename ρ).status = b.status from rfl]
    cases b.status with
    | needInit => rfl
    | initialized =>
      simp only [mapOk_ite]
      rfl

theorem onImu_window (g : Vec3 K) (b : Backend K T) (ms : List (ImuMsg K T)) (x : Bool × Backend K T) (h : b.onImu g ms = .ok x) : x.2.u.w = b.u.w := by
  cases ms with
  | nil => cases h; rfl
  | cons m rest =>
    simp only [onImu] at h
    split at h
    · cases h; rfl
    · split at h
      · cases h; rfl
      · cases h

theorem runOnce_rename (hρ : ρ.Injective) (env : Env K) (g : Vec3 K) (b : Backend K T) (hb : b.u.w.feat.Made ρ) :
    (b.rename ρ).runOnce env g = (b.runOnce env g).mapOk (fun x => (x.1, x.2.rename ρ)) ∧ ∀ x, b.runOnce env g = .ok x → x.2.u.w.feat.Made ρ := by
  constructor
  · unfold runOnce
    obtain ⟨e1, e2, e3⟩ := popOne_rename ρ b.loader
    simp only [show (b.rename ρ).loader = b.loader.rename ρ from rfl, e1, e2, e3, mapOk_ite]
    congr 1
    have e := onImu_rename ρ g { b with loader := b.loader.popOne.loader } b.loader.popOne.out.imuMeas
    refine (congrArg (· >>= _) e).trans ?_
    rw [bind_mapOk, mapOk_bind]
    refine Res.bind_congr_ok _ _ _ fun x hx => ?_
    have hw := onImu_window _ _ _ _ hx
    obtain ⟨res, b'⟩ := x
    have hb' : b'.u.w.feat.Made ρ := by rw [hw]; exact hb
    rw [show (b.loader.popOne.out.rename ρ).featMeas = b.loader.popOne.out.featMeas.map (·.rename ρ) from rfl]
    cases b.loader.popOne.out.featMeas with
    | none => rfl
    | some m =>
      simp only [Option.map_some, (onFeat_rename ρ hρ env g b' hb' m).1, bind_mapOk, mapOk_bind]
      rfl
  · intro x h
    unfold runOnce at h
    simp only at h
    split at h
    · obtain ⟨y, hy, h⟩ := bind_eq_ok.1 h
      have hw := onImu_window _ _ _ _ hy
      obtain ⟨res, b'⟩ := y
      have hb' : b'.u.w.feat.Made ρ := by rw [hw]; exact hb
      simp only at h
      split at h
      · cases h; exact hb'
      · obtain ⟨b'', h2, h⟩ := bind_eq_ok.1 h
        cases h
        exact (onFeat_rename ρ hρ env g b' hb' _).2 _ h2
    · cases h; exact hb

end Backend

end Vio

/-
Every function of the model commutes with a move of the origin of time.
-/
import Verif.Spec.Shift

set_option linter.unusedSectionVars false

namespace Vio

namespace Res

@[simp] theorem mapOk_ok {α β : Type _} (f : α → β) (a : α) : (Res.ok a).mapOk f = .ok (f a) := rfl
@[simp] theorem mapOk_ub {α β : Type _} (f : α → β) (t) : (Res.ub t : Res α).mapOk f = .ub t := rfl

theorem mapOk_bind {α β γ : Type _} (x : Res α) (g : α → Res β) (f : β → γ) : (x >>= g).mapOk f = x >>= fun a => (g a).mapOk f := by
  cases x <;> rfl

theorem bind_mapOk {α β γ : Type _} (x : Res α) (f : α → β) (g : β → Res γ) : x.mapOk f >>= g = x >>= fun a => g (f a) := by
  cases x <;> rfl

theorem mapOk_ite {α β : Type _} (c : Prop) [Decidable c] (x y : Res α) (f : α → β) : (if c then x else y).mapOk f = if c then x.mapOk f else y.mapOk f := by
  split <;> rfl

theorem bind_congr {α β : Type _} (x : Res α) (f g : α → Res β) (h : ∀ a, f a = g a) : x >>= f = x >>= g := by
  cases x
  · exact h _
  · rfl

end Res

variable {K T : Type} [Add K] [Sub K] [Mul K] [Neg K] [Div K] [Zero K] [One K] [ScalarFn K] [TimeOps T] [TimeCast T K] (τ : T → T) [TimeShift τ]

open Res

theorem front_map {α β : Type _} (f : α → β) (l : List α) : front (l.map f) = (front l).mapOk f := by cases l <;> rfl

theorem back_map {α β : Type _} (f : α → β) (l : List α) : back (l.map f) = (back l).mapOk f := by
  unfold back
  rw [List.getLast?_map]
  cases l.getLast? <;> rfl

/-! ### Loader -/

theorem pushFeatures_shift (s : LoaderStatics T) (l : Loader K T) (m : FeatMsg K T) (h : TimeOps.isNaN l.offset = false) :
    ((l.shift τ).pushFeatures (s.shift τ) (m.shift τ)).loader = (l.pushFeatures s m).loader.shift τ ∧
    ((l.shift τ).pushFeatures (s.shift τ) (m.shift τ)).statics = (l.pushFeatures s m).statics.shift τ := by
  unfold Loader.pushFeatures
  simp only [h, FeatMsg.shift, Loader.shift, LoaderStatics.shift, Bool.false_eq_true, ↓reduceIte, TimeShift.minus]
  have e2 : ∀ t : T, (s.lastFeat.map τ).getD (τ (TimeOps.sub t (TimeOps.tlit 1))) = τ (s.lastFeat.getD (TimeOps.sub t (TimeOps.tlit 1))) := fun t => by cases s.lastFeat <;> rfl
  simp only [e2, TimeShift.lt]
  split
  · exact ⟨rfl, rfl⟩
  · refine ⟨?_, rfl⟩
    split <;> simp

theorem pushImu_shift (s : LoaderStatics T) (l : Loader K T) (m : ImuMsg K T) (h : TimeOps.isNaN l.offset = false) :
    ((l.shift τ).pushImu (s.shift τ) (m.shift τ)).loader = (l.pushImu s m).loader.shift τ ∧
    ((l.shift τ).pushImu (s.shift τ) (m.shift τ)).statics = (l.pushImu s m).statics.shift τ := by
  unfold Loader.pushImu
  simp only [h, ImuMsg.shift, Loader.shift, LoaderStatics.shift, Bool.false_eq_true, ↓reduceIte, TimeShift.minus]
  have e2 : ∀ t : T, (s.lastImu.map τ).getD (τ (TimeOps.sub t (TimeOps.tlit 1))) = τ (s.lastImu.getD (TimeOps.sub t (TimeOps.tlit 1))) := fun t => by cases s.lastImu <;> rfl
  simp only [e2, TimeShift.lt]
  refine ⟨?_, rfl⟩
  split <;> simp

theorem popOne_shift (l : Loader K T) : (l.shift τ).popOne.loader = l.popOne.loader.shift τ ∧ (l.shift τ).popOne.out = l.popOne.out.shift τ ∧ (l.shift τ).popOne.ret = l.popOne.ret := by
  obtain ⟨fs, is, o, pd⟩ := l
  unfold Loader.popOne
  cases is <;> cases fs
  · exact ⟨rfl, rfl, rfl⟩
  · exact ⟨rfl, rfl, rfl⟩
  · exact ⟨rfl, rfl, rfl⟩
  · simp only [Loader.shift, List.map_cons, FeatMsg.shift, ImuMsg.shift, TimeShift.le, TimeShift.sub]
    split
    · split <;> exact ⟨rfl, rfl, rfl⟩
    · exact ⟨rfl, rfl, rfl⟩

theorem popOne_offset (l : Loader K T) : l.popOne.loader.offset = l.offset := by
  unfold Loader.popOne
  split
  · split
    · split <;> rfl
    · rfl
  all_goals rfl

/-! ### Attitude -/

theorem stepQuat_shift (s : Att K T) (g : Vec3 K) (i : AttItem K T) (a w : Vec3 K) (t : T) : (s.shift τ).stepQuat g (i.shift τ) a w (τ t) = s.stepQuat g i a w t := by
  simp only [Att.stepQuat, Att.shift, AttItem.shift, TimeShift.sub]

theorem att_propagate_shift (s : Att K T) (g a w : Vec3 K) (t : T) : (s.shift τ).propagate g a w (τ t) = ((s.propagate g a w t).1.shift τ, (s.propagate g a w t).2) := by
  unfold Att.propagate
  simp only [show (s.shift τ).items = s.items.map (·.shift τ) from rfl, List.getLast?_map]
  cases h : s.items.getLast? with
  | none =>
    simp only [Option.map_none, show (s.shift τ).biasA = s.biasA from rfl, show (s.shift τ).biasG = s.biasG from rfl]
    split <;> rfl
  | some i =>
    simp only [Option.map_some, show (s.shift τ).biasA = s.biasA from rfl, show (s.shift τ).biasG = s.biasG from rfl, show (i.shift τ).ts = τ i.ts from rfl, TimeShift.lt,
      stepQuat_shift τ s]
    split
    · rfl
    · simp [Att.shift, AttItem.shift]

theorem search_shift (ts thr : T) (l : List (AttItem K T)) : ∀ p : Option (AttItem K T), Att.search (τ ts) thr (p.map (·.shift τ)) (l.map (·.shift τ)) = Att.search ts thr p l := by
  induction l with
  | nil => intro p; rfl
  | cons it rest ih =>
    intro p
    simp only [List.map_cons, Att.search, show (it.shift τ).ts = τ it.ts from rfl, TimeShift.le]
    split
    · cases p with
      | none => rfl
      | some p => simp only [Option.map_some, bind_ok, AttItem.shift, TimeShift.sub]
    · exact ih (some it)

theorem getAttitude_shift (s : Att K T) (ts thr : T) : (s.shift τ).getAttitude (τ ts) thr = s.getAttitude ts thr := by
  unfold Att.getAttitude
  simp only [show (s.shift τ).items = s.items.map (·.shift τ) from rfl, List.getLast?_map, List.head?_map, ← List.map_reverse, List.length_map]
  have := search_shift τ ts thr s.items.reverse none
  simp only [Option.map_none] at this
  cases s.items.head? <;> cases s.items.getLast? <;> simp only [Option.map_none, Option.map_some, AttItem.shift, TimeShift.sub, TimeShift.le]
  rw [← this]
  rfl

theorem cleanLoop_shift (ts : T) (thr : K) (l : List (AttItem K T)) : Att.cleanLoop (τ ts) thr (l.map (·.shift τ)) = (Att.cleanLoop ts thr l).mapOk (List.map (·.shift τ)) := by
  induction l with
  | nil => rfl
  | cons it rest ih =>
    simp only [List.map_cons, Att.cleanLoop, show (it.shift τ).ts = τ it.ts from rfl, TimeShift.sub, ih]
    split <;> rfl

theorem cleanOldItems_shift (s : Att K T) (ts : T) (thr : K) : (s.shift τ).cleanOldItems (τ ts) thr = (s.cleanOldItems ts thr).mapOk (·.shift τ) := by
  unfold Att.cleanOldItems
  simp only [show (s.shift τ).items = s.items.map (·.shift τ) from rfl, List.isEmpty_map, mapOk_ite, cleanLoop_shift τ ts thr, bind_mapOk, mapOk_bind]
  split <;> rfl

/-! ### Propagation -/

theorem dt_shift (a b : T) : (PropQueue.dt (τ a) (τ b) : K) = PropQueue.dt a b := by simp only [PropQueue.dt, TimeShift.sub]

theorem stepF_shift (s : PropQueue K T) (i : PropItem K T) (a w : Vec3 K) (t : T) : (s.shift τ).stepF (i.shift τ) a w (τ t) = s.stepF i a w t := by
  simp only [PropQueue.stepF, PropQueue.shift, PropItem.shift, dt_shift]

theorem stepG_shift (s : PropQueue K T) (i : PropItem K T) (t : T) : (s.shift τ).stepG (i.shift τ) (τ t) = s.stepG i t := by
  simp only [PropQueue.stepG, PropQueue.shift, PropItem.shift, dt_shift]

theorem stepItem_shift (s : PropQueue K T) (g : Vec3 K) (i : PropItem K T) (a w : Vec3 K) (t : T) : (s.shift τ).stepItem g (i.shift τ) a w (τ t) = (s.stepItem g i a w t).shift τ := by
  have e : (s.shift τ).nominal g (i.shift τ) a w (τ t) = s.nominal g i a w t := by
    simp only [PropQueue.nominal, PropQueue.shift, PropItem.shift, dt_shift]
  simp only [PropQueue.stepItem, e, stepF_shift (K := K) τ, stepG_shift (K := K) τ]
  rfl

theorem propagate_shift (s : PropQueue K T) (n : Nat) (g a w : Vec3 K) (t : T) : (s.shift τ).propagate n g a w (τ t) = (s.propagate n g a w t).shift τ := by
  unfold PropQueue.propagate
  simp only [show (s.shift τ).items = s.items.map (·.shift τ) from rfl, List.getLast?_map]
  cases h : s.items.getLast? with
  | none => rfl
  | some i =>
    simp only [Option.map_some, stepItem_shift (K := K) τ, stepF_shift (K := K) τ, stepG_shift (K := K) τ]
    simp [PropQueue.shift]

theorem repropLoop_shift (g : Vec3 K) (l : List (PropItem K T)) : ∀ (s : PropQueue K T) (i : PropItem K T),
    PropQueue.repropLoop g (s.shift τ) (i.shift τ) (l.map (·.shift τ)) = ((PropQueue.repropLoop g s i l).1.shift τ, (PropQueue.repropLoop g s i l).2.map (·.shift τ)) := by
  induction l with
  | nil => intro s i; rfl
  | cons j rest ih =>
    intro s i
    simp only [List.map_cons, PropQueue.repropLoop]
    have e1 := stepItem_shift τ s g i j.accel j.gyro j.ts
    have e2 := stepF_shift τ s i j.accel j.gyro j.ts
    have e3 := stepG_shift τ s i j.ts
    simp only [show (j.shift τ).accel = j.accel from rfl, show (j.shift τ).gyro = j.gyro from rfl, show (j.shift τ).ts = τ j.ts from rfl, e1, e2, e3]
    have := ih { s with F := s.stepF i j.accel j.gyro j.ts, G := s.stepG i j.ts } (s.stepItem g i j.accel j.gyro j.ts)
    rw [show ({ s.shift τ with F := s.stepF i j.accel j.gyro j.ts, G := s.stepG i j.ts } : PropQueue K T) = PropQueue.shift τ { s with F := s.stepF i j.accel j.gyro j.ts, G := s.stepG i j.ts } from rfl, this]

theorem repropagate_shift (s : PropQueue K T) (g : Vec3 K) : (s.shift τ).repropagate g = (s.repropagate g).shift τ := by
  unfold PropQueue.repropagate
  simp only [show (s.shift τ).items = s.items.map (·.shift τ) from rfl]
  cases h : s.items with
  | nil => rfl
  | cons i rest =>
    simp only [List.map_cons, repropLoop_shift τ g rest s i]
    simp [PropQueue.shift]

theorem resetLoop_shift (ts thr : T) (l : List (PropItem K T)) : PropQueue.resetLoop (τ ts) thr (l.map (·.shift τ)) = (PropQueue.resetLoop ts thr l).map (·.shift τ) := by
  induction l with
  | nil => rfl
  | cons i rest ih =>
    simp only [List.map_cons, PropQueue.resetLoop, show (i.shift τ).ts = τ i.ts from rfl, TimeShift.sub, ih]
    split <;> simp

theorem resetOrigin_shift (s : PropQueue K T) (ts thr : T) : (s.shift τ).resetOrigin (τ ts) thr = ((s.resetOrigin ts thr).1.shift τ, (s.resetOrigin ts thr).2) := by
  unfold PropQueue.resetOrigin
  simp only [show (s.shift τ).items = s.items.map (·.shift τ) from rfl, List.isEmpty_map, resetLoop_shift (K := K) τ]
  split <;> simp [PropQueue.shift]

/-! ### Window -/

theorem getFrame_shift (m : FrameMgr K T) (id : Nat) : (m.shift τ).getFrame id = (m.getFrame id).map (·.shift τ) := by
  unfold FrameMgr.getFrame
  simp only [FrameMgr.shift, List.getLast?_map, List.head?_map]
  cases m.frames.head? <;> cases m.frames.getLast? <;> simp only [Option.map_none, Option.map_some]
  simp only [show ∀ f : Frame K T, (f.shift τ).id = f.id from fun _ => rfl, List.find?_map]
  split
  · rfl
  · congr 1

theorem idsFrom_shift (l : List (Frame K T)) : ∀ n, FrameMgr.idsFrom n (l.map (·.shift τ)) = FrameMgr.idsFrom n l := by
  induction l with
  | nil => intro n; rfl
  | cons f rest ih =>
    intro n
    simp only [List.map_cons, FrameMgr.idsFrom, show (f.shift τ).id = f.id from rfl, ih]

theorem findPrev_shift (a : Nat) (l : List (Frame K T)) : FrameMgr.findPrev a (l.map (·.shift τ)) = (FrameMgr.findPrev a l).map (Option.map (·.shift τ)) := by
  induction l with
  | nil => rfl
  | cons f rest ih =>
    simp only [List.map_cons, FrameMgr.findPrev, show (f.shift τ).addr = f.addr from rfl, ih, List.head?_map]
    split <;> rfl

theorem isKeyFrame_shift (m : FrameMgr K T) (s : FMgr K) (f : Frame K T) : (m.shift τ).isKeyFrame s (some (f.shift τ)) = m.isKeyFrame s (some f) := by
  unfold FrameMgr.isKeyFrame
  simp only [show (m.shift τ).frames = m.frames.map (·.shift τ) from rfl, ← List.map_reverse, findPrev_shift (K := K) τ, show (f.shift τ).addr = f.addr from rfl]
  cases FrameMgr.findPrev f.addr m.frames.reverse with
  | none => rfl
  | some p => cases p <;> rfl

theorem addFeatures_shift (s : FMgr K) (rs : List Nat) : ∀ f : Frame K T, (f.shift τ).addFeatures s rs = (f.addFeatures s rs).shift τ := by
  induction rs with
  | nil => intro f; rfl
  | cons r rest ih =>
    intro f
    have e : (f.shift τ).addFeature s r = (f.addFeature s r).shift τ := by
      unfold Frame.addFeature
      simp only [show (f.shift τ).features = f.features from rfl]
      cases f.features.lookup (s.heap r).id <;> rfl
    simp only [Frame.addFeatures, List.foldl_cons, e] at ih ⊢
    exact ih _

theorem insert_shift (w : Win K T) (m : FeatMsg K T) : (w.shift τ).insert (m.shift τ) = (w.insert m).shift τ := by
  have e : ∀ (n : Nat), ({ (w.shift τ).frm with nextAddr := n } : FrameMgr K T).setupNew (.make (w.shift τ).frm.nextAddr (m.shift τ).ts) =
      (({ w.frm with nextAddr := n } : FrameMgr K T).setupNew (.make w.frm.nextAddr m.ts)).shift τ := by
    intro n
    unfold FrameMgr.setupNew
    simp only [show (w.shift τ).frm.frames = w.frm.frames.map (·.shift τ) from rfl, List.getLast?_map]
    cases w.frm.frames.getLast? <;> rfl
  unfold Win.insert FrameMgr.addNewFrame
  simp only [e, addFeatures_shift (K := K) τ, show (m.shift τ).ids = m.ids from rfl, show (m.shift τ).observes = m.observes from rfl, show ∀ f : Frame K T, (f.shift τ).id = f.id from fun _ => rfl]
  simp [Win.shift, FrameMgr.shift]

theorem renumber_shift (d : Nat → Nat) (l : List (Frame K T)) (i : Nat) : (l.map (·.shift τ)).take i ++ ((l.map (·.shift τ)).drop i).map (fun f : Frame K T => { f with id := d f.id }) =
    (l.take i ++ (l.drop i).map (fun f : Frame K T => { f with id := d f.id })).map (fun f : Frame K T => f.shift τ) := by
  simp only [List.map_append, List.map_take, List.map_drop, List.map_map]
  rfl

theorem removeFrame_shift (m : FrameMgr K T) (i : Nat) : (m.shift τ).removeFrame i = ((m.removeFrame i).1.shift τ, (m.removeFrame i).2) := by
  unfold FrameMgr.removeFrame
  simp only [show (m.shift τ).frames = m.frames.map (·.shift τ) from rfl, List.length_map]
  split
  · rfl
  · split
    · rw [renumber_shift τ (fun n => sub32 n 1) m.frames i, List.eraseIdx_map]
      simp only [FrameMgr.shift]
    · simp [FrameMgr.shift, List.eraseIdx_map]

theorem marginalize_shift (w : Win K T) (p : MargPolicy) : (w.shift τ).marginalize p = (w.marginalize p).mapOk (·.shift τ) := by
  cases p <;> simp only [Win.marginalize, mapOk_bind, mapOk_ok, show (w.shift τ).frm = w.frm.shift τ from rfl, show (w.shift τ).feat = w.feat from rfl,
    show (w.frm.shift τ).frames = w.frm.frames.map (·.shift τ) from rfl, front_map, back_map, bind_mapOk, removeFrame_shift (K := K) τ, List.length_map] <;> rfl

/-! ### Update -/

namespace Update

theorem decidePolicy_shift (w : Win K T) : decidePolicy (w.shift τ) = decidePolicy w := by
  unfold decidePolicy FrameMgr.needMarginalize
  simp only [show (w.shift τ).frm = w.frm.shift τ from rfl, show (w.shift τ).feat = w.feat from rfl, show (w.frm.shift τ).frames = w.frm.frames.map (·.shift τ) from rfl, ← List.map_reverse, List.length_map,
    show (w.frm.shift τ).maxWindowSize = w.frm.maxWindowSize from rfl]
  split
  · cases w.frm.frames.reverse with
    | nil => rfl
    | cons a l =>
      cases l with
      | nil => rfl
      | cons b l => simp only [List.map_cons, isKeyFrame_shift (K := K) τ]
  · rfl

theorem constructCov_shift (s : PropQueue K T) (m : FrameMgr K T) : constructCov (s.shift τ) (m.shift τ) = constructCov s m := by
  unfold constructCov
  simp only [show (s.shift τ).items = s.items.map (·.shift τ) from rfl, front_map, bind_mapOk, show (m.shift τ).frames = m.frames.map (·.shift τ) from rfl, List.length_map]
  rfl

theorem setBack_shift (l : List (Frame K T)) (st : Motion K) : setBack (l.map (·.shift τ)) st = (setBack l st).map (·.shift τ) := by
  unfold setBack
  rw [List.getLast?_map]
  cases l.getLast? with
  | none => rfl
  | some b => simp [Frame.shift]

theorem updateNewest_shift (s : PropQueue K T) (m : FrameMgr K T) : updateNewest (s.shift τ) (m.shift τ) = (updateNewest s m).mapOk (fun x => (x.1, x.2.shift τ)) := by
  unfold updateNewest
  simp only [show (s.shift τ).items = s.items.map (·.shift τ) from rfl, front_map, bind_mapOk, show (m.shift τ).frames = m.frames.map (·.shift τ) from rfl, List.isEmpty_map, mapOk_ite, mapOk_bind, mapOk_ok,
    setBack_shift (K := K) τ]
  rfl

theorem obsViews_shift (m : FrameMgr K T) (f : Frame K T) (l : List (Nat × Vec2 K)) : obsViews (m.shift τ) (f.shift τ) l = obsViews m f l := by
  induction l with
  | nil => rfl
  | cons e rest ih =>
    simp only [obsViews, ih]
    rfl

theorem featViews_shift (m : FrameMgr K T) (first : Nat) (l : List (Obs K)) : ∀ i, featViews (m.shift τ) first i l = featViews m first i l := by
  induction l with
  | nil => intro i; rfl
  | cons o rest ih =>
    intro i
    simp only [featViews, ih, getFrame_shift (K := K) τ]
    cases m.getFrame (add32 i first) with
    | none => rfl
    | some f => simp only [Option.map_some, deref, bind_ok, obsViews_shift (K := K) τ]

theorem triangulate_shift (ext : Ext K) (w : Win K T) (r : Nat) : triangulate ext (w.shift τ) r = (triangulate ext w r).mapOk (fun x => (x.1, x.2.shift τ)) := by
  unfold triangulate
  simp only [show (w.shift τ).frm = w.frm.shift τ from rfl, show (w.shift τ).feat = w.feat from rfl, featViews_shift (K := K) τ, mapOk_bind, mapOk_ok]
  rfl

theorem selectLoop_shift (env : Env K) (l : List (Nat × Nat)) : ∀ (w : Win K T) (good : List (Nat × Nat)) (pos : Nat),
    selectLoop env (w.shift τ) good pos l = (selectLoop env w good pos l).mapOk (fun x => (x.1.shift τ, x.2)) := by
  induction l with
  | nil => intro w good pos; rfl
  | cons e rest ih =>
    intro w good pos
    simp only [selectLoop, triangulate_shift (K := K) τ, bind_mapOk, mapOk_bind, mapOk_ite, ih]

theorem selectGood_shift (env : Env K) (n : Nat) (w : Win K T) (pos : Nat) : selectGood env n (w.shift τ) pos = (selectGood env n w pos).mapOk (fun x => (x.1.shift τ, x.2)) := by
  unfold selectGood
  simp only [show (w.shift τ).frm.frames = w.frm.frames.map (·.shift τ) from rfl, back_map, selectLoop_shift (K := K) τ, bind_mapOk, mapOk_bind]
  rfl

theorem measNorms_shift (m : FrameMgr K T) (f : Frame K T) (i a b : Nat) (pw : Vec3 K) (l : List (Nat × Vec2 K)) : ∀ row M,
    measNorms (m.shift τ) (f.shift τ) i a b pw row M l = measNorms m f i a b pw row M l := by
  induction l with
  | nil => intro row M; rfl
  | cons e rest ih =>
    intro row M
    simp only [measNorms, ih]
    rfl

theorem measLoop_shift (m : FrameMgr K T) (ft : Feature K) (l : List (Obs K)) : ∀ i row M, measLoop (m.shift τ) ft i row M l = measLoop m ft i row M l := by
  induction l with
  | nil => intro i row M; rfl
  | cons o rest ih =>
    intro i row M
    simp only [measLoop, getFrame_shift (K := K) τ]
    cases m.getFrame (add32 i ft.first) with
    | none => rfl
    | some f =>
      simp only [Option.map_some, show (m.shift τ).frames = m.frames.map (·.shift τ) from rfl, front_map, back_map, bind_mapOk, measNorms_shift (K := K) τ, ih]
      rfl

theorem measFeature_shift (ext : Ext K) (m : FrameMgr K T) (ft : Feature K) : measFeature ext (m.shift τ) ft = measFeature ext m ft := by
  have e : hxCols (m.shift τ) = hxCols m := by simp only [hxCols, FrameMgr.shift, List.length_map]
  unfold measFeature
  rw [measLoop_shift τ, e]

theorem stackLoop_shift (ext : Ext K) (w : Win K T) (l : List Nat) : ∀ n M, stackLoop ext (w.shift τ) n M l = stackLoop ext w n M l := by
  have e : hxCols (w.frm.shift τ) = hxCols w.frm := by simp only [hxCols, FrameMgr.shift, List.length_map]
  induction l with
  | nil => intro n M; rfl
  | cons r rest ih =>
    intro n M
    simp only [stackLoop, show (w.shift τ).frm = w.frm.shift τ from rfl, show (w.shift τ).feat = w.feat from rfl, measFeature_shift (K := K) τ, ih, e]

theorem measure_shift (env : Env K) (w : Win K T) (fs : List Nat) : Update.measure env (w.shift τ) fs = Update.measure env w fs := by
  have e : hxCols (w.frm.shift τ) = hxCols w.frm := by simp only [hxCols, FrameMgr.shift, List.length_map]
  unfold Update.measure
  rw [stackLoop_shift τ, show hxCols (w.shift τ).frm = hxCols w.frm from e]
  rfl

theorem corrFrames_shift (dx : DMat K) (b o : Nat) (st : Motion K) (l : List (Frame K T)) : ∀ i,
    corrFrames dx b o st i (l.map (·.shift τ)) = (corrFrames dx b o st i l).mapOk (List.map (·.shift τ)) := by
  induction l with
  | nil => intro i; rfl
  | cons f rest ih =>
    intro i
    simp only [List.map_cons, corrFrames, show (f.shift τ).id = f.id from rfl, ih, mapOk_ite, mapOk_bind, bind_mapOk, mapOk_ok]
    rfl

theorem correct_shift (dx : DMat K) (s : PropQueue K T) (m : FrameMgr K T) : correct dx (s.shift τ) (m.shift τ) = (correct dx s m).mapOk (fun x => (x.1.shift τ, x.2.shift τ)) := by
  unfold correct
  simp only [show (s.shift τ).items = s.items.map (·.shift τ) from rfl]
  cases s.items with
  | nil => rfl
  | cons i rest =>
    simp only [List.map_cons, show (m.shift τ).frames = m.frames.map (·.shift τ) from rfl, back_map, corrFrames_shift (K := K) τ, bind_mapOk, mapOk_bind, mapOk_ok]
    rfl

theorem expand_shift (junk : Nat → Nat → K) (m : FrameMgr K T) (c : DMat K) : expand junk (m.shift τ) c = expand junk m c := by
  simp only [expand, FrameMgr.shift, List.length_map]

theorem reduce_shift (junk : Nat → Nat → K) (p : MargPolicy) (m : FrameMgr K T) (c : DMat K) : reduce junk p (m.shift τ) c = reduce junk p m c := by
  simp only [reduce, FrameMgr.shift, List.length_map]

theorem storeCov_shift (s : PropQueue K T) (c : DMat K) : storeCov (s.shift τ) c = (storeCov s c).mapOk (·.shift τ) := by
  unfold storeCov
  simp only [show (s.shift τ).items = s.items.map (·.shift τ) from rfl]
  cases s.items with
  | nil => rfl
  | cons i rest =>
    simp only [List.map_cons, mapOk_bind, mapOk_ok]
    rfl

theorem finish_shift (env : Env K) (g : Vec3 K) (u : Upd K T) : finish env g (u.shift τ) = (finish env g u).mapOk (fun x => (x.1, x.2.shift τ)) := by
  unfold finish
  simp only [show (u.shift τ).w.frm = u.w.frm.shift τ from rfl, show (u.shift τ).q = u.q.shift τ from rfl, expand_shift (K := K) τ, reduce_shift (K := K) τ, storeCov_shift (K := K) τ, bind_mapOk, mapOk_bind, mapOk_ok,
    repropagate_shift (K := K) τ]
  rfl

theorem updateState_shift (env : Env K) (noise : K) (u : Upd K T) (h : DMat K) : updateState env noise (u.shift τ) h = (updateState env noise u h).mapOk (·.shift τ) := by
  unfold updateState
  simp only [show (u.shift τ).w.frm = u.w.frm.shift τ from rfl, show (u.shift τ).q = u.q.shift τ from rfl, correct_shift (K := K) τ, bind_mapOk, mapOk_bind]
  rfl

theorem update_shift (env : Env K) (noise : K) (n : Nat) (g : Vec3 K) (u : Upd K T) (ts thr : T) :
    update env noise n g (u.shift τ) (τ ts) thr = (update env noise n g u ts thr).mapOk (fun x => (x.1, x.2.shift τ)) := by
  unfold update
  simp only [show (u.shift τ).q = u.q.shift τ from rfl, resetOrigin_shift (K := K) τ, mapOk_ite]
  congr 1
  rw [mapOk_bind]
  have e : decidePolicy (u.shift τ).w = decidePolicy u.w := decidePolicy_shift τ u.w
  have e2 : constructCov (PropQueue.shift τ (u.q.resetOrigin ts thr).1) (u.shift τ).w.frm = constructCov (u.q.resetOrigin ts thr).1 u.w.frm := constructCov_shift τ _ _
  have e3 : updateNewest (PropQueue.shift τ (u.q.resetOrigin ts thr).1) (u.shift τ).w.frm = (updateNewest (u.q.resetOrigin ts thr).1 u.w.frm).mapOk (fun x => (x.1, x.2.shift τ)) := updateNewest_shift τ _ _
  rw [e]
  refine bind_congr _ _ _ fun policy => ?_
  rw [e2, mapOk_bind]
  refine bind_congr _ _ _ fun gc => ?_
  obtain ⟨good, c⟩ := gc
  dsimp only
  cases good
  · rfl
  · simp only [Bool.not_true, Bool.false_eq_true, ↓reduceIte]
    rw [e3, bind_mapOk, mapOk_bind]
    refine bind_congr _ _ _ fun gm => ?_
    obtain ⟨good, m⟩ := gm
    dsimp only
    cases good
    · rfl
    · simp only [Bool.not_true, Bool.false_eq_true, ↓reduceIte]
      have e4 := selectGood_shift τ env n { u.w with frm := m } u.pos
      rw [show ({ (u.shift τ).w with frm := m.shift τ } : Win K T) = Win.shift τ { u.w with frm := m } from rfl, show (u.shift τ).pos = u.pos from rfl, e4, bind_mapOk, mapOk_bind]
      refine bind_congr _ _ _ fun x => ?_
      obtain ⟨w, fs, pos⟩ := x
      dsimp only
      have eu : ({ (u.shift τ) with q := PropQueue.shift τ (u.q.resetOrigin ts thr).1, w := w.shift τ, policy := policy, cov := c, features := fs, pos := pos } : Upd K T) =
        Upd.shift τ { u with q := (u.q.resetOrigin ts thr).1, w := w, policy := policy, cov := c, features := fs, pos := pos } := rfl
      split
      · exact finish_shift τ env g { u with q := (u.q.resetOrigin ts thr).1, w := w, policy := policy, cov := c, features := fs, pos := pos }
      · rw [measure_shift τ, mapOk_bind]
        refine bind_congr _ _ _ fun h => ?_
        cases h with
        | none => rfl
        | some hxr =>
          dsimp only
          have e5 := updateState_shift τ env noise { u with q := (u.q.resetOrigin ts thr).1, w := w, policy := policy, cov := c, features := fs, pos := pos } hxr
          refine (congrArg (· >>= fun u => finish env g u) e5).trans ?_
          simp only [bind_mapOk, mapOk_bind, finish_shift (K := K) τ]

end Update

/-! ### Backend -/

namespace Backend

theorem triMultiView_shift (ext : Ext K) (f : Frame K T) (l : List (Nat × Nat)) : ∀ w : Win K T, triMultiView ext (f.shift τ) (w.shift τ) l = (triMultiView ext f w l).mapOk (·.shift τ) := by
  induction l with
  | nil => intro w; rfl
  | cons e rest ih =>
    intro w
    simp only [triMultiView, show (w.shift τ).feat = w.feat from rfl, show (w.shift τ).frm = w.frm.shift τ from rfl, show (f.shift τ).id = f.id from rfl, Update.obsViews_shift (K := K) τ, mapOk_bind, ← ih]
    rfl

theorem estimateFramePose_shift (ext : Ext K) (prm : PnpParam K) (w : Win K T) (f : Frame K T) :
    estimateFramePose ext prm (w.shift τ) (f.shift τ) = (estimateFramePose ext prm w f).mapOk (fun x => (x.1, x.2.shift τ)) := by
  unfold estimateFramePose
  simp only [mapOk_ite, mapOk_bind, mapOk_ok]
  rfl

theorem replay_shift (mounted : Bool) (n : Nat) (g : Vec3 K) (l : List (AttItem K T)) : ∀ s : PropQueue K T, replay mounted n g (s.shift τ) (l.map (·.shift τ)) = (replay mounted n g s l).mapOk (·.shift τ) := by
  induction l with
  | nil => intro s; rfl
  | cons i rest ih =>
    intro s
    simp only [List.map_cons, replay, mapOk_ite, show (i.shift τ).ts = τ i.ts from rfl, propagate_shift (K := K) τ, ih]
    rfl

theorem initPropagator_shift (g : Vec3 K) (b : Backend K T) (st : Motion K) (t : T) : initPropagator g (b.shift τ) st (τ t) = (initPropagator g b st t).mapOk (·.shift τ) := by
  unfold initPropagator
  have e := cleanOldItems_shift τ b.att t (TimeCast.toK b.loader.imuPeriod)
  rw [show (b.shift τ).att = b.att.shift τ from rfl, show (b.shift τ).loader.imuPeriod = b.loader.imuPeriod from rfl, e, bind_mapOk, mapOk_bind]
  refine bind_congr _ _ _ fun att => ?_
  have e2 := replay_shift τ b.mounted b.u.w.frm.extrinsics.length g att.items { b.u.q with initState := st }
  refine (congrArg (· >>= _) e2).trans ?_
  simp only [bind_mapOk, mapOk_bind]
  rfl

theorem shrink_shift (n : Nat) : ∀ w : Win K T, shrink n (w.shift τ) = (shrink n w).mapOk (·.shift τ) := by
  induction n with
  | zero => intro w; rfl
  | succ n ih =>
    intro w
    simp only [shrink, show (w.shift τ).frm.frames = w.frm.frames.map (·.shift τ) from rfl, List.length_map, marginalize_shift (K := K) τ, mapOk_ite, mapOk_bind, bind_mapOk, ih]
    rfl

theorem shrunk_shift (b : Backend K T) : (b.shift τ).shrunk = b.shrunk.mapOk (·.shift τ) := by
  unfold shrunk
  have e := shrink_shift τ b.u.w.frm.frames.length b.u.w
  have el : (b.shift τ).u.w.frm.frames.length = b.u.w.frm.frames.length := List.length_map _
  rw [el, show (b.shift τ).u.w = b.u.w.shift τ from rfl, e, bind_mapOk, mapOk_bind]
  rfl

theorem initialise_shift (env : Env K) (g : Vec3 K) (b : Backend K T) : initialise env g (b.shift τ) = (initialise env g b).mapOk (fun x => (x.1, x.2.shift τ)) := by
  unfold initialise
  rw [show (b.shift τ).u.w.frm.frames = b.u.w.frm.frames.map (·.shift τ) from rfl]
  match b.u.w.frm.frames with
  | [] => rfl
  | [_] => rfl
  | fi :: fj :: rest =>
    simp only [List.map_cons, show ∀ f : Frame K T, (f.shift τ).ts = τ f.ts from fun _ => rfl, TimeShift.sub, show (b.shift τ).att = b.att.shift τ from rfl, show (b.shift τ).loader.imuPeriod = b.loader.imuPeriod from rfl,
      getAttitude_shift (K := K) τ]
    split
    · rfl
    · rw [mapOk_bind]
      refine bind_congr _ _ _ fun a => ?_
      cases a with
      | none => rfl
      | some q =>
        dsimp only
        have e1 := triMultiView_shift τ env.ext { fi with q := q, p := 0 } fi.features (setFrames b.u.w { fi with q := q, p := 0 } fj rest)
        refine (congrArg (· >>= _) e1).trans ?_
        rw [bind_mapOk, mapOk_bind]
        refine bind_congr _ _ _ fun w => ?_
        have e2 := estimateFramePose_shift τ env.ext b.pnp w { fj with q := q, p := 0 }
        refine (congrArg (· >>= _) e2).trans ?_
        rw [bind_mapOk, mapOk_bind]
        refine bind_congr _ _ _ fun x => ?_
        obtain ⟨good, fj'⟩ := x
        cases good
        · rfl
        · dsimp only
          simp only [Bool.not_true, Bool.false_eq_true, ↓reduceIte]
          have e3 := initPropagator_shift τ g (b.setWin (setFrames w { fi with q := q, p := 0, v := (fj'.p - 0).sdiv (TimeCast.toK (TimeOps.sub fj.ts fi.ts)) }
            { fj' with v := (fj'.p - 0).sdiv (TimeCast.toK (TimeOps.sub fj.ts fi.ts)) } rest)) ⟨0, (fj'.p - 0).sdiv (TimeCast.toK (TimeOps.sub fj.ts fi.ts)), q⟩ fi.ts
          refine (congrArg (· >>= _) e3).trans ?_
          rw [bind_mapOk, mapOk_bind]
          refine bind_congr _ _ _ fun b' => ?_
          simp only [show (b'.shift τ).u.q.items = b'.u.q.items.map (·.shift τ) from rfl, front_map, bind_mapOk, mapOk_bind]
          rfl

theorem tryInit_shift (env : Env K) (g : Vec3 K) (b : Backend K T) : (b.shift τ).tryInit env g = (b.tryInit env g).mapOk (·.shift τ) := by
  unfold tryInit
  rw [show (b.shift τ).status = b.status from rfl]
  cases b.status with
  | needInit =>
    simp only [initialise_shift (K := K) τ, bind_mapOk, mapOk_bind, mapOk_ite, shrunk_shift (K := K) τ]
    rfl
  | initialized => rfl

theorem tryUpdate_shift (env : Env K) (g : Vec3 K) (b : Backend K T) (ts : T) : (b.shift τ).tryUpdate env g (τ ts) = (b.tryUpdate env g ts).mapOk (·.shift τ) := by
  unfold tryUpdate
  rw [show (b.shift τ).status = b.status from rfl]
  cases b.status with
  | needInit => rfl
  | initialized =>
    dsimp only
    rw [show (b.shift τ).mounted = b.mounted from rfl]
    split
    · have e := Update.update_shift τ env b.noise b.maxUsed g b.u ts b.loader.imuPeriod
      refine (congrArg (· >>= _) e).trans ?_
      rw [bind_mapOk, mapOk_bind]
      refine bind_congr _ _ _ fun x => ?_
      obtain ⟨good, u⟩ := x
      cases good
      · exact shrunk_shift τ { b with u := u, status := .needInit }
      · dsimp only
        simp only [↓reduceIte, show (u.shift τ).w = u.w.shift τ from rfl, show (u.shift τ).policy = u.policy from rfl, marginalize_shift (K := K) τ, bind_mapOk, mapOk_bind]
        rfl
    · rfl

theorem cleanAtt_shift (b : Backend K T) : (b.shift τ).cleanAtt = b.cleanAtt.mapOk (·.shift τ) := by
  unfold cleanAtt
  simp only [show (b.shift τ).u.w.frm.frames = b.u.w.frm.frames.map (·.shift τ) from rfl, List.length_map, back_map, bind_mapOk, mapOk_ite, mapOk_bind, show ∀ f : Frame K T, (f.shift τ).ts = τ f.ts from fun _ => rfl,
    show (b.shift τ).att = b.att.shift τ from rfl, cleanOldItems_shift (K := K) τ]
  rfl

theorem onFeat_shift (env : Env K) (g : Vec3 K) (b : Backend K T) (m : FeatMsg K T) : (b.shift τ).onFeat env g (m.shift τ) = (b.onFeat env g m).mapOk (·.shift τ) := by
  unfold onFeat
  have e := tryInit_shift τ env g (b.setWin (b.u.w.insert m))
  rw [show (b.shift τ).setWin ((b.shift τ).u.w.insert (m.shift τ)) = (b.setWin (b.u.w.insert m)).shift τ by
    rw [show (b.shift τ).u.w = b.u.w.shift τ from rfl, insert_shift τ]; rfl]
  refine (congrArg (· >>= _) e).trans ?_
  simp only [bind_mapOk, mapOk_bind, show (m.shift τ).ts = τ m.ts from rfl, tryUpdate_shift (K := K) τ, cleanAtt_shift (K := K) τ]

theorem onImu_shift (g : Vec3 K) (b : Backend K T) (ms : List (ImuMsg K T)) : (b.shift τ).onImu g (ms.map (·.shift τ)) = (b.onImu g ms).mapOk (fun x => (x.1, x.2.shift τ)) := by
  cases ms with
  | nil => rfl
  | cons m rest =>
    simp only [List.map_cons, onImu, show (b.shift τ).att = b.att.shift τ from rfl, show (m.shift τ).accel = m.accel from rfl, show (m.shift τ).gyro = m.gyro from rfl, show (m.shift τ).ts = τ m.ts from rfl,
      att_propagate_shift (K := K) τ]
    rw [show (b.shift τ).status = b.status from rfl]
    cases b.status with
    | needInit => rfl
    | initialized =>
      simp only [show (b.shift τ).u.q = b.u.q.shift τ from rfl, propagate_shift (K := K) τ, mapOk_ite]
      rfl

theorem runOnce_shift (env : Env K) (g : Vec3 K) (b : Backend K T) : (b.shift τ).runOnce env g = (b.runOnce env g).mapOk (fun x => (x.1, x.2.shift τ)) := by
  unfold runOnce
  obtain ⟨e1, e2, e3⟩ := popOne_shift τ b.loader
  simp only [show (b.shift τ).loader = b.loader.shift τ from rfl, e1, e2, e3, mapOk_ite]
  congr 1
  have e := onImu_shift τ g { b with loader := b.loader.popOne.loader } b.loader.popOne.out.imuMeas
  refine (congrArg (· >>= _) e).trans ?_
  rw [bind_mapOk, mapOk_bind]
  refine bind_congr _ _ _ fun x => ?_
  obtain ⟨res, b'⟩ := x
  rw [show (b.loader.popOne.out.shift τ).featMeas = b.loader.popOne.out.featMeas.map (·.shift τ) from rfl]
  cases b.loader.popOne.out.featMeas with
  | none => rfl
  | some m =>
    simp only [Option.map_some, onFeat_shift (K := K) τ, bind_mapOk, mapOk_bind]
    rfl

theorem publish_shift (b : Backend K T) : (b.shift τ).publishPropagate = b.publishPropagate.mapOk (Option.map (·.shift τ)) ∧ (b.shift τ).publishUpdate = b.publishUpdate.mapOk (Option.map (·.shift τ)) := by
  unfold publishPropagate publishUpdate
  simp only [show (b.shift τ).u.q.items = b.u.q.items.map (·.shift τ) from rfl, List.isEmpty_map, front_map, back_map, bind_mapOk, mapOk_ite, mapOk_bind]
  exact ⟨rfl, rfl⟩

end Backend

end Vio

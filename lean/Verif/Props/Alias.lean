/-
C114: sharing message objects with the caller cannot be observed if every object is handed over once and left alone afterwards; it can be observed otherwise.
-/
import Verif.Model.Alias
import Verif.Lemmas.Agree

set_option linter.unusedSectionVars false

namespace Vio
open Res

section Spec
variable {K T : Type} [Add K] [Sub K] [Mul K] [Neg K] [Div K] [Zero K] [One K] [ScalarFn K] [TimeOps T] [TimeCast T K]

/-- The action hands over the IMU message object. -/
def ShOp.PushesImu (a : Addr) : ShOp K T → Prop
  | .pushImu _ b => b = some a
  | _ => False

/-- The action writes to the IMU message object or hands it over. -/
def ShOp.TouchesImu (a : Addr) : ShOp K T → Prop
  | .pushImu _ b => b = some a
  | .writeImu b _ => b = a
  | _ => False

/-- The action hands over the features message object. -/
def ShOp.PushesFeat (a : Addr) : ShOp K T → Prop
  | .pushFeatures _ b => b = some a
  | _ => False

/-- The action writes to the features message object or hands it over. -/
def ShOp.TouchesFeat (a : Addr) : ShOp K T → Prop
  | .pushFeatures _ b => b = some a
  | .writeFeat b _ => b = a
  | _ => False

/-- The action pushes a null pointer. -/
def ShOp.PushesNull : ShOp K T → Prop
  | .pushFeatures _ b => b = none
  | .pushImu _ b => b = none
  | _ => False

/-- A careful caller: an object that was handed over is neither written nor handed over again, objects made by the loader are left alone, and no pointer is null. -/
structure Careful (ops : List (ShOp K T)) : Prop where
  imu : ops.Pairwise (fun op op' => ∀ a, op.PushesImu a → ¬ op'.TouchesImu a)
  feat : ops.Pairwise (fun op op' => ∀ a, op.PushesFeat a → ¬ op'.TouchesFeat a)
  mid : ∀ op ∈ ops, ∀ n, ¬ op.TouchesImu (.mid n)
  null : ∀ op ∈ ops, ¬ op.PushesNull

/-- The call of the copying loader that belongs to an action: the object is read when it is handed over. -/
def ShOp.call (mem : MsgMem K T) : ShOp K T → Option (LOp K T)
  | .writeImu _ _ => none
  | .writeFeat _ _ => none
  | .clear i => some (.clear i)
  | .setPeriod i d => some (.setPeriod i d)
  | .pushFeatures i a => a.map (fun a => .pushFeatures i (mem.feat a))
  | .pushImu i a => a.map (fun a => .pushImu i (mem.imu a))
  | .popOne i => some (.popOne i)
  | .popPacked i n => some (.popPacked i n)

/-- The calls of the copying loader that belong to a history. -/
def ShProc.calls (p : ShProc K T) : List (ShOp K T) → List (LOp K T)
  | [] => []
  | op :: ops =>
    (op.call p.mem).toList ++ match p.step op with
      | .ok r => r.1.calls ops
      | .ub _ => []

/-- What an action shows, without the addresses. -/
def ShOut.shown : ShOut K T → LOut K T
  | .none => .none
  | .pushedFeatures ret m => .pushedFeatures ret m
  | .pushedImu ret m => .pushedImu ret m
  | .popped ret _ seen => .popped ret seen

/-- What the calls of a history show, where writes by the caller show nothing. -/
def ShProc.shown (p : ShProc K T) : List (ShOp K T) → Res (List (LOut K T))
  | [] => .ok []
  | op :: ops => do
    let (p', o) ← p.step op
    let os ← p'.shown ops
    .ok (if (op.call p.mem).isSome then o.shown :: os else os)

end Spec

section Lemmas
variable {K T : Type} [Add K] [Sub K] [Mul K] [Neg K] [Div K] [Zero K] [One K] [ScalarFn K] [TimeOps T] [TimeCast T K]

/-- The loader whose queues hold the objects themselves. -/
def ShLoader.view (h : MsgMem K T) (l : ShLoader T) : Loader K T := ⟨l.featMeas.map h.feat, l.imuMeas.map h.imu, l.offset, l.imuPeriod⟩

/-- The process with copied messages that belongs to a process with shared ones. -/
structure Copies (p : ShProc K T) (q : LProc K T) : Prop where
  statics : q.statics = p.statics
  loaders : ∀ i, q.loaders i = (p.loaders i).view p.mem

/-- Nothing still to come touches an object in a queue. -/
structure Quiet (p : ShProc K T) (ops : List (ShOp K T)) : Prop where
  imu : ∀ i, ∀ a ∈ (p.loaders i).imuMeas, ∀ op ∈ ops, ¬ op.TouchesImu a
  feat : ∀ i, ∀ a ∈ (p.loaders i).featMeas, ∀ op ∈ ops, ¬ op.TouchesFeat a
  mid : ∀ i, ∀ n, Addr.mid n ∈ (p.loaders i).imuMeas → n < p.mem.next

theorem MsgMem.setImu_map (h : MsgMem K T) (a : Addr) (m : ImuMsg K T) (l : List Addr) (hl : a ∉ l) : l.map (h.setImu a m).imu = l.map h.imu := by
  apply List.map_congr_left
  intro x hx
  show (if x = a then m else h.imu x) = _
  have hxa : x ≠ a := by rintro rfl; exact hl hx
  rw [if_neg hxa]

theorem MsgMem.setFeat_map (h : MsgMem K T) (a : Addr) (m : FeatMsg K T) (l : List Addr) (hl : a ∉ l) : l.map (h.setFeat a m).feat = l.map h.feat := by
  apply List.map_congr_left
  intro x hx
  show (if x = a then m else h.feat x) = _
  have hxa : x ≠ a := by rintro rfl; exact hl hx
  rw [if_neg hxa]

theorem MsgMem.setImu_same (h : MsgMem K T) (a : Addr) (m : ImuMsg K T) : (h.setImu a m).imu a = m := if_pos rfl
theorem MsgMem.setFeat_same (h : MsgMem K T) (a : Addr) (m : FeatMsg K T) : (h.setFeat a m).feat a = m := if_pos rfl

theorem takeUpTo_view (h : MsgMem K T) (t : T) (l : List Addr) : Both (fun x y => x.1.map h.imu = y.1 ∧ x.2.map h.imu = y.2 ∧ x.1 ++ x.2 = l) (ShLoader.takeUpTo h t l) (Loader.takeUpTo t (l.map h.imu)) := by
  induction l with
  | nil => rfl
  | cons a l ih =>
    rw [List.map_cons, ShLoader.takeUpTo, Loader.takeUpTo]
    split
    · refine ih.bind (fun ⟨x, y⟩ ⟨x', y'⟩ _ _ e => ?_)
      obtain ⟨e1, e2, e3⟩ := e
      dsimp only at e1 e2 e3
      subst e1 e2 e3
      exact ⟨rfl, rfl, rfl⟩
    · exact ⟨rfl, rfl, rfl⟩

theorem backAddr_map {α β : Type} (f : α → β) (l : List α) : Both (fun x y => f x = y ∧ x ∈ l) (back l) (back (l.map f)) := by
  unfold back
  rw [List.getLast?_map]
  cases h : l.getLast? with
  | none => rfl
  | some x => exact ⟨rfl, List.mem_of_getLast? h⟩

theorem frontAddr_map {α β : Type} (f : α → β) (l : List α) : Both (fun x y => f x = y ∧ x ∈ l) (front l) (front (l.map f)) := by
  cases l with
  | nil => rfl
  | cons a l => exact ⟨rfl, List.mem_cons_self⟩

/-- The result of a pop: the loader and the output are those of the copying loader, and nothing new is in the queues apart from an object that was just made. -/
theorem popPacked_view (n : Bool) (h : MsgMem K T) (l : ShLoader T) (hmid : ∀ k, Addr.mid k ∈ l.imuMeas → k < h.next) :
    Both (fun x y => x.2.1.view x.1 = y.1 ∧ x.1.seen x.2.2.1 = y.2.1 ∧ x.2.2.2 = y.2.2 ∧ h.next ≤ x.1.next ∧ x.1.feat = h.feat ∧ (∀ a, a ≠ .mid h.next → x.1.imu a = h.imu a) ∧
      (∀ a ∈ x.2.1.featMeas, a ∈ l.featMeas) ∧ ∀ a ∈ x.2.1.imuMeas, a ∈ l.imuMeas ∨ (a = .mid h.next ∧ h.next < x.1.next))
      (l.popPacked n h) ((l.view h).popPacked n) := by
  unfold ShLoader.popPacked Loader.popPacked
  split
  · rfl
  have e1 : (l.view h).imuMeas.isEmpty = l.imuMeas.isEmpty := by show (l.imuMeas.map h.imu).isEmpty = _; rw [List.isEmpty_map]
  have e2 : (l.view h).featMeas.isEmpty = l.featMeas.isEmpty := by show (l.featMeas.map h.feat).isEmpty = _; rw [List.isEmpty_map]
  rw [e1, e2]
  split
  · exact ⟨rfl, rfl, rfl, le_rfl, rfl, fun _ _ => rfl, fun a ha => ha, fun a ha => .inl ha⟩
  refine (backAddr_map h.imu l.imuMeas).bind (fun li _ _ _ e => ?_)
  obtain ⟨rfl, -⟩ := e
  refine (frontAddr_map h.feat l.featMeas).bind (fun ft _ _ _ e => ?_)
  obtain ⟨rfl, -⟩ := e
  split
  · exact ⟨rfl, rfl, rfl, le_rfl, rfl, fun _ _ => rfl, fun a ha => ha, fun a ha => .inl ha⟩
  refine (frontAddr_map h.imu l.imuMeas).bind (fun fi _ _ _ e => ?_)
  obtain ⟨rfl, -⟩ := e
  have htail : (l.view h).featMeas.tail = l.featMeas.tail.map h.feat := List.map_tail.symm
  split
  · refine ⟨?_, rfl, rfl, le_rfl, rfl, fun _ _ => rfl, fun a ha => List.mem_of_mem_tail ha, fun a ha => .inl ha⟩
    dsimp only
    rw [htail]
    rfl
  refine (takeUpTo_view h (h.feat ft).ts l.imuMeas).bind (fun ⟨taken, rest⟩ ⟨taken', rest'⟩ _ _ e => ?_)
  obtain ⟨e3, e4, e5⟩ := e
  dsimp only at e3 e4 e5 ⊢
  subst e3 e4
  have htaken : ∀ a ∈ taken, a ∈ l.imuMeas := fun a ha => by rw [← e5]; exact List.mem_append_left _ ha
  have hrest : ∀ a ∈ rest, a ∈ l.imuMeas := fun a ha => by rw [← e5]; exact List.mem_append_right _ ha
  refine (backAddr_map h.imu taken).bind (fun left _ _ _ e => ?_)
  obtain ⟨rfl, hleft⟩ := e
  split
  · refine (frontAddr_map h.imu rest).bind (fun right _ _ _ e => ?_)
    obtain ⟨rfl, -⟩ := e
    have hn : ∀ l' : List Addr, (∀ a ∈ l', a ∈ l.imuMeas) → Addr.mid h.next ∉ l' := fun l' hl hm => absurd (hmid _ (hl _ hm)) (lt_irrefl _)
    refine ⟨?_, ?_, rfl, Nat.le_succ _, rfl, fun a ha => if_neg ha, fun a ha => List.mem_of_mem_tail ha, fun a ha => ?_⟩
    · rw [htail]
      show (⟨_, List.map _ (Addr.mid h.next :: rest), _, _⟩ : Loader K T) = _
      rw [List.map_cons, h.setImu_same, h.setImu_map _ _ _ (hn _ hrest)]
      rfl
    · unfold MsgMem.seen
      dsimp only
      rw [List.map_append, h.setImu_map _ _ _ (hn _ htaken), List.map_singleton, h.setImu_same]
      rfl
    · rcases List.mem_cons.1 ha with rfl | ha
      · exact .inr ⟨rfl, Nat.lt_succ_self _⟩
      · exact .inl (hrest a ha)
  · refine ⟨?_, rfl, rfl, le_rfl, rfl, fun _ _ => rfl, fun a ha => List.mem_of_mem_tail ha, fun a ha => ?_⟩
    · rw [htail]
      rfl
    · rcases List.mem_cons.1 ha with rfl | ha
      · exact .inl (htaken _ hleft)
      · exact .inl (hrest a ha)

theorem popOne_view (h : MsgMem K T) (l : ShLoader T) :
    (l.popOne h).1.view h = (l.view h).popOne.loader ∧ h.seen (l.popOne h).2.1 = (l.view h).popOne.out ∧ (l.popOne h).2.2 = (l.view h).popOne.ret ∧
      (∀ a ∈ (l.popOne h).1.featMeas, a ∈ l.featMeas) ∧ ∀ a ∈ (l.popOne h).1.imuMeas, a ∈ l.imuMeas := by
  obtain ⟨fs, is, off, per⟩ := l
  unfold ShLoader.popOne Loader.popOne ShLoader.view
  cases is with
  | nil =>
    cases fs with
    | nil => exact ⟨rfl, rfl, rfl, fun a ha => ha, fun a ha => ha⟩
    | cons f fs => exact ⟨rfl, rfl, rfl, fun a ha => List.mem_cons_of_mem _ ha, fun a ha => ha⟩
  | cons i is =>
    cases fs with
    | nil => exact ⟨rfl, rfl, rfl, fun a ha => ha, fun a ha => List.mem_cons_of_mem _ ha⟩
    | cons f fs =>
      simp only [List.map_cons]
      split
      · split
        · exact ⟨rfl, rfl, rfl, fun a ha => List.mem_cons_of_mem _ ha, fun a ha => List.mem_cons_of_mem _ ha⟩
        · exact ⟨rfl, rfl, rfl, fun a ha => List.mem_cons_of_mem _ ha, fun a ha => ha⟩
      · exact ⟨rfl, rfl, rfl, fun a ha => ha, fun a ha => List.mem_cons_of_mem _ ha⟩

theorem Copies.set {p : ShProc K T} {q : LProc K T} (h : Copies p q) (i : Nat) (l : ShLoader T) (mem : MsgMem K T) (s : LoaderStatics T)
    (hv : ∀ j, j ≠ i → (p.loaders j).view mem = (p.loaders j).view p.mem) : Copies ⟨s, p.set i l, mem⟩ ⟨s, q.set i (l.view mem)⟩ := by
  refine ⟨rfl, fun j => ?_⟩
  show (if j = i then l.view mem else q.loaders j) = ((if j = i then l else p.loaders j) : ShLoader T).view mem
  split
  · rfl
  · rename_i hj
    rw [h.loaders j, hv j hj]

theorem Quiet.set {p : ShProc K T} {op : ShOp K T} {ops : List (ShOp K T)} (h : Quiet p (op :: ops)) (i : Nat) (l : ShLoader T) (mem : MsgMem K T) (s : LoaderStatics T)
    (h1 : ∀ a ∈ l.imuMeas, ∀ op ∈ ops, ¬ op.TouchesImu a) (h2 : ∀ a ∈ l.featMeas, ∀ op ∈ ops, ¬ op.TouchesFeat a) (h3 : ∀ n, Addr.mid n ∈ l.imuMeas → n < mem.next)
    (h4 : p.mem.next ≤ mem.next) : Quiet ⟨s, p.set i l, mem⟩ ops := by
  refine ⟨fun j a ha => ?_, fun j a ha => ?_, fun j n hn => ?_⟩
  · have ha : a ∈ ((if j = i then l else p.loaders j) : ShLoader T).imuMeas := ha
    split at ha
    · exact h1 a ha
    · exact fun o ho => h.imu j a ha o (List.mem_cons_of_mem _ ho)
  · have ha : a ∈ ((if j = i then l else p.loaders j) : ShLoader T).featMeas := ha
    split at ha
    · exact h2 a ha
    · exact fun o ho => h.feat j a ha o (List.mem_cons_of_mem _ ho)
  · have hn : Addr.mid n ∈ ((if j = i then l else p.loaders j) : ShLoader T).imuMeas := hn
    split at hn
    · exact h3 n hn
    · exact lt_of_lt_of_le (h.mid j n hn) h4

theorem Quiet.weaken {p : ShProc K T} {op : ShOp K T} {ops : List (ShOp K T)} (h : Quiet p (op :: ops)) : Quiet p ops :=
  ⟨fun i a ha o ho => h.imu i a ha o (List.mem_cons_of_mem _ ho), fun i a ha o ho => h.feat i a ha o (List.mem_cons_of_mem _ ho), h.mid⟩

theorem Careful.tail {op : ShOp K T} {ops : List (ShOp K T)} (h : Careful (op :: ops)) : Careful ops :=
  ⟨(List.pairwise_cons.1 h.imu).2, (List.pairwise_cons.1 h.feat).2, fun o ho => h.mid o (List.mem_cons_of_mem _ ho), fun o ho => h.null o (List.mem_cons_of_mem _ ho)⟩

theorem view_setImu (h : MsgMem K T) (a : Addr) (m : ImuMsg K T) (l : ShLoader T) (hl : a ∉ l.imuMeas) : l.view (h.setImu a m) = l.view h := by
  unfold ShLoader.view
  rw [h.setImu_map a m _ hl]
  rfl

theorem view_setFeat (h : MsgMem K T) (a : Addr) (m : FeatMsg K T) (l : ShLoader T) (hl : a ∉ l.featMeas) : l.view (h.setFeat a m) = l.view h := by
  unfold ShLoader.view
  rw [h.setFeat_map a m _ hl]
  rfl

/-- One call. -/
theorem call_copies {p : ShProc K T} {q : LProc K T} (h : Copies p q) {op : ShOp K T} {ops : List (ShOp K T)} (hc : Careful (op :: ops)) (hq : Quiet p (op :: ops)) (lop : LOp K T)
    (hl : op.call p.mem = some lop) : Both (fun x y => Copies x.1 y.1 ∧ Quiet x.1 ops ∧ x.2.shown = y.2) (p.step op) (q.step lop) := by
  cases op with
  | writeImu a m => cases hl
  | writeFeat a m => cases hl
  | clear i =>
    cases hl
    rw [ShProc.step, LProc.step, h.loaders i, h.statics]
    exact ⟨h.set i _ _ _ (fun _ _ => rfl), hq.set i _ _ _ (by intro a ha; cases ha) (by intro a ha; cases ha) (by intro n hn; cases hn) le_rfl, rfl⟩
  | setPeriod i d =>
    cases hl
    rw [ShProc.step, LProc.step, h.loaders i, h.statics]
    exact ⟨h.set i { p.loaders i with imuPeriod := d } _ _ (fun _ _ => rfl), hq.set i _ _ _ (hq.weaken.imu i) (hq.weaken.feat i) (hq.mid i) le_rfl, rfl⟩
  | pushFeatures i a =>
    cases a with
    | none => cases hl
    | some a =>
      cases hl
      rw [ShProc.step, LProc.step, h.loaders i, h.statics, ShLoader.pushFeatures]
      unfold Loader.pushFeatures
      have hnot : ∀ j, a ∉ (p.loaders j).featMeas := fun j ha => hq.feat j a ha _ List.mem_cons_self rfl
      have hlater : ∀ o ∈ ops, ¬ o.TouchesFeat a := fun o ho => (List.pairwise_cons.1 hc.feat).1 o ho a rfl
      split
      · exact ⟨h.set i (p.loaders i) _ _ (fun _ _ => rfl), hq.set i _ _ _ (hq.weaken.imu i) (hq.weaken.feat i) (hq.mid i) le_rfl, rfl⟩
      · simp only [Res.bind_ok]
        have hoff : ((p.loaders i).view p.mem).offset = (p.loaders i).offset := rfl
        rw [hoff]
        generalize (if TimeOps.isNaN (p.loaders i).offset = true then (p.mem.feat a).ts else (p.loaders i).offset) = off
        refine ⟨?_, ?_, ?_⟩
        · have key := h.set i { p.loaders i with
              featMeas := if TimeOps.lt (p.statics.lastFeat.getD (TimeOps.sub (TimeOps.sub (p.mem.feat a).ts off) (TimeOps.tlit 1))) (TimeOps.sub (p.mem.feat a).ts off) = true
                then (p.loaders i).featMeas ++ [a] else (p.loaders i).featMeas
              offset := off } (p.mem.setFeat a { p.mem.feat a with ts := TimeOps.sub (p.mem.feat a).ts off }) { p.statics with lastFeat := some (TimeOps.sub (p.mem.feat a).ts off) }
              (fun j _ => view_setFeat _ _ _ _ (hnot j))
          refine Eq.mp ?_ key
          congr 3
          unfold ShLoader.view
          dsimp only
          congr 1
          split
          · rw [List.map_append, p.mem.setFeat_map _ _ _ (hnot i), List.map_singleton, p.mem.setFeat_same]
          · rw [p.mem.setFeat_map _ _ _ (hnot i)]
        · refine hq.set i _ _ _ (hq.weaken.imu i) ?_ (hq.mid i) le_rfl
          intro b hb
          dsimp only at hb
          split at hb
          · rcases List.mem_append.1 hb with hb | hb
            · exact hq.weaken.feat i b hb
            · rw [List.mem_singleton.1 hb]; exact hlater
          · exact hq.weaken.feat i b hb
        · dsimp only [ShOut.shown]
          rw [p.mem.setFeat_same]
  | pushImu i a =>
    cases a with
    | none => cases hl
    | some a =>
      cases hl
      rw [ShProc.step, LProc.step, h.loaders i, h.statics, ShLoader.pushImu]
      unfold Loader.pushImu
      have hnot : ∀ j, a ∉ (p.loaders j).imuMeas := fun j ha => hq.imu j a ha _ List.mem_cons_self rfl
      have hlater : ∀ o ∈ ops, ¬ o.TouchesImu a := fun o ho => (List.pairwise_cons.1 hc.imu).1 o ho a rfl
      have hnm : ∀ n, a ≠ .mid n := fun n e => hc.mid _ List.mem_cons_self n (by rw [e]; rfl)
      simp only [Res.bind_ok]
      have hoff : ((p.loaders i).view p.mem).offset = (p.loaders i).offset := rfl
      rw [hoff]
      generalize (if TimeOps.isNaN (p.loaders i).offset = true then (p.mem.imu a).ts else (p.loaders i).offset) = off
      refine ⟨?_, ?_, ?_⟩
      · have key := h.set i { p.loaders i with
            imuMeas := if TimeOps.lt (p.statics.lastImu.getD (TimeOps.sub (TimeOps.sub (p.mem.imu a).ts off) (TimeOps.tlit 1))) (TimeOps.sub (p.mem.imu a).ts off) = true
              then (p.loaders i).imuMeas ++ [a] else (p.loaders i).imuMeas
            offset := off } (p.mem.setImu a { p.mem.imu a with ts := TimeOps.sub (p.mem.imu a).ts off }) { p.statics with lastImu := some (TimeOps.sub (p.mem.imu a).ts off) }
            (fun j _ => view_setImu _ _ _ _ (hnot j))
        refine Eq.mp ?_ key
        congr 3
        unfold ShLoader.view
        dsimp only
        congr 1
        split
        · rw [List.map_append, p.mem.setImu_map _ _ _ (hnot i), List.map_singleton, p.mem.setImu_same]
        · rw [p.mem.setImu_map _ _ _ (hnot i)]
      · refine hq.set i _ _ _ ?_ (hq.weaken.feat i) ?_ le_rfl
        · intro b hb
          dsimp only at hb
          split at hb
          · rcases List.mem_append.1 hb with hb | hb
            · exact hq.weaken.imu i b hb
            · rw [List.mem_singleton.1 hb]; exact hlater
          · exact hq.weaken.imu i b hb
        · intro n hn
          dsimp only at hn
          split at hn
          · rcases List.mem_append.1 hn with hn | hn
            · exact hq.mid i n hn
            · exact absurd (List.mem_singleton.1 hn).symm (hnm n)
          · exact hq.mid i n hn
      · dsimp only [ShOut.shown]
        rw [p.mem.setImu_same]
  | popOne i =>
    cases hl
    rw [ShProc.step, LProc.step, h.loaders i, h.statics]
    obtain ⟨v1, v2, v3, v4, v5⟩ := popOne_view p.mem (p.loaders i)
    dsimp only
    rw [← v1, ← v2, ← v3]
    exact ⟨h.set i _ _ _ (fun _ _ => rfl), hq.set i _ _ _ (fun a ha => hq.weaken.imu i a (v5 a ha)) (fun a ha => hq.weaken.feat i a (v4 a ha)) (fun n hn => hq.mid i n (v5 _ hn)) le_rfl, rfl⟩
  | popPacked i n =>
    cases hl
    rw [ShProc.step, LProc.step, h.loaders i, h.statics]
    refine (popPacked_view n p.mem (p.loaders i) (hq.mid i)).bind (fun ⟨mem, l, out, ret⟩ ⟨l', out', ret'⟩ _ _ e => ?_)
    obtain ⟨v1, v2, v3, v4, v5, v6, v7, v8⟩ := e
    dsimp only at v1 v2 v3 v4 v5 v6 v7 v8 ⊢
    subst v1 v2 v3
    refine ⟨h.set i _ _ _ (fun j _ => ?_), hq.set i _ _ _ ?_ (fun a ha => hq.weaken.feat i a (v7 a ha)) ?_ v4, rfl⟩
    · unfold ShLoader.view
      rw [v5]
      congr 1
      apply List.map_congr_left
      intro a ha
      refine v6 a ?_
      rintro rfl
      exact absurd (hq.mid j _ ha) (lt_irrefl _)
    · intro a ha
      rcases v8 a ha with ha | ⟨rfl, -⟩
      · exact hq.weaken.imu i a ha
      · exact fun o ho => hc.mid o (List.mem_cons_of_mem _ ho) _
    · intro k hk
      rcases v8 _ hk with hk | ⟨e, hlt⟩
      · exact lt_of_lt_of_le (hq.mid i k hk) v4
      · cases e; exact hlt

/-- A write by the caller. -/
theorem write_copies {p : ShProc K T} {q : LProc K T} (h : Copies p q) {op : ShOp K T} {ops : List (ShOp K T)} (hc : Careful (op :: ops)) (hq : Quiet p (op :: ops))
    (hl : op.call p.mem = none) : ∃ p' o, p.step op = .ok (p', o) ∧ Copies p' q ∧ Quiet p' ops := by
  cases op with
  | writeImu a m =>
    refine ⟨_, _, rfl, ⟨h.statics, fun i => ?_⟩, ⟨hq.weaken.imu, hq.weaken.feat, hq.mid⟩⟩
    show _ = (p.loaders i).view (p.mem.setImu a m)
    rw [view_setImu _ _ _ _ (fun ha => hq.imu i a ha _ List.mem_cons_self rfl), h.loaders i]
  | writeFeat a m =>
    refine ⟨_, _, rfl, ⟨h.statics, fun i => ?_⟩, ⟨hq.weaken.imu, hq.weaken.feat, hq.mid⟩⟩
    show _ = (p.loaders i).view (p.mem.setFeat a m)
    rw [view_setFeat _ _ _ _ (fun ha => hq.feat i a ha _ List.mem_cons_self rfl), h.loaders i]
  | pushFeatures i a =>
    cases a with
    | none => exact absurd rfl (hc.null _ List.mem_cons_self)
    | some a => cases hl
  | pushImu i a =>
    cases a with
    | none => exact absurd rfl (hc.null _ List.mem_cons_self)
    | some a => cases hl
  | clear i => cases hl
  | setPeriod i d => cases hl
  | popOne i => cases hl
  | popPacked i n => cases hl

theorem shown_copies (ops : List (ShOp K T)) : ∀ (p : ShProc K T) (q : LProc K T), Copies p q → Careful ops → Quiet p ops →
    Both (fun x y => x = y.2) (p.shown ops) (q.run (p.calls ops)) := by
  induction ops with
  | nil => intro p q _ _ _; rfl
  | cons op ops ih =>
    intro p q h hc hq
    rw [ShProc.shown, ShProc.calls]
    cases hl : op.call p.mem with
    | none =>
      obtain ⟨p', o, h1, h2, h3⟩ := write_copies h hc hq hl
      rw [h1]
      simp only [Res.bind_ok, Option.toList_none, List.nil_append, Option.isSome_none, Bool.false_eq_true, if_false]
      have := ih p' q h2 hc.tail h3
      generalize p'.shown ops = x at this ⊢
      cases x with
      | ok a => exact this
      | ub t => exact this
    | some lop =>
      have hb := call_copies h hc hq lop hl
      simp only [Option.toList_some, List.singleton_append, Option.isSome_some, if_true]
      rw [LProc.run]
      cases hs : p.step op with
      | ub t =>
        cases hs' : q.step lop with
        | ub t' => rw [hs, hs'] at hb; rw [show t = t' from hb]; rfl
        | ok r => rw [hs, hs'] at hb; exact absurd hb (by simp [Both])
      | ok r =>
        cases hs' : q.step lop with
        | ub t' => rw [hs, hs'] at hb; exact absurd hb (by simp [Both])
        | ok r' =>
          rw [hs, hs'] at hb
          obtain ⟨b1, b2, b3⟩ := hb
          simp only [Res.bind_ok]
          refine (ih r.1 r'.1 b1 hc.tail b2).bind (fun os r2 _ _ e => ?_)
          show _ :: os = _ :: r2.2
          rw [b3, e]

end Lemmas

section Main
variable {K T : Type} [Add K] [Sub K] [Mul K] [Neg K] [Div K] [Zero K] [One K] [ScalarFn K] [TimeOps T] [TimeCast T K]

/-- C114: for a careful caller, everything that a process with shared message objects shows, in any history of actions on any number of loaders, is what the loader shows that copies every
message when it is pushed; undefined behaviour occurs at the same moments. -/
theorem C114_copy (mem : MsgMem K T) (ops : List (ShOp K T)) (h : Careful ops) :
    (ShProc.init mem).shown ops = match LProc.init.run ((ShProc.init mem).calls ops) with
      | .ok r => .ok r.2
      | .ub t => .ub t := by
  have := shown_copies ops (ShProc.init mem) LProc.init ⟨rfl, fun _ => rfl⟩ h ⟨(by intro i a ha; cases ha), (by intro i a ha; cases ha), (by intro i n hn; cases hn)⟩
  generalize (ShProc.init mem).shown ops = x at this ⊢
  generalize LProc.init.run ((ShProc.init mem).calls ops) = y at this ⊢
  cases x with
  | ok a =>
    cases y with
    | ok r => rw [show a = r.2 from this]
    | ub t => exact absurd this (by simp [Both])
  | ub t =>
    cases y with
    | ok r => exact absurd this (by simp [Both])
    | ub t' => rw [show t = t' from this]

/-- C114: a null pointer is dereferenced by both pushes. -/
theorem C114_null (p : ShProc K T) (i : Nat) : p.step (.pushImu i none) = .ub .nullDeref ∧ p.step (.pushFeatures i none) = .ub .nullDeref := ⟨rfl, rfl⟩

end Main

/-! ### Concrete cases -/

/-- Empty message objects. -/
def exMem : MsgMem ℚ ℚ := ⟨fun _ => ⟨0, 0, 0⟩, fun _ => ⟨[], [], 0⟩, 0⟩

/-- Times that the pops of a history show. -/
def shownTimes (l : List (LOut ℚ ℚ)) : List (List ℚ) := l.filterMap (fun o => match o with
  | .popped _ c => some (c.featMeas.toList.map (·.ts) ++ c.imuMeas.map (·.ts))
  | _ => none)

/-- Two samples and an image between them, each object handed over once. -/
def exCareful : List (ShOp ℚ ℚ) :=
  [.writeImu (.own 0) ⟨0, 0, 5⟩, .pushImu 0 (some (.own 0)), .writeImu (.own 1) ⟨0, 0, 7⟩, .pushImu 0 (some (.own 1)), .writeFeat (.own 0) ⟨[], [], 6⟩, .pushFeatures 0 (some (.own 0)),
    .popPacked 0 false, .popOne 0]

/-- C114: a careful history with an interpolated sample; the packet starts at 6, holds the image at 7 and the sample made for it, which is also what the next pop gives. -/
example : Careful exCareful ∧ ((ShProc.init exMem).shown exCareful).check (fun l => decide (shownTimes l = [[7, 6, 7], [7]])) = true := by
  refine ⟨⟨?_, ?_, ?_, ?_⟩, by decide +kernel⟩
  · simp [exCareful, ShOp.PushesImu, ShOp.TouchesImu]
  · simp [exCareful, ShOp.PushesFeat, ShOp.TouchesFeat]
  · simp [exCareful, ShOp.TouchesImu]
  · simp [exCareful, ShOp.PushesNull]

/-- C114: a sample that is pushed twice is in the queue twice, and both with a time that was moved twice.  The loader that copies refuses it the second time. -/
theorem C114_twice :
    ((ShProc.init exMem).shown [.writeImu (.own 0) ⟨0, 0, 5⟩, .pushImu 0 (some (.own 0)), .pushImu 0 (some (.own 0)), .popOne 0, .popOne 0]).check
      (fun l => decide (shownTimes l = [[7], [7]])) = true ∧
    ((LProc.init : LProc ℚ ℚ).run [.pushImu 0 ⟨0, 0, 5⟩, .pushImu 0 ⟨0, 0, 5⟩, .popOne 0, .popOne 0]).check (fun r => decide (shownTimes r.2 = [[6], []])) = true := by
  decide +kernel

/-- C114: a sample that is handed to a second loader changes its time in the queue of the first one. -/
theorem C114_two_loaders :
    ((ShProc.init exMem).shown [.writeImu (.own 0) ⟨0, 0, 5⟩, .pushImu 0 (some (.own 0)), .popOne 0]).check (fun l => decide (shownTimes l = [[6]])) = true ∧
    ((ShProc.init exMem).shown [.writeImu (.own 0) ⟨0, 0, 5⟩, .pushImu 0 (some (.own 0)), .pushImu 1 (some (.own 0)), .popOne 0]).check (fun l => decide (shownTimes l = [[7]])) = true := by
  decide +kernel

/-- C114: the last sample of a packet stays in the queue, so a caller that changes it changes the start of the next packet. -/
theorem C114_packet :
    ((ShProc.init exMem).shown (exCareful.take 7 ++ [.writeImu (.mid 0) ⟨0, 0, 99⟩, .popOne 0])).check (fun l => decide (shownTimes l = [[7, 6, 7], [99]])) = true := by
  decide +kernel

end Vio

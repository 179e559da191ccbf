/-
C108: where the clock starts does not matter.
-/
import Verif.Lemmas.Shift
import Verif.Props.Safety

set_option linter.unusedSectionVars false

namespace Vio
open Res

instance (c : ℝ) : TimeShift (fun t : ℝ => t + c) where
  lt a b := by simp
  le a b := by simp
  sub a b := by simp
  minus a b := by simp only [TimeOps.sub_real]; ring

instance (c : ℚ) : TimeShift (fun t : ℚ => t + c) where
  lt a b := by simp [TimeOps.lt]
  le a b := by simp [TimeOps.le]
  sub a b := by simp [TimeOps.sub]
  minus a b := by simp only [TimeOps.sub]; ring

variable {K T : Type} [Add K] [Sub K] [Mul K] [Neg K] [Div K] [Zero K] [One K] [ScalarFn K] [TimeOps T] [TimeCast T K] (τ : T → T) [TimeShift τ]

/-- The offset of the loader is never changed once it is a number. -/
theorem push_offset (s : LoaderStatics T) (l : Loader K T) (h : TimeOps.isNaN l.offset = false) :
    (∀ m, (l.pushFeatures s m).loader.offset = l.offset) ∧ ∀ m, (l.pushImu s m).loader.offset = l.offset := by
  refine ⟨fun m => ?_, fun m => by simp [Loader.pushImu, h]⟩
  unfold Loader.pushFeatures
  split
  · rfl
  · simp [h]

/-- One call commutes with the move, and leaves the offset alone. -/
theorem step_shift (p : BProc K T) (op : BOp K T) (h : TimeOps.isNaN p.b.loader.offset = false) :
    (p.shift τ).step (op.shift τ) = (p.step op).mapOk (fun x => (x.1.shift τ, x.2.shift τ)) ∧ ∀ p' o, p.step op = .ok (p', o) → p'.b.loader.offset = p.b.loader.offset := by
  cases op with
  | imu m =>
    obtain ⟨e1, e2⟩ := pushImu_shift τ p.statics p.b.loader m h
    constructor
    · simp only [BOp.shift, BProc.step, BProc.shift, Backend.shift, e1, e2]
      rfl
    · intro p' o e
      cases e
      exact (push_offset p.statics p.b.loader h).2 m
  | feat m =>
    obtain ⟨e1, e2⟩ := pushFeatures_shift τ p.statics p.b.loader m h
    constructor
    · simp only [BOp.shift, BProc.step, BProc.shift, Backend.shift, e1, e2]
      rfl
    · intro p' o e
      cases e
      exact (push_offset p.statics p.b.loader h).1 m
  | run env =>
    constructor
    · simp only [BOp.shift, BProc.step, show (p.shift τ).b = p.b.shift τ from rfl, show (p.shift τ).g = p.g from rfl, Backend.runOnce_shift (K := K) τ, bind_mapOk, mapOk_bind]
      rfl
    · intro p' o e
      simp only [BProc.step] at e
      obtain ⟨x, e1, e2⟩ := bind_eq_ok.1 e
      cases e2
      rw [Backend.runOnce_loader env p.g p.b x.2 x.1 e1]
      exact popOne_offset _
  | runTest =>
    obtain ⟨e1, -, e3⟩ := popOne_shift τ p.b.loader
    constructor
    · simp only [BOp.shift, BProc.step, Backend.runOnceTest, show (p.shift τ).b.loader = p.b.loader.shift τ from rfl, e1, e3]
      rfl
    · intro p' o e
      cases e
      exact popOne_offset _
  | publishPropagate =>
    constructor
    · simp only [BOp.shift, BProc.step, show (p.shift τ).b = p.b.shift τ from rfl, (Backend.publish_shift τ p.b).1, bind_mapOk, mapOk_bind]
      rfl
    · intro p' o e
      simp only [BProc.step] at e
      obtain ⟨x, -, e2⟩ := bind_eq_ok.1 e
      cases e2
      rfl
  | publishUpdate =>
    constructor
    · simp only [BOp.shift, BProc.step, show (p.shift τ).b = p.b.shift τ from rfl, (Backend.publish_shift τ p.b).2, bind_mapOk, mapOk_bind]
      rfl
    · intro p' o e
      simp only [BProc.step] at e
      obtain ⟨x, -, e2⟩ := bind_eq_ok.1 e
      cases e2
      rfl
  | reset =>
    refine ⟨rfl, fun p' o e => ?_⟩
    cases e
    rfl

/-- C108: for every scalar type, every process whose loader offset is a number and every history of calls, moving the times of all messages (and of all times the process has stored) by the
same amount gives the same results with the published times moved, and the same undefined behaviour if there is any. -/
theorem C108_filter (ops : List (BOp K T)) : ∀ p : BProc K T, TimeOps.isNaN p.b.loader.offset = false →
    (p.shift τ).run (ops.map (·.shift τ)) = (p.run ops).mapOk (fun x => (x.1.shift τ, x.2.map (·.shift τ))) := by
  induction ops with
  | nil => intro p _; rfl
  | cons op ops ih =>
    intro p h
    obtain ⟨e1, e2⟩ := step_shift τ p op h
    simp only [List.map_cons, BProc.run, e1, bind_mapOk, mapOk_bind]
    cases e : p.step op with
    | ub t => rfl
    | ok x =>
      obtain ⟨p', o⟩ := x
      simp only [bind_ok]
      rw [ih p' (by rw [e2 p' o e]; exact h), bind_mapOk]
      rfl

/-- C108 from the start of a process: a configured backend that has seen nothing publishes the same states for a moved stream, at moved times. -/
theorem C108_from_start [TimeOrd T] (c : Config K) (st : Motion K) (g : Vec3 K) (b : Backend K T) (hc : Backend.applyConfig c (.init st) = .ok (b, g)) (ops : List (BOp K T)) :
    (⟨{}, g, b⟩ : BProc K T).run (ops.map (·.shift τ)) = ((⟨{}, g, b⟩ : BProc K T).run ops).mapOk (fun x => (x.1.shift τ, x.2.map (·.shift τ))) := by
  have hb : b.shift τ = b ∧ TimeOps.isNaN b.loader.offset = false := by
    obtain ⟨ex, -, e⟩ := bind_eq_ok.1 hc
    cases e
    exact ⟨rfl, TimeOrd.isNaN_lit (-1)⟩
  have := C108_filter τ ops ⟨{}, g, b⟩ hb.2
  rwa [show BProc.shift τ ⟨{}, g, b⟩ = ⟨{}, g, b.shift τ⟩ from rfl, hb.1] at this

/-! ### The loader alone, with both ways of taking messages out -/

theorem takeUpTo_shift (t : T) (l : List (ImuMsg K T)) : Loader.takeUpTo (τ t) (l.map (·.shift τ)) = (Loader.takeUpTo t l).mapOk (fun x => (x.1.map (·.shift τ), x.2.map (·.shift τ))) := by
  induction l with
  | nil => rfl
  | cons m ms ih =>
    simp only [List.map_cons, Loader.takeUpTo, show (m.shift τ).ts = τ m.ts from rfl, TimeShift.le, ih, mapOk_ite, bind_mapOk, mapOk_bind]
    rfl

theorem interpolate_shift (t : T) (a b : ImuMsg K T) : Loader.interpolate (τ t) (a.shift τ) (b.shift τ) = (Loader.interpolate t a b).shift τ := by
  simp only [Loader.interpolate, ImuMsg.shift, TimeShift.sub]

theorem popPacked_shift (n : Bool) (l : Loader K T) : (l.shift τ).popPacked n = (l.popPacked n).mapOk (fun x => (x.1.shift τ, x.2.1.shift τ, x.2.2)) := by
  unfold Loader.popPacked
  simp only [show (l.shift τ).imuMeas = l.imuMeas.map (·.shift τ) from rfl, show (l.shift τ).featMeas = l.featMeas.map (·.shift τ) from rfl, List.isEmpty_map, mapOk_ite]
  congr 1
  congr 1
  rw [back_map, bind_mapOk, mapOk_bind]
  refine bind_congr _ _ _ fun lastImu => ?_
  rw [front_map, bind_mapOk, mapOk_bind]
  refine bind_congr _ _ _ fun feat => ?_
  simp only [show ∀ m : ImuMsg K T, (m.shift τ).ts = τ m.ts from fun _ => rfl, show ∀ m : FeatMsg K T, (m.shift τ).ts = τ m.ts from fun _ => rfl, TimeShift.le, mapOk_ite]
  congr 1
  rw [front_map, bind_mapOk, mapOk_bind]
  refine bind_congr _ _ _ fun firstImu => ?_
  simp only [show ∀ m : ImuMsg K T, (m.shift τ).ts = τ m.ts from fun _ => rfl, TimeShift.le, mapOk_ite]
  split
  · simp [Loader.shift, Combined.shift, Combined.cleared, List.map_tail]
  rw [takeUpTo_shift τ, bind_mapOk, mapOk_bind]
  refine bind_congr _ _ _ fun x => ?_
  obtain ⟨taken, rest⟩ := x
  dsimp only
  rw [back_map, bind_mapOk, mapOk_bind]
  refine bind_congr _ _ _ fun left => ?_
  simp only [show ∀ m : ImuMsg K T, (m.shift τ).ts = τ m.ts from fun _ => rfl, TimeShift.sub, mapOk_ite]
  split
  · rw [front_map, bind_mapOk, mapOk_bind]
    refine bind_congr _ _ _ fun right => ?_
    simp [Loader.shift, Combined.shift, List.map_tail, interpolate_shift (K := K) τ]
  · simp [Loader.shift, Combined.shift, List.map_tail]

/-- What a push returns and leaves in the message. -/
theorem push_ret (s : LoaderStatics T) (l : Loader K T) (h : TimeOps.isNaN l.offset = false) :
    (∀ m, ((l.shift τ).pushFeatures (s.shift τ) (m.shift τ)).ret = (l.pushFeatures s m).ret ∧ ((l.shift τ).pushFeatures (s.shift τ) (m.shift τ)).msg = (l.pushFeatures s m).msg.shift τ) ∧
    ∀ m, ((l.shift τ).pushImu (s.shift τ) (m.shift τ)).ret = (l.pushImu s m).ret ∧ ((l.shift τ).pushImu (s.shift τ) (m.shift τ)).msg = (l.pushImu s m).msg.shift τ := by
  refine ⟨fun m => ?_, fun m => ?_⟩
  · unfold Loader.pushFeatures
    simp only [h, FeatMsg.shift, Loader.shift, Bool.false_eq_true, ↓reduceIte, TimeShift.minus]
    split <;> simp
  · unfold Loader.pushImu
    simp only [h, ImuMsg.shift, Loader.shift, Bool.false_eq_true, ↓reduceIte, TimeShift.minus]
    simp

/-- C108 for the loader: everything it makes visible, with `PopOneMessage` and `PopPackedMessage`, moves with the messages. -/
theorem C108_loader [TimeOrd T] (ops : List (LOp K T)) : ∀ p : LProc K T, (∀ i, TimeOps.isNaN (p.loaders i).offset = false) →
    (p.shift τ).run (ops.map (·.shift τ)) = (p.run ops).mapOk (fun x => (x.1.shift τ, x.2.map (·.shift τ))) := by
  have hset : ∀ (p : LProc K T) (i : Nat) (l : Loader K T), (p.shift τ).set i (l.shift τ) = fun j => (p.set i l j).shift τ := by
    intro p i l
    funext j
    simp only [LProc.set, LProc.shift]
    split <;> rfl
  have hnan : ∀ (p : LProc K T) (i : Nat) (l : Loader K T), (∀ i, TimeOps.isNaN (p.loaders i).offset = false) → TimeOps.isNaN l.offset = false →
      ∀ j, TimeOps.isNaN (p.set i l j).offset = false := by
    intro p i l h hl j
    simp only [LProc.set]
    split
    · exact hl
    · exact h j
  have step : ∀ (p : LProc K T) (op : LOp K T), (∀ i, TimeOps.isNaN (p.loaders i).offset = false) → (p.shift τ).step (op.shift τ) = (p.step op).mapOk (fun x => (x.1.shift τ, x.2.shift τ)) ∧
      ∀ p' o, p.step op = .ok (p', o) → ∀ i, TimeOps.isNaN (p'.loaders i).offset = false := by
    intro p op h
    have hl : ∀ i, (p.shift τ).loaders i = (p.loaders i).shift τ := fun _ => rfl
    cases op with
    | clear i =>
      refine ⟨?_, fun p' o e => ?_⟩
      · simp only [LOp.shift, LProc.step, hl, show ((p.loaders i).shift τ).clear = (p.loaders i).clear.shift τ from rfl, hset]
        rfl
      · cases e
        exact hnan p i _ h (TimeOrd.isNaN_lit (-1))
    | setPeriod i d =>
      refine ⟨?_, fun p' o e => ?_⟩
      · simp only [LOp.shift, LProc.step, hl, show ({ (p.loaders i).shift τ with imuPeriod := d } : Loader K T) = Loader.shift τ { p.loaders i with imuPeriod := d } from rfl, hset]
        rfl
      · cases e
        exact hnan p i _ h (h i)
    | pushFeatures i m =>
      obtain ⟨e1, e2⟩ := pushFeatures_shift τ p.statics (p.loaders i) m (h i)
      obtain ⟨e3, e4⟩ := (push_ret τ p.statics (p.loaders i) (h i)).1 m
      refine ⟨?_, fun p' o e => ?_⟩
      · simp only [LOp.shift, LProc.step, hl, show (p.shift τ).statics = p.statics.shift τ from rfl, e1, e2, e3, e4, hset]
        rfl
      · cases e
        exact hnan p i _ h (by rw [(push_offset p.statics (p.loaders i) (h i)).1 m]; exact h i)
    | pushImu i m =>
      obtain ⟨e1, e2⟩ := pushImu_shift τ p.statics (p.loaders i) m (h i)
      obtain ⟨e3, e4⟩ := (push_ret τ p.statics (p.loaders i) (h i)).2 m
      refine ⟨?_, fun p' o e => ?_⟩
      · simp only [LOp.shift, LProc.step, hl, show (p.shift τ).statics = p.statics.shift τ from rfl, e1, e2, e3, e4, hset]
        rfl
      · cases e
        exact hnan p i _ h (by rw [(push_offset p.statics (p.loaders i) (h i)).2 m]; exact h i)
    | popOne i =>
      obtain ⟨e1, e2, e3⟩ := popOne_shift τ (p.loaders i)
      refine ⟨?_, fun p' o e => ?_⟩
      · simp only [LOp.shift, LProc.step, hl, e1, e2, e3, hset]
        rfl
      · cases e
        exact hnan p i _ h (by rw [popOne_offset]; exact h i)
    | popPacked i n =>
      refine ⟨?_, fun p' o e => ?_⟩
      · simp only [LOp.shift, LProc.step, hl, popPacked_shift (K := K) τ, bind_mapOk, mapOk_bind, hset]
        rfl
      · simp only [LProc.step] at e
        obtain ⟨⟨l, out, ret⟩, e1, e2⟩ := bind_eq_ok.1 e
        cases e2
        refine hnan p i _ h ?_
        have : l.offset = (p.loaders i).offset := by
          unfold Loader.popPacked at e1
          repeat' (first | (split at e1) | (obtain ⟨_, _, e1⟩ := bind_eq_ok.1 e1) | (cases e1; done) | (cases e1; rfl))
        rw [this]
        exact h i
  induction ops with
  | nil => intro p _; rfl
  | cons op ops ih =>
    intro p h
    obtain ⟨e1, e2⟩ := step p op h
    simp only [List.map_cons, LProc.run, e1, bind_mapOk, mapOk_bind]
    cases e : p.step op with
    | ub t => rfl
    | ok x =>
      obtain ⟨p', o⟩ := x
      simp only [bind_ok]
      rw [ih p' (e2 p' o e), bind_mapOk]
      rfl

/-! ### Examples -/

/-- The hypotheses are met by the history in which the second call of `RunOnce` initialises the backend: moved by a million seconds it publishes the same states, a million seconds later. -/
example : Backend.exProc.run ((Backend.exOps 10).map (·.shift (fun t => t + 1000000))) =
    (Backend.exProc.run (Backend.exOps 10)).mapOk (fun x => (x.1.shift (fun t => t + 1000000), x.2.map (·.shift (fun t => t + 1000000)))) :=
  C108_filter (fun t : ℚ => t + 1000000) (Backend.exOps 10) Backend.exProc rfl

example : (Backend.exProc.run ((Backend.exOps 10).map (·.shift (fun t => t + 1000000)))).check
    (fun r => match r.2.getLast? with | some (.state (some s)) => decide (s.ts = 1000002) | _ => false) = true := by
  decide +kernel

end Vio

/-
What it means to start the clock elsewhere: every instant is moved, every duration stays.
-/
import Verif.Model.Backend

namespace Vio

/-- A map of instants that moves the origin of time: it keeps the order and all differences, and a duration can be taken away before or after it. -/
class TimeShift {T : Type} [TimeOps T] (τ : T → T) : Prop where
  lt : ∀ a b, TimeOps.lt (τ a) (τ b) = TimeOps.lt a b
  le : ∀ a b, TimeOps.le (τ a) (τ b) = TimeOps.le a b
  sub : ∀ a b, TimeOps.sub (τ a) (τ b) = TimeOps.sub a b
  minus : ∀ a b, TimeOps.sub (τ a) b = τ (TimeOps.sub a b)

/-- Apply a function to the value of a computation. -/
def Res.mapOk {α β : Type _} (f : α → β) : Res α → Res β
  | .ok a => .ok (f a)
  | .ub t => .ub t

variable {K T : Type} (τ : T → T)

/-- A message with its time moved. -/
def ImuMsg.shift (m : ImuMsg K T) : ImuMsg K T := { m with ts := τ m.ts }
/-- A message with its time moved. -/
def FeatMsg.shift (m : FeatMsg K T) : FeatMsg K T := { m with ts := τ m.ts }
/-- The loader with queued messages moved; offset and period are durations. -/
def Loader.shift (l : Loader K T) : Loader K T := { l with featMeas := l.featMeas.map (·.shift τ), imuMeas := l.imuMeas.map (·.shift τ) }
/-- The times remembered by the loader's statics. -/
def LoaderStatics.shift (s : LoaderStatics T) : LoaderStatics T := ⟨s.lastFeat.map τ, s.lastImu.map τ⟩
/-- A combined message. -/
def Combined.shift (c : Combined K T) : Combined K T := ⟨c.featMeas.map (·.shift τ), c.imuMeas.map (·.shift τ)⟩
/-- A frame. -/
def Frame.shift (f : Frame K T) : Frame K T := { f with ts := τ f.ts }
/-- The frames of the window. -/
def FrameMgr.shift (m : FrameMgr K T) : FrameMgr K T := { m with frames := m.frames.map (·.shift τ) }
/-- The window. -/
def Win.shift (w : Win K T) : Win K T := { w with frm := w.frm.shift τ }
/-- A propagated state. -/
def PropItem.shift (i : PropItem K T) : PropItem K T := { i with ts := τ i.ts }
/-- The propagation queue. -/
def PropQueue.shift (s : PropQueue K T) : PropQueue K T := { s with items := s.items.map (·.shift τ) }
/-- An attitude. -/
def AttItem.shift (i : AttItem K T) : AttItem K T := { i with ts := τ i.ts }
/-- The attitude estimator. -/
def Att.shift (s : Att K T) : Att K T := { s with items := s.items.map (·.shift τ) }
/-- The state of the update. -/
def Upd.shift (u : Upd K T) : Upd K T := { u with q := u.q.shift τ, w := u.w.shift τ }
/-- The backend. -/
def Backend.shift (b : Backend K T) : Backend K T := { b with loader := b.loader.shift τ, u := b.u.shift τ, att := b.att.shift τ }
/-- The process. -/
def BProc.shift (p : BProc K T) : BProc K T := ⟨p.statics.shift τ, p.g, p.b.shift τ⟩
/-- A call: only messages carry instants. -/
def BOp.shift : BOp K T → BOp K T
  | .imu m => .imu (m.shift τ)
  | .feat m => .feat (m.shift τ)
  | o => o
/-- A published state. -/
def Published.shift (s : Published K T) : Published K T := { s with ts := τ s.ts }
/-- The result of a call. -/
def BOut.shift : BOut K T → BOut K T
  | .state s => .state (s.map (·.shift τ))
  | o => o

/-- A loader call: only messages carry instants, the period is a duration. -/
def LOp.shift : LOp K T → LOp K T
  | .pushFeatures i m => .pushFeatures i (m.shift τ)
  | .pushImu i m => .pushImu i (m.shift τ)
  | o => o
/-- What a loader call makes visible. -/
def LOut.shift : LOut K T → LOut K T
  | .none => .none
  | .pushedFeatures r m => .pushedFeatures r (m.shift τ)
  | .pushedImu r m => .pushedImu r (m.shift τ)
  | .popped r c => .popped r (c.shift τ)
/-- A process with loaders. -/
def LProc.shift (p : LProc K T) : LProc K T := ⟨p.statics.shift τ, fun i => (p.loaders i).shift τ⟩

end Vio

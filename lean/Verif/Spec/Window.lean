/-
Specification of the sliding window: a log of the tracker's messages, one per frame of the window.

Nothing here refers to the managers' data structures.
-/
import Verif.Model.Frames

set_option linter.unusedSectionVars false

namespace Vio.WinSpec

variable {K T : Type _}

/-- What the tracker reported for `id` in a message. -/
def report (m : FeatMsg K T) (id : Nat) : Option (Obs K) := (m.ids.zip m.observes).lookup id

/-- The window as a log: the id of its first frame and the messages of its frames, oldest first. -/
structure Log (K T : Type _) where
  base : Nat
  msgs : List (FeatMsg K T)

/-- Insertion of a message as new frame, or a marginalisation. -/
inductive WOp (K T : Type _) where
  | insert (m : FeatMsg K T)
  | marg (p : MargPolicy)

/-- Empty window. -/
def Log.empty : Log K T := ⟨1, []⟩

/-- Effect of an operation on the log. -/
def Log.step (l : Log K T) : WOp K T → Log K T
  | .insert m => if l.msgs = [] then ⟨1, [m]⟩ else ⟨l.base, l.msgs ++ [m]⟩
  | .marg .margOldest => ⟨l.base + 1, l.msgs.tail⟩
  | .marg .margSubnew => ⟨l.base, l.msgs.eraseIdx (l.msgs.length - 2)⟩
  | .marg .margNewest => ⟨l.base, l.msgs.dropLast⟩
  | .marg .noMarg => l

/-- The well-behaved messages of C16: distinct ids, an observation with at least one camera per id, and no id that is tracked in the
window but absent from its newest frame. -/
def GoodMsg (l : Log K T) (m : FeatMsg K T) : Prop :=
  m.ids.Nodup ∧ m.ids.length = m.observes.length ∧ (∀ o ∈ m.observes, o.norms ≠ []) ∧
  ∀ id ∈ m.ids, (∃ m' ∈ l.msgs, id ∈ m'.ids) → ∃ last, l.msgs.getLast? = some last ∧ id ∈ last.ids

/-- Side conditions of an operation.  Frame ids stay below `2^32`.  Marginalising the newest (second newest) frame asks for two (three)
frames, which is what the backend does: see `C40` for the policy. -/
def Allowed (l : Log K T) : WOp K T → Prop
  | .insert m => GoodMsg l m ∧ l.base + l.msgs.length + 1 < two32
  | .marg .margOldest => l.msgs ≠ []
  | .marg .margSubnew => 3 ≤ l.msgs.length
  | .marg .margNewest => 2 ≤ l.msgs.length
  | .marg .noMarg => True

/-- Every operation of a history is allowed in the log it meets. -/
def AllowedRun : Log K T → List (WOp K T) → Prop
  | _, [] => True
  | l, op :: ops => Allowed l op ∧ AllowedRun (l.step op) ops

/-- The log after a history. -/
def Log.run (l : Log K T) (ops : List (WOp K T)) : Log K T := ops.foldl Log.step l

/-- Calls of the frame manager. -/
inductive FOp (K T : Type _) where
  | add (new : Frame K T)
  | remove (i : Nat)

/-- Calls of the feature manager. -/
inductive GOp (K : Type _) where
  | add (ids : List Nat) (obs : List (Obs K)) (frameID : Nat)
  | removeByFrameID (frameID : Nat) (offset : Bool)
  | removeByID (id : Nat)

/-- Total number of camera observations of a list of observations. -/
def totalObs (l : List (Obs K)) : Nat := (l.map (fun o => o.norms.length)).sum

end Vio.WinSpec

namespace Vio
variable {K T : Type _} [Add K] [Sub K] [Mul K] [Neg K] [Div K] [Zero K] [One K] [ScalarFn K]
  [TimeOps T] [TimeCast T K]

/-- The managers' reaction to an operation (src/backend/backend.cpp:153-196). -/
def Win.step (w : Win K T) : WinSpec.WOp K T → Res (Win K T)
  | .insert m => .ok (w.insert m)
  | .marg p => w.marginalize p

/-- The managers' reaction to a history. -/
def Win.run (w : Win K T) : List (WinSpec.WOp K T) → Res (Win K T)
  | [] => .ok w
  | op :: ops => do
    let w' ← w.step op
    w'.run ops

/-- The frame manager's reaction to a history; the returned Booleans are those of `AddNewFrame`
(src/data_manager/vision_data/frame_manager.cpp:72-117). -/
def FrameMgr.run (m : FrameMgr K T) : List (WinSpec.FOp K T) → FrameMgr K T × List Bool
  | [] => (m, [])
  | .add new :: ops =>
    let (m', _, ok) := m.addNewFrame new
    let (m'', oks) := FrameMgr.run m' ops
    (m'', ok :: oks)
  | .remove i :: ops => FrameMgr.run (m.removeFrame i).1 ops

/-- The feature manager's reaction to a history (src/data_manager/vision_data/feature_manager.cpp:49-143). -/
def FMgr.run (s : FMgr K) : List (WinSpec.GOp K) → Res (FMgr K)
  | [] => .ok s
  | .add ids obs fid :: ops => FMgr.run (s.addNewFeatures ids obs fid).1 ops
  | .removeByFrameID fid off :: ops => do
    let s' ← s.removeByFrameID fid off
    FMgr.run s' ops
  | .removeByID id :: ops => FMgr.run (s.removeByID id) ops

end Vio

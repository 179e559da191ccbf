/-
Model of `src/data_manager/vision_data/frame_manager.cpp` and `include/data_manager/vision_data/frame_manager.hpp`, and of the two backend functions
that combine both managers (`src/backend/backend.cpp:153-196`).

Frames are held by value in the window; `addr` is their pointer identity (frames are only ever referenced from the window outside a single
call, so no aliasing is lost).
-/
import Verif.Model.Features

set_option linter.unusedSectionVars false

namespace Vio

/-- `Frame` (frame_manager.hpp:10-40).  `features`: feature id to reference. -/
structure Frame (K T : Type _) where
  addr : Nat
  features : List (Nat × Nat)
  q : Quat K
  p : Vec3 K
  v : Vec3 K
  id : Nat
  ts : T

/-- `Extrinsic` (frame_manager.hpp:43-55). -/
structure Extrinsic (K : Type _) where
  q : Quat K
  p : Vec3 K

/-- `FrameManager` (frame_manager.hpp:58-93). `nextAddr` is the next unused frame address. -/
structure FrameMgr (K T : Type _) where
  frames : List (Frame K T)
  nextAddr : Nat
  extrinsics : List (Extrinsic K)
  maxWindowSize : Nat
  minTracked : Nat
  minParallax : K
  maxTranslation : K

variable {K T : Type _} [Add K] [Sub K] [Mul K] [Neg K] [Div K] [Zero K] [One K] [ScalarFn K]
  [TimeOps T] [TimeCast T K]

namespace Frame

/-- Constructor `Frame(timeStamp)` (frame_manager.hpp:26-27) with the default member initialisers (frame_manager.hpp:13-21). -/
def make (addr : Nat) (ts : T) : Frame K T :=
  { addr := addr, features := [], q := .one, p := 0, v := 0, id := 0, ts := ts }

/-- `Frame::Initialize` (frame_manager.cpp:8-16). -/
def initFrame (f : Frame K T) (id : Nat) (ts : T) : Frame K T :=
  { f with features := [], q := .one, p := 0, v := 0, id := id, ts := ts }

/-- `Frame::AddFeature` (frame_manager.cpp:20-23): `unordered_map::insert` keeps an existing entry. -/
def addFeature (s : FMgr K) (f : Frame K T) (r : Nat) : Frame K T :=
  let id := (s.heap r).id
  match f.features.lookup id with
  | some _ => f
  | none => { f with features := f.features ++ [(id, r)] }

/-- `Frame::AddFeatures` (frame_manager.cpp:27-36). -/
def addFeatures (s : FMgr K) (f : Frame K T) (rs : List Nat) : Frame K T :=
  rs.foldl (fun f r => f.addFeature s r) f

/-- `Frame::GetCovisibleFeatures` (frame_manager.cpp:40-49). -/
def getCovisible (f target : Frame K T) : List Nat :=
  f.features.filterMap (fun e => if (target.features.lookup e.1).isSome then some e.2 else none)

end Frame

namespace FrameMgr

/-- `FrameManager::Initialize` (frame_manager.cpp:64-68). -/
def initMgr (m : FrameMgr K T) (maxWindowSize : Nat) : FrameMgr K T :=
  { m with frames := [], maxWindowSize := maxWindowSize }

/-- A new frame as set up by the first part of `AddNewFrame` (frame_manager.cpp:74-81). -/
def setupNew (m : FrameMgr K T) (new : Frame K T) : Frame K T :=
  match m.frames.getLast? with
  | none => new.initFrame 1 new.ts
  | some b => { new with id := add32 b.id 1, q := b.q, p := b.p, v := b.v }

/-- The id check of `AddNewFrame` (frame_manager.cpp:85-92). -/
def idsFrom : Nat → List (Frame K T) → Bool
  | _, [] => true
  | n, f :: fs => if f.id ≠ n then false else idsFrom (add32 n 1) fs

/-- `FrameManager::AddNewFrame` (frame_manager.cpp:72-93): new manager, the frame as stored, return value. -/
def addNewFrame (m : FrameMgr K T) (new : Frame K T) : FrameMgr K T × Frame K T × Bool :=
  let new' := m.setupNew new
  let frames := m.frames ++ [new']
  ({ m with frames := frames }, new', idsFrom ((frames.head?.map (·.id)).getD 0) frames)

/-- `FrameManager::RemoveFrame` (frame_manager.cpp:97-117): ids from the removed frame on are decremented, then it is erased. -/
def removeFrame (m : FrameMgr K T) (localIndex : Nat) : FrameMgr K T × Bool :=
  if localIndex ≥ m.frames.length then (m, false)
  else
    let frames :=
      if localIndex > 0 then
        m.frames.take localIndex ++ (m.frames.drop localIndex).map (fun f => { f with id := sub32 f.id 1 })
      else m.frames
    ({ m with frames := frames.eraseIdx localIndex }, true)

/-- `FrameManager::GetFrame` (frame_manager.cpp:121-134). `none` is the null pointer. -/
def getFrame (m : FrameMgr K T) (frameID : Nat) : Option (Frame K T) :=
  match m.frames.head?, m.frames.getLast? with
  | some a, some b =>
    if frameID < a.id ∨ frameID > b.id then none
    else m.frames.find? (fun f => f.id == frameID)
  | _, _ => none

/-- `FrameManager::GetMaxFrameID` (frame_manager.cpp:138-144). -/
def getMaxFrameID (m : FrameMgr K T) : Nat :=
  match m.frames.getLast? with
  | none => 0
  | some b => b.id

/-- `FrameManager::NeedMarginalize` (frame_manager.cpp:148-154). -/
def needMarginalize (m : FrameMgr K T) : Bool := decide (m.frames.length > m.maxWindowSize)

/-- Search for the predecessor in `IsKeyFrame` (frame_manager.cpp:163-175), over the reversed window.
`none`: not found; `some none`: it is the oldest frame. -/
def findPrev (addr : Nat) : List (Frame K T) → Option (Option (Frame K T))
  | [] => none
  | f :: rest => if f.addr = addr then some rest.head? else findPrev addr rest

/-- Body of the counting loop of `IsKeyFrame` (frame_manager.cpp:179-191). -/
def trackStep (s : FMgr K) (frame pre : Frame K T) (acc : Nat × K) (e : Nat × Nat) : Nat × K :=
  match pre.features.lookup e.1 with
  | none => acc
  | some pr =>
    match (s.heap e.2).getNorm frame.id 0 with
    | none => acc
    | some n =>
      match (s.heap pr).getNorm pre.id 0 with
      | none => acc
      | some pn => (add32 acc.1 1, acc.2 + (n - pn).norm)

/-- The counting loop of `IsKeyFrame` (frame_manager.cpp:177-191): tracked number and parallax sum. -/
def trackStats (s : FMgr K) (frame pre : Frame K T) : Nat × K :=
  frame.features.foldl (trackStep s frame pre) (0, 0)

/-- `FrameManager::IsKeyFrame` (frame_manager.cpp:158-206).  A null `frame` is `none`.  A frame that is not in the window leaves `preFrame` null and it is
dereferenced (line 180 or 194).  The mean parallax (line 192) is computed and, as in the code, not used in the decision. -/
def isKeyFrame (m : FrameMgr K T) (s : FMgr K) (frame : Option (Frame K T)) : Res Bool :=
  match frame with
  | none => .ok false
  | some f =>
    match findPrev f.addr m.frames.reverse with
    | none => .ub .nullDeref
    | some none => .ok true
    | some (some pre) =>
      let (trackedNum, parallaxSum) := trackStats s f pre
      let _parallax := parallaxSum / (ScalarFn.lit (trackedNum : ℚ))
      let translation := (f.p - pre.p).norm
      if trackedNum < m.minTracked then .ok true
      else if ScalarFn.lt m.maxTranslation translation then .ok true
      else .ok false

end FrameMgr

/-- `MargPolicy` (include/utility/typedef.hpp:53-59). -/
inductive MargPolicy where
  | noMarg
  | margOldest
  | margSubnew
  | margNewest
  deriving DecidableEq, Repr

/-- The two managers of a backend. -/
structure Win (K T : Type _) where
  feat : FMgr K
  frm : FrameMgr K T

namespace Win

/-- `Backend::UpdateFeatureFrameManager` (src/backend/backend.cpp:153-169), message pointer not null. -/
def insert (w : Win K T) (m : FeatMsg K T) : Win K T :=
  let new := Frame.make w.frm.nextAddr m.ts
  let (frm, new', _) := { w.frm with nextAddr := w.frm.nextAddr + 1 }.addNewFrame new
  let (feat, _, changed) := w.feat.addNewFeatures m.ids m.observes new'.id
  { feat := feat
    frm := { frm with frames := frm.frames.dropLast ++ [new'.addFeatures feat changed] } }

/-- `Backend::MarginalizeFeatureFrameManager` (src/backend/backend.cpp:173-196). -/
def marginalize (w : Win K T) (policy : MargPolicy) : Res (Win K T) :=
  match policy with
  | .margNewest => do
    let b ← back w.frm.frames
    let feat ← w.feat.removeByFrameID b.id true
    .ok ⟨feat, (w.frm.removeFrame (sub32 w.frm.frames.length 1)).1⟩
  | .margOldest => do
    let a ← front w.frm.frames
    let feat ← w.feat.removeByFrameID a.id false
    .ok ⟨feat, (w.frm.removeFrame 0).1⟩
  | .margSubnew => do
    let b ← back w.frm.frames
    let feat ← w.feat.removeByFrameID (sub32 b.id 1) true
    .ok ⟨feat, (w.frm.removeFrame (sub32 w.frm.frames.length 2)).1⟩
  | .noMarg => .ok w

end Win
end Vio

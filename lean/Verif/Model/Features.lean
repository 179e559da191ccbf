/-
Model of `src/data_manager/vision_data/feature_manager.cpp` and `include/data_manager/vision_data/feature_manager.hpp`.

`Feature` objects are shared (`shared_ptr`) between the manager's map and the frames' maps and are mutated through either, so they live
in a heap: reference ↦ object.  `FeatureObserve` objects are never mutated and are values here (pointers assumed non-null).
`std::unordered_map` is an association list with unique keys; its iteration order is the list order (insertion order), a
simplification: in C++ the order is unspecified.
-/
import Verif.Model.Loader

set_option linter.unusedSectionVars false

namespace Vio

/-- `Feature::Status` (feature_manager.hpp:21-25). -/
inductive FStatus where
  | unsolved
  | solved
  | error
  deriving DecidableEq, Repr

/-- `Feature` (feature_manager.hpp:8-45). -/
structure Feature (K : Type _) where
  id : Nat
  first : Nat
  observes : List (Obs K)
  observeNum : Nat
  pw : Vec3 K
  status : FStatus

/-- `FeatureManager` (feature_manager.hpp:49-69): the map `features` (id to reference) and the heap it points into. `next` is the next
unused reference. -/
structure FMgr (K : Type _) where
  heap : Nat → Feature K
  next : Nat
  map : List (Nat × Nat)

variable {K T : Type _} [Add K] [Sub K] [Mul K] [Neg K] [Div K] [Zero K] [One K] [ScalarFn K]
  [TimeOps T] [TimeCast T K]

namespace Feature

/-- Constructor of `Feature` (feature_manager.hpp:29-34) with a one-element observation vector, as its only caller uses it
(feature_manager.cpp:66-68). -/
def make (id frameID : Nat) (o : Obs K) : Feature K :=
  { id := id, first := frameID, observes := [o], observeNum := o.norms.length % two32, pw := 0, status := .unsolved }

/-- `Feature::AddNewObserve` (feature_manager.cpp:8-14). -/
def addNewObserve (f : Feature K) (o : Obs K) : Feature K :=
  if o.norms.length = 0 then f
  else { f with observes := f.observes ++ [o], observeNum := add32 f.observeNum o.norms.length }

/-- `Feature::GetNorm` (feature_manager.cpp:18-26): index arithmetic in `uint32_t`. -/
def getNorm (f : Feature K) (frameID cameraID : Nat) : Option (Vec2 K) :=
  match f.observes[sub32 frameID f.first]? with
  | some o => o.getNorm cameraID
  | none => none

/-- `Feature::FinalFrameID` (feature_manager.cpp:30-32): computed in `size_t`, truncated to `uint32_t`. -/
def finalFrameID (f : Feature K) : Nat := (f.first + f.observes.length + (two32 - 1)) % two32

/-- Body of the loop of `RemoveByFrameID` with `offset = true` (feature_manager.cpp:89-108).  The second component says that the feature's id
is put on the list of features to delete.  The element-shifting loop and `resize` (lines 100-103) are `eraseIdx`. -/
def removeShift (f : Feature K) (frameID : Nat) : Res (Feature K × Bool) :=
  if f.first ≤ frameID ∧ frameID ≤ f.finalFrameID then
    if f.observes.length = 1 then .ok ({ f with observes := [] }, true)
    else do
      let o ← idx f.observes (frameID - f.first)
      .ok ({ f with
              observeNum := sub32 f.observeNum o.norms.length
              observes := f.observes.eraseIdx (frameID - f.first) }, false)
  else if frameID < f.first then .ok ({ f with first := f.first - 1 }, false)
  else .ok (f, false)

/-- Body of the loop of `RemoveByFrameID` with `offset = false` (feature_manager.cpp:112-130). -/
def removeFirst (f : Feature K) (frameID : Nat) : Res (Feature K × Bool) :=
  if f.first = frameID then
    if f.observes.length = 1 then .ok ({ f with observes := [] }, true)
    else do
      let o ← idx f.observes 0
      .ok ({ f with
              observeNum := sub32 f.observeNum o.norms.length
              observes := f.observes.eraseIdx 0
              first := add32 f.first 1 }, false)
  else .ok (f, false)

end Feature

namespace FMgr

/-- An empty manager. -/
def init : FMgr K :=
  { heap := fun _ => ⟨0, 0, [], 0, 0, .unsolved⟩, next := 0, map := [] }

/-- Overwrite the object at a reference. -/
def put (s : FMgr K) (r : Nat) (f : Feature K) : FMgr K :=
  { s with heap := fun x => if x = r then f else s.heap x }

/-- One iteration of `AddNewFeatures` (feature_manager.cpp:58-72). Returns the reference of the changed feature. -/
def addOne (s : FMgr K) (frameID id : Nat) (o : Obs K) : FMgr K × Nat :=
  match s.map.lookup id with
  | some r => (s.put r ((s.heap r).addNewObserve o), r)
  | none =>
    ({ heap := (s.put s.next (Feature.make id frameID o)).heap, next := s.next + 1, map := s.map ++ [(id, s.next)] }, s.next)

/-- The loop of `AddNewFeatures`. -/
def addAll (s : FMgr K) (frameID : Nat) : List (Nat × Obs K) → FMgr K × List Nat
  | [] => (s, [])
  | (id, o) :: rest =>
    let (s1, r) := s.addOne frameID id o
    let (s2, rs) := s1.addAll frameID rest
    (s2, r :: rs)

/-- `FeatureManager::AddNewFeatures` (feature_manager.cpp:49-74): new state, return value, changed features. -/
def addNewFeatures (s : FMgr K) (ids : List Nat) (obs : List (Obs K)) (frameID : Nat) : FMgr K × Bool × List Nat :=
  if ids.length ≠ obs.length then (s, false, [])
  else
    let (s', rs) := s.addAll frameID (ids.zip obs)
    (s', true, rs)

/-- The loop over all managed features in `RemoveByFrameID` (feature_manager.cpp:89-108, 112-130). Collects the ids to delete. -/
def removeLoop (frameID : Nat) (offset : Bool) : FMgr K → List (Nat × Nat) → Res (FMgr K × List Nat)
  | s, [] => .ok (s, [])
  | s, (_, r) :: rest => do
    let f := s.heap r
    let (f', del) ← if offset then f.removeShift frameID else f.removeFirst frameID
    let (s', ds) ← removeLoop frameID offset (s.put r f') rest
    .ok (s', if del then f.id :: ds else ds)

/-- `FeatureManager::RemoveByFrameID` (feature_manager.cpp:78-137). -/
def removeByFrameID (s : FMgr K) (frameID : Nat) (offset : Bool) : Res (FMgr K) := do
  let (s', ds) ← removeLoop frameID offset s s.map
  .ok { s' with map := s'.map.filter (fun e => !ds.contains e.1) }

/-- `FeatureManager::RemoveByID` (feature_manager.cpp:141-143). -/
def removeByID (s : FMgr K) (id : Nat) : FMgr K :=
  { s with map := s.map.filter (fun e => e.1 != id) }

end FMgr
end Vio

/-
The iteration order of the `std::unordered_map`s.  The rest of the model iterates the maps of the feature manager and of the frames in the order of insertion; the standard leaves the
order open.  Here every call of `RunOnce` comes with a reordering, which is applied wherever a map has changed: after the insertion of a message (backend.cpp:153-169) and after every removal
of a frame (backend.cpp:173-196).  A reordering may look at the whole window, so it can choose another order for every map and every place.

The maps inside a message and the order of the cameras in an observation are those of the message, which is arbitrary in all theorems.
-/
import Verif.Model.Backend

set_option linter.unusedSectionVars false

namespace Vio

variable {K T : Type}

/-- The same frame (frame_manager.hpp:10-40), whose map `features` is iterated in another order. -/
structure Frame.Reordered (f f' : Frame K T) : Prop where
  addr : f.addr = f'.addr
  features : f.features.Perm f'.features
  q : f.q = f'.q
  p : f.p = f'.p
  v : f.v = f'.v
  id : f.id = f'.id
  ts : f.ts = f'.ts

/-- The same feature manager (feature_manager.hpp:49-69), whose map `features` is iterated in another order. -/
structure FMgr.Reordered (s s' : FMgr K) : Prop where
  heap : s.heap = s'.heap
  next : s.next = s'.next
  map : s.map.Perm s'.map

/-- The same frame manager (frame_manager.hpp:58-93), whose frames are iterated in another order. -/
structure FrameMgr.Reordered (m m' : FrameMgr K T) : Prop where
  frames : List.Forall₂ Frame.Reordered m.frames m'.frames
  nextAddr : m.nextAddr = m'.nextAddr
  extrinsics : m.extrinsics = m'.extrinsics
  maxWindowSize : m.maxWindowSize = m'.maxWindowSize
  minTracked : m.minTracked = m'.minTracked
  minParallax : m.minParallax = m'.minParallax
  maxTranslation : m.maxTranslation = m'.maxTranslation

/-- The same window, whose maps are iterated in another order. -/
structure Win.Reordered (w w' : Win K T) : Prop where
  feat : w.feat.Reordered w'.feat
  frm : w.frm.Reordered w'.frm

variable [Add K] [Sub K] [Mul K] [Neg K] [Div K] [Zero K] [One K] [ScalarFn K] [TimeOps T] [TimeCast T K]

namespace Backend

/-- `shrink` (backend.cpp:60-62, 78-80) with a reordering. -/
def shrinkH (sh : Win K T → Win K T) : Nat → Win K T → Res (Win K T)
  | 0, w => .ok w
  | n + 1, w =>
    if w.frm.frames.length > 1 then do
      let w ← w.marginalize .margOldest
      shrinkH sh n (sh w)
    else .ok w

/-- `shrunk` with a reordering. -/
def shrunkH (sh : Win K T → Win K T) (b : Backend K T) : Res (Backend K T) := do
  let w ← shrinkH sh b.u.w.frm.frames.length b.u.w
  .ok (b.setWin w)

/-- `tryInit` (backend.cpp:52-67) with a reordering. -/
def tryInitH (sh : Win K T → Win K T) (env : Env K) (g : Vec3 K) (b : Backend K T) : Res (Backend K T) :=
  match b.status with
  | .needInit => do
    let (good, b) ← initialise env g b
    if good then .ok { b with status := .initialized } else shrunkH sh b
  | .initialized => .ok b

/-- `tryUpdate` (backend.cpp:69-89) with a reordering. -/
def tryUpdateH (sh : Win K T → Win K T) (env : Env K) (g : Vec3 K) (b : Backend K T) (ts : T) : Res (Backend K T) :=
  match b.status with
  | .needInit => .ok b
  | .initialized =>
    if b.mounted then do
      let (good, u) ← Update.update env b.noise b.maxUsed g b.u ts b.loader.imuPeriod
      if good then do
        let w ← u.w.marginalize u.policy
        .ok { b with u := { u with w := sh w }, att := b.att.setBias u.q.biasA u.q.biasG }
      else shrunkH sh { b with u := u, status := .needInit }
    else .ub .nullDeref

/-- `onFeat` (backend.cpp:47-96) with a reordering. -/
def onFeatH (sh : Win K T → Win K T) (env : Env K) (g : Vec3 K) (b : Backend K T) (m : FeatMsg K T) : Res (Backend K T) := do
  let b := b.setWin (sh (b.u.w.insert m))
  let b ← b.tryInitH sh env g
  let b ← b.tryUpdateH sh env g m.ts
  b.cleanAtt

/-- `RunOnce` (backend.cpp:22-99) with a reordering. -/
def runOnceH (sh : Win K T → Win K T) (env : Env K) (g : Vec3 K) (b : Backend K T) : Res (Bool × Backend K T) := do
  let r := b.loader.popOne
  let b := { b with loader := r.loader }
  if r.ret then do
    let (res, b) ← b.onImu g r.out.imuMeas
    match r.out.featMeas with
    | none => .ok (res, b)
    | some m => do
      let b ← b.onFeatH sh env g m
      .ok (true, b)
  else .ok (false, b)

end Backend

namespace BProc

/-- One call (backend.cpp:8-149) with a reordering; only `RunOnce` changes the maps. -/
def stepH (sh : Win K T → Win K T) (p : BProc K T) : BOp K T → Res (BProc K T × BOut K T)
  | .run env => do
    let (res, b) ← p.b.runOnceH sh env p.g
    .ok ({ p with b := b }, .ret res)
  | op => p.step op

/-- A history of calls, each with a reordering. -/
def runH (p : BProc K T) : List (BOp K T × (Win K T → Win K T)) → Res (BProc K T × List (BOut K T))
  | [] => .ok (p, [])
  | (op, sh) :: ops => do
    let (p, o) ← p.stepH sh op
    let (p, os) ← p.runH ops
    .ok (p, o :: os)

end BProc
end Vio

/-
The loader with shared message objects.  `PushIMUMessage` and `PushFeaturesMessage` get a `shared_ptr`, rewrite the time stamp of the object behind it and keep the pointer, and the pops hand
the pointers out again; the rest of the model copies messages.  Here the queues hold addresses of objects in a memory that the caller can write to as well, and pointers may be null.

Source: src/data_manager/data_loader.cpp.
-/
import Verif.Model.Loader

set_option linter.unusedSectionVars false

namespace Vio

/-- The address of a message object: created by the caller under a name, or by `PopPackedMessage` (data_loader.cpp:119). -/
inductive Addr where
  | own (n : Nat)
  | mid (n : Nat)
deriving DecidableEq

/-- The message objects; `next` counts those that `PopPackedMessage` has created. -/
structure MsgMem (K T : Type _) where
  imu : Addr → ImuMsg K T
  feat : Addr → FeatMsg K T
  next : Nat

/-- `DataLoader` (include/data_manager/data_loader.hpp:9-34) with pointers in its queues. -/
structure ShLoader (T : Type _) where
  featMeas : List Addr
  imuMeas : List Addr
  offset : T
  imuPeriod : T

/-- `CombinedMessage` (include/data_manager/data_typedef.hpp:75-91) with its pointers. -/
structure ShCombined where
  featMeas : Option Addr
  imuMeas : List Addr

variable {K T : Type _} [Add K] [Sub K] [Mul K] [Neg K] [Div K] [Zero K] [One K] [ScalarFn K]
  [TimeOps T] [TimeCast T K]

namespace MsgMem

/-- Write an IMU message object. -/
def setImu (h : MsgMem K T) (a : Addr) (m : ImuMsg K T) : MsgMem K T := { h with imu := fun x => if x = a then m else h.imu x }

/-- Write a features message object. -/
def setFeat (h : MsgMem K T) (a : Addr) (m : FeatMsg K T) : MsgMem K T := { h with feat := fun x => if x = a then m else h.feat x }

/-- What the pointers of an output point to. -/
def seen (h : MsgMem K T) (o : ShCombined) : Combined K T := ⟨o.featMeas.map h.feat, o.imuMeas.map h.imu⟩

end MsgMem

namespace ShLoader

/-- `DataLoader::Clear` (data_loader.cpp:8-12). -/
def clear (l : ShLoader T) : ShLoader T := { l with featMeas := [], imuMeas := [], offset := TimeOps.tlit (-1) }

/-- `DataLoader::DataLoader` (data_loader.hpp:18-20). -/
def init : ShLoader T := { featMeas := [], imuMeas := [], offset := TimeOps.tlit (-1), imuPeriod := TimeOps.tlit (5/1000) }

/-- `DataLoader::PushFeaturesMessage` (data_loader.cpp:16-33); a null pointer is dereferenced (line 18). -/
def pushFeatures (s : LoaderStatics T) (h : MsgMem K T) (l : ShLoader T) : Option Addr → Res (LoaderStatics T × MsgMem K T × ShLoader T × Bool)
  | none => .ub .nullDeref
  | some a =>
    if (h.feat a).ids.length ≠ (h.feat a).observes.length then .ok (s, h, l, false)
    else
      let offset := if TimeOps.isNaN l.offset then (h.feat a).ts else l.offset
      let ts := TimeOps.sub (h.feat a).ts offset
      let h := h.setFeat a { h.feat a with ts := ts }
      let last := s.lastFeat.getD (TimeOps.sub ts (TimeOps.tlit 1))
      let q := if TimeOps.lt last ts then l.featMeas ++ [a] else l.featMeas
      .ok ({ s with lastFeat := some ts }, h, { l with featMeas := q, offset := offset }, true)

/-- `DataLoader::PushIMUMessage` (data_loader.cpp:37-49); a null pointer is dereferenced (line 40 or 42). -/
def pushImu (s : LoaderStatics T) (h : MsgMem K T) (l : ShLoader T) : Option Addr → Res (LoaderStatics T × MsgMem K T × ShLoader T × Bool)
  | none => .ub .nullDeref
  | some a =>
    let offset := if TimeOps.isNaN l.offset then (h.imu a).ts else l.offset
    let ts := TimeOps.sub (h.imu a).ts offset
    let h := h.setImu a { h.imu a with ts := ts }
    let last := s.lastImu.getD (TimeOps.sub ts (TimeOps.tlit 1))
    let q := if TimeOps.lt last ts then l.imuMeas ++ [a] else l.imuMeas
    .ok ({ s with lastImu := some ts }, h, { l with imuMeas := q, offset := offset }, true)

/-- `DataLoader::PopOneMessage` (data_loader.cpp:53-88): loader, output and return value. -/
def popOne (h : MsgMem K T) (l : ShLoader T) : ShLoader T × ShCombined × Bool :=
  match l.imuMeas, l.featMeas with
  | imu :: imus, feat :: feats =>
    if TimeOps.le (h.feat feat).ts (h.imu imu).ts then
      if TimeOps.lt (TimeOps.fabs (TimeOps.sub (h.feat feat).ts (h.imu imu).ts)) l.imuPeriod then
        ({ l with featMeas := feats, imuMeas := imus }, ⟨some feat, [imu]⟩, true)
      else ({ l with featMeas := feats }, ⟨some feat, []⟩, true)
    else ({ l with imuMeas := imus }, ⟨none, [imu]⟩, true)
  | imu :: imus, [] => ({ l with imuMeas := imus }, ⟨none, [imu]⟩, true)
  | [], feat :: feats => ({ l with featMeas := feats }, ⟨some feat, []⟩, true)
  | [], [] => (l, ⟨none, []⟩, false)

/-- The loop of `PopPackedMessage` (data_loader.cpp:112-115). -/
def takeUpTo (h : MsgMem K T) (t : T) : List Addr → Res (List Addr × List Addr)
  | [] => .ub .emptyContainer
  | a :: as =>
    if TimeOps.le (h.imu a).ts t then do
      let (x, y) ← takeUpTo h t as
      pure (a :: x, y)
    else pure ([], a :: as)

/-- `DataLoader::PopPackedMessage` (data_loader.cpp:92-135).  The interpolated sample is a new object (line 119), which is in the output and in the queue afterwards (lines 126-128); otherwise
the last sample of the output is also put back (line 131). -/
def popPacked (outNull : Bool) (h : MsgMem K T) (l : ShLoader T) : Res (MsgMem K T × ShLoader T × ShCombined × Bool) :=
  if outNull then .ub .nullDeref else
  if l.imuMeas.isEmpty || l.featMeas.isEmpty then .ok (h, l, ⟨none, []⟩, false) else do
    let lastImu ← back l.imuMeas
    let feat ← front l.featMeas
    if TimeOps.le (h.imu lastImu).ts (h.feat feat).ts then .ok (h, l, ⟨none, []⟩, false) else
      let firstImu ← front l.imuMeas
      if TimeOps.le (h.feat feat).ts (h.imu firstImu).ts then .ok (h, { l with featMeas := l.featMeas.tail }, ⟨none, []⟩, false)
      else
        let (taken, rest) ← takeUpTo h (h.feat feat).ts l.imuMeas
        let left ← back taken
        if TimeOps.lt (TimeOps.tlit (1/1000000)) (TimeOps.fabs (TimeOps.sub (h.imu left).ts (h.feat feat).ts)) then
          let right ← front rest
          let mid := Addr.mid h.next
          let h' := { h.setImu mid (Loader.interpolate (h.feat feat).ts (h.imu left) (h.imu right)) with next := h.next + 1 }
          .ok (h', { l with featMeas := l.featMeas.tail, imuMeas := mid :: rest }, ⟨some feat, taken ++ [mid]⟩, true)
        else
          .ok (h, { l with featMeas := l.featMeas.tail, imuMeas := left :: rest }, ⟨some feat, taken⟩, true)

end ShLoader

/-- What a caller does: write to a message object (which includes creating it), or call a loader. -/
inductive ShOp (K T : Type _) where
  | writeImu (a : Addr) (m : ImuMsg K T)
  | writeFeat (a : Addr) (m : FeatMsg K T)
  | clear (i : Nat)
  | setPeriod (i : Nat) (p : T)
  | pushFeatures (i : Nat) (a : Option Addr)
  | pushImu (i : Nat) (a : Option Addr)
  | popOne (i : Nat)
  | popPacked (i : Nat) (outNull : Bool)

/-- What an action makes visible: return value, pointers and the objects behind them. -/
inductive ShOut (K T : Type _) where
  | none
  | pushedFeatures (ret : Bool) (m : FeatMsg K T)
  | pushedImu (ret : Bool) (m : ImuMsg K T)
  | popped (ret : Bool) (out : ShCombined) (seen : Combined K T)

/-- A process: statics, loaders and message objects. -/
structure ShProc (K T : Type _) where
  statics : LoaderStatics T
  loaders : Nat → ShLoader T
  mem : MsgMem K T

namespace ShProc

/-- A freshly started process. -/
def init (mem : MsgMem K T) : ShProc K T := ⟨{}, fun _ => .init, mem⟩

/-- Replace one loader. -/
def set (p : ShProc K T) (i : Nat) (l : ShLoader T) : Nat → ShLoader T := fun j => if j = i then l else p.loaders j

/-- One action (data_loader.cpp:8-135). -/
def step (p : ShProc K T) : ShOp K T → Res (ShProc K T × ShOut K T)
  | .writeImu a m => .ok ({ p with mem := p.mem.setImu a m }, .none)
  | .writeFeat a m => .ok ({ p with mem := p.mem.setFeat a m }, .none)
  | .clear i => .ok ({ p with loaders := p.set i (p.loaders i).clear }, .none)
  | .setPeriod i d => .ok ({ p with loaders := p.set i { p.loaders i with imuPeriod := d } }, .none)
  | .pushFeatures i a => do
    let (s, h, l, ret) ← (p.loaders i).pushFeatures p.statics p.mem a
    match a with
    | some a => .ok (⟨s, p.set i l, h⟩, .pushedFeatures ret (h.feat a))
    | none => .ub .nullDeref
  | .pushImu i a => do
    let (s, h, l, ret) ← (p.loaders i).pushImu p.statics p.mem a
    match a with
    | some a => .ok (⟨s, p.set i l, h⟩, .pushedImu ret (h.imu a))
    | none => .ub .nullDeref
  | .popOne i =>
    let (l, out, ret) := (p.loaders i).popOne p.mem
    .ok ({ p with loaders := p.set i l }, .popped ret out (p.mem.seen out))
  | .popPacked i n => do
    let (h, l, out, ret) ← (p.loaders i).popPacked n p.mem
    .ok ({ p with loaders := p.set i l, mem := h }, .popped ret out (h.seen out))

/-- A history of actions, with everything it made visible. -/
def run (p : ShProc K T) : List (ShOp K T) → Res (ShProc K T × List (ShOut K T))
  | [] => .ok (p, [])
  | op :: ops => do
    let (p', o) ← p.step op
    let (p'', os) ← p'.run ops
    .ok (p'', o :: os)

end ShProc
end Vio

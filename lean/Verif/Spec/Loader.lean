/-
Specification vocabulary for the data loader properties.  Nothing here refers to the loader's internals: only to the calls made
(`LOp`), to what they made visible (`LOut`) and to the time operations.
-/
import Verif.Model.Loader

set_option linter.unusedSectionVars false

namespace Vio.LoaderSpec

variable {K T : Type _} [Add K] [Sub K] [Mul K] [Neg K] [Div K] [Zero K] [One K] [ScalarFn K]
  [TimeOps T] [TimeCast T K]

/-- The constant time shift: raw time minus `-1`. -/
def shift (t : T) : T := TimeOps.sub t (TimeOps.tlit (-1))

/-- A time stamp that compares with itself, i.e. is not NaN. -/
def Valid (t : T) : Prop := TimeOps.le t t = true

/-- What a push call must do to the message object it was given. -/
def ShiftedBy : LOp K T → LOut K T → Prop
  | .pushImu _ m, o => ∃ r, o = .pushedImu r { m with ts := shift m.ts }
  | .pushFeatures _ m, o =>
    if m.ids.length = m.observes.length then ∃ r, o = .pushedFeatures r { m with ts := shift m.ts }
    else ∃ r, o = .pushedFeatures r m
  | _, _ => True

/-- Shifted times of all IMU pushes of a history, in order, whatever instance they went to. -/
def imuTimes : List (LOp K T) → List T
  | [] => []
  | .pushImu _ m :: ops => shift m.ts :: imuTimes ops
  | _ :: ops => imuTimes ops

/-- Shifted times of all well-formed features pushes of a history, in order. -/
def featTimes : List (LOp K T) → List T
  | [] => []
  | .pushFeatures _ m :: ops =>
    if m.ids.length = m.observes.length then shift m.ts :: featTimes ops else featTimes ops
  | _ :: ops => featTimes ops

/-- The acceptance rule: strictly newer than the previous push of that kind in the process; the first push is compared with
itself minus one second. -/
def accepts (prev : Option T) (t : T) : Bool :=
  match prev with
  | some p => TimeOps.lt p t
  | none => TimeOps.lt (TimeOps.sub t (TimeOps.tlit 1)) t

/-- The IMU messages a history makes loader `i` accept; `prev` is the previously pushed time. -/
def acceptedImu (i : Nat) : Option T → List (LOp K T) → List (ImuMsg K T)
  | _, [] => []
  | prev, .pushImu j m :: ops =>
    let rest := acceptedImu i (some (shift m.ts)) ops
    if j = i ∧ accepts prev (shift m.ts) = true then { m with ts := shift m.ts } :: rest else rest
  | prev, _ :: ops => acceptedImu i prev ops

/-- The features messages a history makes loader `i` accept. -/
def acceptedFeat (i : Nat) : Option T → List (LOp K T) → List (FeatMsg K T)
  | _, [] => []
  | prev, .pushFeatures j m :: ops =>
    if m.ids.length = m.observes.length then
      let rest := acceptedFeat i (some (shift m.ts)) ops
      if j = i ∧ accepts prev (shift m.ts) = true then { m with ts := shift m.ts } :: rest else rest
    else acceptedFeat i prev ops
  | prev, _ :: ops => acceptedFeat i prev ops

/-- IMU messages handed out by the `PopOneMessage` calls on loader `i`. -/
def deliveredImu (i : Nat) : List (LOp K T) → List (LOut K T) → List (ImuMsg K T)
  | .popOne j :: ops, .popped _ c :: outs =>
    (if j = i then c.imuMeas else []) ++ deliveredImu i ops outs
  | _ :: ops, _ :: outs => deliveredImu i ops outs
  | _, _ => []

/-- Features messages handed out by the `PopOneMessage` calls on loader `i`. -/
def deliveredFeat (i : Nat) : List (LOp K T) → List (LOut K T) → List (FeatMsg K T)
  | .popOne j :: ops, .popped _ c :: outs =>
    (if j = i then c.featMeas.toList else []) ++ deliveredFeat i ops outs
  | _ :: ops, _ :: outs => deliveredFeat i ops outs
  | _, _ => []

/-- The history neither clears loader `i` nor takes packets from it. -/
def NoClearNoPacked (i : Nat) (ops : List (LOp K T)) : Prop :=
  ∀ op ∈ ops, op ≠ .clear i ∧ ∀ b, op ≠ .popPacked i b

/-- All packet calls pass a non-null output. -/
def OutputsNonNull (ops : List (LOp K T)) : Prop :=
  ∀ op ∈ ops, ∀ i, op ≠ .popPacked i true

/-- The call concerns loader `i`. -/
def UsesOnly (i : Nat) : LOp K T → Prop
  | .clear j | .setPeriod j _ | .pushFeatures j _ | .pushImu j _ | .popOne j | .popPacked j _ => j = i

/-- The times of one output in emission order: features first, then IMU. -/
def outTimes (c : Combined K T) : List T :=
  (c.featMeas.toList.map (·.ts)) ++ (c.imuMeas.map (·.ts))

/-- Times made visible by one call. -/
def visibleTimes : LOut K T → List T
  | .popped _ c => outTimes c
  | _ => []

end Vio.LoaderSpec

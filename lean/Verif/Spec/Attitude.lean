/-
Vocabulary for the attitude estimator properties C24 - C31: histories of calls and what a caller may expect, without the model's helpers.
-/
import Verif.Model.Attitude

set_option linter.unusedSectionVars false

namespace Vio

/-- One call made on an `AttitudeEstimate` object.  A sample carries the gravity vector current at that call. -/
inductive AOp (K T : Type) where
  | sample (g accel gyro : Vec3 K) (ts : T)
  | clean (ts : T) (thr : K)
  | setBias (ba bg : Vec3 K)

variable {K T : Type} [Add K] [Sub K] [Mul K] [Neg K] [Div K] [Zero K] [One K] [ScalarFn K]
  [TimeOps T] [TimeCast T K]

namespace AttSpec

/-- Effect of one call. -/
def step (s : Att K T) : AOp K T → Res (Att K T)
  | .sample g a w t => .ok (s.propagate g a w t).1
  | .clean t thr => s.cleanOldItems t thr
  | .setBias ba bg => .ok (s.setBias ba bg)

/-- Effect of a history. -/
def run (s : Att K T) : List (AOp K T) → Res (Att K T)
  | [] => .ok s
  | op :: ops => do
    let s' ← step s op
    run s' ops

/-- Times never decrease along the queue. -/
def Sorted (l : List (AttItem K T)) : Prop := l.Pairwise (fun a b => TimeOps.le a.ts b.ts = true)

/-- Distance in time. -/
def tdist (a b : T) : T := TimeOps.fabs (TimeOps.sub a b)

/-- An item older than the threshold. -/
def Old (ts : T) (thr : K) (it : AttItem K T) : Prop :=
  ScalarFn.lt thr (TimeCast.toK (TimeOps.sub ts it.ts) : K) = true

end AttSpec
end Vio

/-
Vocabulary for C31 - C39: histories of the propagation queue and the discrete error-state transition matrices, stated block by block.
-/
import Verif.Model.Propagator

set_option linter.unusedSectionVars false

namespace Vio

/-- One thing that happens to the queue.  `correct` is what a filter update does at its end: it replaces state and covariance of the first item, the pose covariance and
the biases, and calls `Repropagate`. -/
inductive POp (K T : Type) where
  | sample (g a w : Vec3 K) (t : T)
  | reset (t thr : T)
  | reprop (g : Vec3 K)
  | correct (g : Vec3 K) (st : Motion K) (imuCov imuEx exCamCov : DMat K) (ba bg : Vec3 K)

variable {K T : Type} [Add K] [Sub K] [Mul K] [Neg K] [Div K] [Zero K] [One K] [ScalarFn K]
  [TimeOps T] [TimeCast T K]

namespace PropSpec

/-- Replace the estimate at the first item. -/
def correct (s : PropQueue K T) (st : Motion K) (imuCov imuEx exCamCov : DMat K) (ba bg : Vec3 K) : PropQueue K T :=
  match s.items with
  | [] => s
  | i :: rest => { s with items := { i with st := st, imuCov := imuCov, imuEx := imuEx } :: rest, exCamCov := exCamCov, biasA := ba, biasG := bg }

/-- Effect of one event. -/
def step (nExt : Nat) (s : PropQueue K T) : POp K T → PropQueue K T
  | .sample g a w t => s.propagate nExt g a w t
  | .reset t thr => (s.resetOrigin t thr).1
  | .reprop g => s.repropagate g
  | .correct g st c e x ba bg => (correct s st c e x ba bg).repropagate g

/-- Effect of a history. -/
def run (nExt : Nat) (s : PropQueue K T) (ops : List (POp K T)) : PropQueue K T := ops.foldl (step nExt) s

/-- Entry of the `3 x 3` identity. -/
def delta (i j : Nat) : K := if i = j then 1 else 0

/-- The discrete error-state transition matrix over a step of length `d` from attitude `R` with mid values `ma`, `mg`, by blocks (p v theta ba bg). -/
def Fspec (d : K) (R : Mat3 K) (ma mg : Vec3 K) (x y : Nat) : K :=
  let i := x % 3
  let j := y % 3
  match x / 3, y / 3 with
  | 0, 1 => d * delta i j
  | 1, 2 => ((Mat3.smul (-d) R).mul (Utility.skew ma)).get i j
  | 1, 3 => -d * R.get i j
  | 2, 2 => delta i j - d * (Utility.skew mg).get i j
  | 2, 4 => -(d * delta i j)
  | 0, 0 | 1, 1 | 3, 3 | 4, 4 => delta i j
  | _, _ => 0

/-- The noise input matrix, by blocks. -/
def Gspec (d : K) (R : Mat3 K) (x y : Nat) : K :=
  let i := x % 3
  let j := y % 3
  match x / 3, y / 3 with
  | 0, 0 => lit (1/2) * d * d * R.get i j
  | 1, 0 => d * R.get i j
  | 2, 1 | 3, 2 | 4, 3 => d * delta i j
  | _, _ => 0

/-- Sum of the time steps through the times `ts` from `t0`. -/
def elapsed (t0 : T) : List T → K
  | [] => 0
  | t :: ts => TimeCast.toK (TimeOps.sub t t0) + elapsed t ts

end PropSpec
end Vio

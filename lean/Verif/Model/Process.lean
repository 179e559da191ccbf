/-
Several backends in one process.

What they share: the function-local statics of the loader (src/data_manager/data_loader.cpp:27, 43), `IMUFullState::gravity_w`
(src/propagate/imu_state.cpp:7) and the configurator singleton (src/config/config.cpp:9-12).  The buffers that are static inside the update and the
initialisation (src/backend/backend_initialize.cpp:56-58, 96-97; src/update/multi_view_vision_update.cpp:116-118, 312, 422) are cleared or overwritten
before use; what they hold when a call begins is the junk memory of `Env`.

Simplification: calls do not overlap in time (no threads).
-/
import Verif.Model.Backend

set_option linter.unusedSectionVars false

namespace Vio

variable {K T : Type} [Add K] [Sub K] [Mul K] [Neg K] [Div K] [Zero K] [One K] [ScalarFn K]
  [TimeOps T] [TimeCast T K]

/-- A call on some backend. -/
inductive COp (K T : Type) where
  /-- `ConfigParams` (src/backend/backend_config.cpp:8-46); `c`: the configurator after `ReadConfigParams` -/
  | config (c : Config K)
  /-- any other call -/
  | call (op : BOp K T)

namespace BProc

/-- One call on a process with one backend. -/
def pstep (p : BProc K T) : COp K T → Res (BProc K T × BOut K T)
  | .config c => do
    let (b, g) ← p.b.applyConfig c
    .ok (⟨p.statics, g, b⟩, .ret true)
  | .call op => p.step op

/-- A history of calls on a process with one backend. -/
def prun (p : BProc K T) : List (COp K T) → Res (BProc K T × List (BOut K T))
  | [] => .ok (p, [])
  | op :: ops => do
    let (p, o) ← p.pstep op
    let (p, os) ← p.prun ops
    .ok (p, o :: os)

end BProc

/-- A process with several backends: loader statics, `gravity_w`, backends by number. -/
structure MProc (K T : Type) where
  statics : LoaderStatics T
  g : Vec3 K
  bs : Nat → Backend K T

namespace MProc

/-- The process as backend `i` sees it. -/
def view (p : MProc K T) (i : Nat) : BProc K T := ⟨p.statics, p.g, p.bs i⟩

/-- A call on backend `i`: it sees and changes its own backend and what all backends share. -/
def step (p : MProc K T) (i : Nat) (op : COp K T) : Res (MProc K T × BOut K T) := do
  let (q, o) ← (p.view i).pstep op
  .ok (⟨q.statics, q.g, fun j => if j = i then q.b else p.bs j⟩, o)

/-- A history of calls, each with the number of the backend it is made on. -/
def run (p : MProc K T) : List (Nat × COp K T) → Res (MProc K T × List (Nat × BOut K T))
  | [] => .ok (p, [])
  | (i, op) :: ops => do
    let (p, o) ← p.step i op
    let (p, os) ← p.run ops
    .ok (p, (i, o) :: os)

end MProc
end Vio

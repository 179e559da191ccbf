/-
Specification of two histories that make the same calls in different environments.
-/
import Verif.Model.Backend

set_option linter.unusedSectionVars false

namespace Vio

variable {K T : Type}

/-- The same call, up to the environment of a `RunOnce`. -/
inductive OpSame (ER : Env K → Env K → Prop) : BOp K T → BOp K T → Prop
  | imu (m) : OpSame ER (.imu m) (.imu m)
  | feat (m) : OpSame ER (.feat m) (.feat m)
  | run (env env' : Env K) (h : ER env env') : OpSame ER (.run env) (.run env')
  | runTest : OpSame ER .runTest .runTest
  | publishPropagate : OpSame ER .publishPropagate .publishPropagate
  | publishUpdate : OpSame ER .publishUpdate .publishUpdate
  | reset : OpSame ER .reset .reset

/-- The eigenvalue solver reads only the entries of the matrix it is given. -/
def Ext.EigReadsMatrix (ext : Ext K) : Prop :=
  ∀ a b : DMat K, a.rows = b.rows → a.cols = b.cols → (∀ i j, i < a.rows → j < a.cols → a.e i j = b.e i j) → ext.eigVal a = ext.eigVal b ∧ ext.eigVec a = ext.eigVec b

/-- Environments that differ only in the contents of uninitialised memory. -/
def MemoryOnly (env env' : Env K) : Prop := (∃ junk, env' = { env with junk := junk }) ∧ env.ext.EigReadsMatrix

/-- The outputs of a history: what its calls return, or the undefined behaviour. -/
def outputs [Add K] [Sub K] [Mul K] [Neg K] [Div K] [Zero K] [One K] [ScalarFn K] [TimeOps T] [TimeCast T K] (p : BProc K T) (ops : List (BOp K T)) : Res (List (BOut K T)) :=
  match p.run ops with
  | .ok r => .ok r.2
  | .ub t => .ub t

end Vio

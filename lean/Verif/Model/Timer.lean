/-
`TickTockTimer` (include/utility/tick_tock.hpp, src/utility/tick_tock.cpp).
-/
import Verif.Scalar

set_option linter.unusedSectionVars false

namespace Vio

/-- `TickTockTimer` (tick_tock.hpp:10-20).  `stamp` is the count of a `std::chrono::system_clock::time_point`: nanoseconds since the epoch in 64 bits. -/
structure Timer where
  stamp : ℤ
  deriving DecidableEq

namespace Timer
variable {K : Type} (T : Type) [TimeOps T] [TimeCast T K]

/-- The constructor (tick_tock.cpp:6-8); `now` is the reading of the system clock. -/
def new (now : ℤ) : Timer := ⟨now⟩

/-- `TickTockTimer::TickTock` (tick_tock.cpp:11-16); `now` is the reading of the system clock.  `none`: the difference of the two counts overflows, which is undefined behaviour.  The conversion to `duration<double>`
converts the count and divides it by the number of ticks in a second. -/
def tickTock (t : Timer) (now : ℤ) : Option (Timer × K) :=
  let diff := now - t.stamp
  if diff < -2 ^ 63 ∨ 2 ^ 63 ≤ diff then none else
  let secs : T := TimeOps.div (TimeOps.tlit diff) (TimeOps.tlit 1000000000)
  some (⟨now⟩, TimeCast.toK (TimeOps.mul secs (TimeOps.tlit 1000)))

/-- Calls in a row, with what they return. -/
def run (t : Timer) : List ℤ → Option (Timer × List K)
  | [] => some (t, [])
  | now :: rest => do
    let (t1, k) ← tickTock T t now
    let (t2, ks) ← run t1 rest
    some (t2, k :: ks)

end Timer
end Vio

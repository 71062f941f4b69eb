import Verif.Model.Binary64
/-!
# The clock: `time` and `ticks` of `system`

Numbers are those of `Model/Binary64.lean`.  `start` is `start_time` of the universe (`universe.py:98`), `now` what `time.time()` answers when the primitive runs.
-/
set_option autoImplicit false
namespace PySOM.Clock
open PySOM F64

/-- `int((now - start) * factor)`: the Python integer becomes a float first. -/
def sinceStart (factor : Int) (start now : F64.Float) : Except Err Int := do
  let f ← ofInt factor
  toInt (mul (sub now start) f)

/-- `_time` (`primitives/system_primitives.py:58-62`). -/
def primTime (start now : F64.Float) : Except Err Int := sinceStart 1000 start now

/-- `_ticks` (`primitives/system_primitives.py:65-69`). -/
def primTicks (start now : F64.Float) : Except Err Int := sinceStart 1000000 start now

end PySOM.Clock

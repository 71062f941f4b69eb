import Verif.Model.Prims
import Verif.Spec.Binary64
/-!
# Specification for operations of numbers in a running program
-/
set_option autoImplicit false
namespace PySOM.Mach
open PySOM F64.Spec

/-- What a comparison says of two numbers. -/
def Compare.says (x y : Ext) : Compare → Option Prop
  | .lt => some (x.lt y)
  | .le => some (¬ y.lt x)
  | .gt => some (y.lt x)
  | .ge => some (¬ x.lt y)
  | .eq => some (x = y)
  | .ne => some (x ≠ y)
  | .same => none

/-- What an arithmetic message does with two numbers that are converted to Doubles. -/
def Arith.onDoubles {F : Type} (fo : Floats F) (x y : F) : Arith → Option (Except Err F)
  | .plus => some (.ok (fo.add x y))
  | .minus => some (.ok (fo.sub x y))
  | .times => some (.ok (fo.mul x y))
  | .over => some (fo.div x y)
  | .mod => some (fo.fmod x y)
  | _ => none

/-- The arithmetic messages that need a number. -/
def Arith.needsNumber : Arith → Prop
  | .band | .xor | .shl | .shr => False
  | _ => True

/-- The comparisons that need a number. -/
def Compare.needsNumber : Compare → Prop
  | .lt | .le | .gt | .ge => True
  | _ => False

end PySOM.Mach

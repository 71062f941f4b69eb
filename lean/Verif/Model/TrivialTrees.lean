import Verif.Model.Trivial
import Verif.Model.Ast
/-!
# Model of calling trivial methods in the AST interpreter

`src/som/vmobjects/method_trivial.py` as it is called by `src/som/interpreter/ast/nodes/dispatch.py`.
-/
set_option autoImplicit false
namespace PySOM.BC
open PySOM

/-- `invoke_1`, `invoke_2` and `invoke_3` (`method_trivial.py:54-61, 95-113, 147-158, 192-204`) for a receiver and up to two arguments; from three arguments on, the call is
`invoke_args` (`dispatch.py:65-69, 91-92`), which the trivial methods do not have.  A `GlobalRead` of a global that was known has its association (`global_read_node.py:71-72`); associations
always have a value.  The stack of the bytecode interpreter is not used. -/
def ATriv.invoke {W E : Type} (K : Core W E) (t : ATriv) (args : List Val) : W → Res E → W → Prop :=
  if 4 ≤ args.length then K.fails
  else match t with
    | .lit v => (Triv.lit (.val v) : Triv Nat).invoke K args []
    | .globK n => fun w r w' =>
      match K.global w n with
      | some v => r = .val v ∧ w' = w
      | none => K.fails w r w'
    | .globU n l => (Triv.glob n l : Triv Nat).invoke K args []
    | .fldRead i l => (Triv.fldRead i l : Triv Nat).invoke K args []
    | .fldWrite i j => (Triv.fldWrite i j : Triv Nat).invoke K args []

end PySOM.BC

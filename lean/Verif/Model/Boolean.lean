import Verif.Model.Base
/-!
# Model of the primitives of `true` and `false`, and of identity

`src/som/primitives/true_primitives.py`, `src/som/primitives/false_primitives.py`, `src/som/primitives/object_primitives.py:11-14`.

An argument is a block or another object.  Evaluating a block (`get_method().invoke_1(block)`) is left to the rest of the system: a
primitive either answers an object or answers whatever a given block answers, in which case the block has been evaluated exactly once.
-/
set_option autoImplicit false
namespace PySOM.Boolean
open PySOM

/-- Objects, by identity (`is`); `true`, `false` and `nil` are unique objects (`vm/globals.py`). -/
inductive Obj where
  | tru
  | fls
  | nil
  | other (addr : Nat)
  deriving DecidableEq, Repr

/-- An argument: `isinstance(arg, _Block)` or not.  Blocks are objects too. -/
inductive Arg where
  | block (addr : Nat)
  | obj (o : Obj)
  deriving DecidableEq, Repr

/-- The object an argument is. -/
def Arg.toObj : Arg → Obj
  | .block a => .other a
  | .obj o => o

/-- What a primitive does: answer an object, or evaluate a block and answer what it answers. -/
inductive Out where
  | answer (o : Obj)
  | eval (addr : Nat)
  deriving DecidableEq, Repr

/-- The common part of `_and_and_if_true`, `_or_and_if_false`, `_if_true_if_false` (`true_primitives.py:31-35, 32-36`,
`false_primitives.py:21-25, 32-36`). -/
def valueOf : Arg → Out
  | .block a => .eval a
  | .obj o => .answer o

/-- `TruePrimitivesBase.install_primitives` (`true_primitives.py:39-53`) with the functions of 13-36; `none`: no primitive is installed
under that selector with that number of arguments. -/
def truePrim : String → List Arg → Option Out
  | "not", [] => some (.answer .fls)
  | "or:", [_] => some (.answer .tru)
  | "||", [_] => some (.answer .tru)
  | "and:", [b] => some (valueOf b)
  | "&&", [b] => some (valueOf b)
  | "ifTrue:", [b] => some (valueOf b)
  | "ifFalse:", [_] => some (.answer .nil)
  | "ifTrue:ifFalse:", [b, _] => some (valueOf b)
  | _, _ => none

/-- `FalsePrimitivesBase.install_primitives` (`false_primitives.py:39-51`) with the functions of 13-36.  `_if_true` is defined (28-29) but not
installed: `ifTrue:` is left to the class library. -/
def falsePrim : String → List Arg → Option Out
  | "not", [] => some (.answer .tru)
  | "and:", [_] => some (.answer .fls)
  | "&&", [_] => some (.answer .fls)
  | "or:", [b] => some (valueOf b)
  | "||", [b] => some (valueOf b)
  | "ifFalse:", [b] => some (valueOf b)
  | "ifTrue:ifFalse:", [_, c] => some (valueOf c)
  | _, _ => none

/-- The primitives of a boolean. -/
def prim (b : Bool) : String → List Arg → Option Out := if b then truePrim else falsePrim

/-- `_equals` of `Object` (`object_primitives.py:11-14`). -/
def identical (a b : Obj) : Obj := if a = b then .tru else .fls

end PySOM.Boolean

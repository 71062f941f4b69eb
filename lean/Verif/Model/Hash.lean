import Verif.Model.Numeric
import Verif.Model.Strings
/-!
# `=` and `hashcode` of the objects of the VM
-/
set_option autoImplicit false
namespace PySOM.Hash
open PySOM PySOM.Num

/-- What an object holds. -/
inductive Payload (F : Type) where
  | num (n : Num F)
  | str (s : List Char)
  | sym (s : List Char)
  | plain
  deriving DecidableEq, Repr

/-- A Python object: where it is, and what it holds.  `Integer(…)`, `Double(…)` and `String(…)` make a new one each time (`integer.py`, `double.py`, `string.py`: no cache; only the literals 0 and 1 are shared, `integer.py:313-314`). -/
structure Obj (F : Type) where
  addr : Nat
  val : Payload F
  deriving DecidableEq, Repr

variable {F : Type} (p : Platform) (fo : FloatOps F) (ident : Nat → Int) (hash : List Char → Int)

/-- The object as the primitives of numbers see it. -/
def Obj.asNum (o : Obj F) : Num F := match o.val with
  | .num n => n
  | _ => .obj o.addr

/-- The object as the primitives of texts see it. -/
def Obj.asText (o : Obj F) : Str.Obj := match o.val with
  | .str s => .str s
  | .sym s => .sym s
  | _ => .other o.addr

/-- `=`, by the class of the receiver: numbers (`integer.py:270-289`, `biginteger.py:221-237`, `double.py:88-92`), strings (`string_primitives.py:23-29`), symbols (`symbol_primitives.py:11-18`), and `is` for others (`_equals`, `object_primitives.py:11-14`).
Simplified: the primitive of `Object` is `==`; that `Object>>#=` is the same is the library's. -/
def equals (a b : Obj F) : Except Err Bool := match a.val with
  | .num l => primEquals p fo l b.asNum
  | .str _ => Str.equals a.asText b.asText
  | .sym _ => Str.symbolEquals a.asText b.asText
  | .plain => .ok (decide (a.addr = b.addr))

/-- `==`, by the class of the receiver: Integers, also big ones, are compared by value with Integers (`_equals_equals`, `integer_primitives.py:82-85`), all others by `is` (`object_primitives.py:11-14`). -/
def identical (a b : Obj F) : Except Err Bool :=
  let whole : Option (Num F) := match a.val with
    | .num (.int k) => some (.int k)
    | .num (.big k) => some (.big k)
    | _ => none
  match whole with
  | none => .ok (decide (a.addr = b.addr))
  | some l => match b.val with
    | .num (.int k) => primEquals p fo l (.int k)
    | .num (.big k) => primEquals p fo l (.big k)
    | _ => .ok false

/-- `hashcode`: `compute_hash` of the text for strings, and so for symbols (`string_primitives.py:51-52`, `objectmodel.py:24-26`), `compute_identity_hash` for all others (`object_primitives.py:30-33`, `objectmodel.py:20-22`).  The two functions of
Python are parameters.  Simplified: no class of the library has its own method `hashcode`. -/
def hashcode (a : Obj F) : Int := match a.val with
  | .str s => hash s
  | .sym s => hash s
  | _ => ident a.addr

end PySOM.Hash

import Verif.Model.Array
import Verif.Model.Gen
/-!
# Model of literals in the AST interpreter

`_get_object_for_current_literal` and `_literal_array` of `src/som/compiler/ast/parser.py`, and `LiteralNode` of
`src/som/interpreter/ast/nodes/literal_node.py`.  The literal arrays of the bytecode compiler are in `Model/Gen` (`cLit`).

`conv` maps literals and references to what `array.py` distinguishes: `obj n` may be a Double.  `ref` is the reference to an array.
-/
set_option autoImplicit false
namespace PySOM.BC
open PySOM

section
variable (conv : Val → Arr.Val) (ref : Nat → Val)

mutual
/-- `_get_object_for_current_literal` (`ast/parser.py:473-482`), `_literal_array` (500-507): done by the parser, once. -/
def astLit (h : Arr.Heap) : LitT → Except Err (Val × Arr.Heap)
  | .val v => .ok (v, h)
  | .arr es => do
    let (vs, h) ← astLits h es
    match h.step (.values vs) with
    | (h, .array a) => .ok (ref a, h)
    | (_, .error e) => .error e
    | _ => .error .other
/-- The loop (504-505). -/
def astLits (h : Arr.Heap) : LitTs → Except Err (List Arr.Val × Arr.Heap)
  | .nil => .ok ([], h)
  | .cons e es => do
    let (v, h) ← astLit h e
    let (vs, h) ← astLits h es
    .ok (conv v :: vs, h)
end

/-- `LiteralNode.execute` (`literal_node.py:11-12`): the value made by the parser. -/
def litExecute (value : Val) (h : Arr.Heap) : Val × Arr.Heap := (value, h)

end
end PySOM.BC

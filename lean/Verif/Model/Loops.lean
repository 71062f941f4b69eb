import Verif.Model.Numeric
import Verif.Model.Array
/-!
# Model of the loops

Counting loops `src/som/primitives/bc/integer_primitives.py:61-163` (the AST nodes
`interpreter/ast/nodes/specialized/to_do_node.py`, `to_by_do_node.py`, `down_to_do_node.py` contain the same loops), while
loops `src/som/primitives/block_primitives.py:37-60` and `interpreter/ast/nodes/specialized/literal_while.py:37-50`, array
iteration `src/som/primitives/array_primitives.py:50-87`.

A block is a state transformer on an arbitrary state `σ` that may raise anything (`E`, also a non-local return) and may
fail to finish (`none`).  A loop gets fuel; `none` also says that the fuel was not enough.
-/
set_option autoImplicit false
namespace PySOM.Loop
open PySOM

/-- Running a piece of code: not finished, raised, or finished with a value and a new state. -/
abbrev Res (E σ α : Type) := Option (Except E (α × σ))

/-- Machine arithmetic without overflow check: wraps around on RPython, exact on CPython. -/
def wrap (p : Platform) (i : Int) : Int :=
  match p with
  | .cpython => i
  | .rpython => (i + 2 ^ 63) % 2 ^ 64 - 2 ^ 63

/-- `_to_do_int`, `_to_do_double` (`bc/integer_primitives.py:61-78`; `to_do_node.py:53-62`, `97-106`; `to_by_do_node.py:55-65`,
`102-112`): `cont i` is the test `i <= top`. -/
def toDo {E σ : Type} (p : Platform) (step : Int) (cont : Int → Bool) (body : Int → σ → Res E σ Unit) : Nat → Int → σ → Res E σ Unit
  | 0, _, _ => none
  | n + 1, i, s =>
    if cont i then
      match body i s with
      | none => none
      | some (.error e) => some (.error e)
      | some (.ok (_, s)) => toDo p step cont body n (wrap p (i + step)) s
    else some (.ok ((), s))

/-- `_down_to_do_int`, `_down_to_do_double` (`bc/integer_primitives.py:131-148`; `down_to_do_node.py:25-34`, `69-78`): `cont i` is
the test `i >= bottom`. -/
def downToDo {E σ : Type} (p : Platform) (step : Int) (cont : Int → Bool) (body : Int → σ → Res E σ Unit) : Nat → Int → σ → Res E σ Unit
  | 0, _, _ => none
  | n + 1, i, s =>
    if cont i then
      match body i s with
      | none => none
      | some (.error e) => some (.error e)
      | some (.ok (_, s)) => downToDo p step cont body n (wrap p (i - step)) s
    else some (.ok ((), s))

/-- A loop limit (`isinstance(limit, Double)`); a Double comes with Python's comparisons of an int with it, `leI i` for
`i <= limit` and `geI i` for `i >= limit`. -/
inductive Limit where
  | int (i : Int)
  | dbl (leI geI : Int → Bool)

/-- What the loop primitives answer: the receiver. -/
def thenAnswer {E σ α : Type} (a : α) (r : Res E σ Unit) : Res E σ α := r.map fun x => x.map fun y => (a, y.2)

/-- `_to_do` (`bc/integer_primitives.py:81-90`). -/
def primToDo {E σ : Type} (p : Platform) (fuel : Nat) (rcvr : Int) (limit : Limit) (body : Int → σ → Res E σ Unit) (s : σ) : Res E σ Int :=
  thenAnswer rcvr <| match limit with
    | .dbl leI _ => toDo p 1 leI body fuel rcvr s
    | .int top => toDo p 1 (fun i => decide (i ≤ top)) body fuel rcvr s

/-- `_to_by_do` (`bc/integer_primitives.py:93-126`). -/
def primToByDo {E σ : Type} (p : Platform) (fuel : Nat) (rcvr : Int) (limit : Limit) (step : Int) (body : Int → σ → Res E σ Unit) (s : σ) :
    Res E σ Int :=
  thenAnswer rcvr <| match limit with
    | .dbl leI _ => toDo p step leI body fuel rcvr s
    | .int top => toDo p step (fun i => decide (i ≤ top)) body fuel rcvr s

/-- `_down_to_do` (`bc/integer_primitives.py:151-160`). -/
def primDownToDo {E σ : Type} (p : Platform) (fuel : Nat) (rcvr : Int) (limit : Limit) (body : Int → σ → Res E σ Unit) (s : σ) : Res E σ Int :=
  thenAnswer rcvr <| match limit with
    | .dbl _ geI => downToDo p 1 geI body fuel rcvr s
    | .int bottom => downToDo p 1 (fun i => decide (i ≥ bottom)) body fuel rcvr s

/-- What a condition can answer, as far as loops distinguish it. -/
inductive Cond where
  | true
  | false
  | other
  deriving DecidableEq, Repr

/-- `_while_loop` (`block_primitives.py:37-52`): anything but the wanted value stops the loop. -/
def whilePrim {E σ : Type} (want : Cond) (cond : σ → Res E σ Cond) (body : σ → Res E σ Unit) : Nat → σ → Res E σ Unit
  | 0, _ => none
  | n + 1, s =>
    match cond s with
    | none => none
    | some (.error e) => some (.error e)
    | some (.ok (c, s)) =>
      if c = want then
        match body s with
        | none => none
        | some (.error e) => some (.error e)
        | some (.ok (_, s)) => whilePrim want cond body n s
      else some (.ok ((), s))

/-- `WhileInlinedNode.execute` (`literal_while.py:37-50`): a non-Boolean raises `NotImplementedError`. -/
def whileNode {E σ : Type} (notImplemented : E) (expected unexpected : Cond) (cond : σ → Res E σ Cond) (body : σ → Res E σ Unit) :
    Nat → σ → Res E σ Unit
  | 0, _ => none
  | n + 1, s =>
    match cond s with
    | none => none
    | some (.error e) => some (.error e)
    | some (.ok (c, s)) =>
      if c = expected then
        match body s with
        | none => none
        | some (.error e) => some (.error e)
        | some (.ok (_, s)) => whileNode notImplemented expected unexpected cond body n s
      else if c = unexpected then some (.ok ((), s))
      else some (.error notImplemented)

/-- `_do` (`array_primitives.py:76-87`).  The block can change the array while it is iterated, so it is read from the state
each time; the length is read once. -/
def arrayDo {E σ : Type} (raise : Err → E) (arr : σ → Arr.Store) (body : Arr.Val → σ → Res E σ Unit) (length : Int) : Nat → Int → σ → Res E σ Unit
  | 0, _, _ => none
  | n + 1, i, s =>
    if i < length then
      match Arr.getIdx (arr s) i with
      | .error e => some (.error (raise e))
      | .ok v =>
        match body v s with
        | none => none
        | some (.error e) => some (.error e)
        | some (.ok (_, s)) => arrayDo raise arr body length n (i + 1) s
    else some (.ok ((), s))

/-- `_do_indexes` (`array_primitives.py:52-62`). -/
def arrayDoIndexes {E σ : Type} (body : Int → σ → Res E σ Unit) (length : Int) : Nat → Int → σ → Res E σ Unit
  | 0, _, _ => none
  | n + 1, i, s =>
    if i ≤ length then
      match body i s with
      | none => none
      | some (.error e) => some (.error e)
      | some (.ok (_, s)) => arrayDoIndexes body length n (i + 1) s
    else some (.ok ((), s))

/-- `do:` and `doIndexes:` as sends: the Python functions have no `return`, so the value pushed on the stack (or answered by
the AST node) is `None`, which is not a SOM object (`primitive.py`, `BinaryPrimitive.invoke_2`). -/
def primArrayDo {E σ : Type} (raise : Err → E) (arr : σ → Arr.Store) (body : Arr.Val → σ → Res E σ Unit) (fuel : Nat) (s : σ) : Res E σ Arr.Val :=
  thenAnswer .pyNone (arrayDo raise arr body (Arr.getSize (arr s)) fuel 0 s)
def primArrayDoIndexes {E σ : Type} (arr : σ → Arr.Store) (body : Int → σ → Res E σ Unit) (fuel : Nat) (s : σ) : Res E σ Arr.Val :=
  thenAnswer .pyNone (arrayDoIndexes body (Arr.getSize (arr s)) fuel 1 s)

end PySOM.Loop

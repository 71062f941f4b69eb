import Verif.Model.Cond
/-!
# Model of call sites that specialise themselves

`src/som/interpreter/ast/nodes/message/uninitialized_node.py:27-78`, the specialised nodes `interpreter/ast/nodes/specialized/to_do_node.py`,
`to_by_do_node.py`, `down_to_do_node.py`, `if_true_false.py`, and the replacement of nodes `src/rtruffle/node.py:43-48`, `abstract_node.py:19-49`.

Evaluating the receiver and the arguments may execute the same call site again (a recursive method), so executions of a site overlap: every execution works with the
node that was at the place when it began, and a node that has already been replaced stays out of the tree (the `TODO` at `abstract_node.py:41-45`).  Sends through the
inline cache of a site do what a lookup in the class of the receiver does (C37); they are an action of the system here.  Integers are `Val.int`; what other objects are is
given by a function.
-/
set_option autoImplicit false
namespace PySOM.Site
open PySOM PySOM.BC PySOM.Cond

/-- What the specialisations distinguish (`isinstance`).  A Double comes with Python's comparisons of an int with it. -/
inductive Kind where
  | int (i : Int)
  | dbl (leI geI : Int → Bool)
  | block
  | other

section
variable {W E : Type}

/-- The rest of the system: kinds of objects, message sends with lookup, evaluation of a block (`invoke_1`, `invoke_2` of its method) and Python exceptions. -/
structure Sys (W E : Type) where
  obj : Nat → Kind
  send : Sel → Val → List Val → Src.Rel W E
  invoke : Val → List Val → Src.Rel W E
  err : Err → E

/-- `isinstance` of a value. -/
def Sys.kind (S : Sys W E) : Val → Kind
  | .int i => .int i
  | .obj n => S.obj n
  | _ => .other

/-- The loops `while i <= top: invoke_2(block, Integer(i)); i += step` (`to_do_node.py:53-62, 97-106`, `to_by_do_node.py:55-65, 102-112`) and
`while i >= bottom: …; i -= 1` (`down_to_do_node.py:25-34, 69-78`): `cont` is the test.  Integers are exact (CPython). -/
inductive Count (cont : Int → Bool) (step : Int) (body : Int → Src.Rel W E) : Int → Src.Rel W E where
  | exit (i : Int) (w : W) (hc : cont i = false) : Count cont step body i w (.val .nil) w
  | stop (i : Int) (w w1 : W) (r : Src.Res E) (hc : cont i = true) (hb : body i w r w1) (hr : r.stops) : Count cont step body i w r w1
  | next (i : Int) (w w1 w2 : W) (v : Val) (r : Src.Res E) (hc : cont i = true) (hb : body i w (.val v) w1) (hn : Count cont step body (i + step) w1 r w2) :
      Count cont step body i w r w2

/-- The loop over a block, answering the receiver. -/
def Sys.loop (S : Sys W E) (cont : Int → Bool) (step lo : Int) (rcvr block : Val) : Src.Rel W E :=
  Src.bind (Count cont step (fun i => S.invoke block [.int i]) lo) fun _ => Src.pure rcvr

/-- The nodes at a call site.  `ifOne b` is the `IfNode` with the condition `trueObject` or `falseObject`. -/
inductive Node where
  | uninit
  | toInt
  | toDbl
  | byInt
  | byDbl
  | downInt
  | downDbl
  | ifElse
  | ifOne (cond : Bool)
  | send
  deriving DecidableEq, Repr

def boolVal (b : Bool) : Val := if b then .tru else .fls

/-- `IntToIntDoNode.can_specialize` (`to_do_node.py:64-72`). -/
def Sys.canToInt (S : Sys W E) (sel : Sel) (rcvr : Val) : List Val → Bool
  | a :: b :: _ => match S.kind a, S.kind rcvr, S.kind b with | .int _, .int _, .block => decide (sel = "to:do:".toList) | _, _, _ => false
  | _ => false

/-- `IntToDoubleDoNode.can_specialize` (`to_do_node.py:109-117`). -/
def Sys.canToDbl (S : Sys W E) (sel : Sel) (rcvr : Val) : List Val → Bool
  | a :: b :: _ => match S.kind a, S.kind rcvr, S.kind b with | .dbl _ _, .int _, .block => decide (sel = "to:do:".toList) | _, _, _ => false
  | _ => false

/-- `IntToIntByDoNode.can_specialize` (`to_by_do_node.py:67-76`). -/
def Sys.canByInt (S : Sys W E) (sel : Sel) (rcvr : Val) : List Val → Bool
  | [a, b, c] => match S.kind a, S.kind rcvr, S.kind b, S.kind c with | .int _, .int _, .int _, .block => decide (sel = "to:by:do:".toList) | _, _, _, _ => false
  | _ => false

/-- `IntToDoubleByDoNode.can_specialize` (`to_by_do_node.py:114-123`). -/
def Sys.canByDbl (S : Sys W E) (sel : Sel) (rcvr : Val) : List Val → Bool
  | [a, b, c] => match S.kind a, S.kind rcvr, S.kind b, S.kind c with | .dbl _ _, .int _, .int _, .block => decide (sel = "to:by:do:".toList) | _, _, _, _ => false
  | _ => false

/-- `IntDownToIntDoNode.can_specialize` (`down_to_do_node.py:36-44`). -/
def Sys.canDownInt (S : Sys W E) (sel : Sel) (rcvr : Val) : List Val → Bool
  | a :: b :: _ => match S.kind a, S.kind rcvr, S.kind b with | .int _, .int _, .block => decide (sel = "downTo:do:".toList) | _, _, _ => false
  | _ => false

/-- `IntDownToDoubleDoNode.can_specialize` (`down_to_do_node.py:79-87`). -/
def Sys.canDownDbl (S : Sys W E) (sel : Sel) (rcvr : Val) : List Val → Bool
  | a :: b :: _ => match S.kind a, S.kind rcvr, S.kind b with | .dbl _ _, .int _, .block => decide (sel = "downTo:do:".toList) | _, _, _ => false
  | _ => false

/-- `IfTrueIfFalseNode.can_specialize` (`if_true_false.py:39-45`). -/
def canIfElse (sel : Sel) (rcvr : Val) (args : List Val) : Bool :=
  decide (args.length = 2) && (decide (rcvr = .tru) || decide (rcvr = .fls)) && decide (sel = "ifTrue:ifFalse:".toList)

/-- `IfNode.can_specialize` (`if_true_false.py:87-94`). -/
def canIf (sel : Sel) (rcvr : Val) (args : List Val) : Bool :=
  decide (args.length = 1) && (decide (rcvr = .tru) || decide (rcvr = .fls)) && (decide (sel = "ifTrue:".toList) || decide (sel = "ifFalse:".toList))

/-- `UninitializedMessageNode._specialize` (32-78). -/
def Sys.specialize (S : Sys W E) (sel : Sel) (rcvr : Val) (args : List Val) : Node :=
  if args = [] then .send
  else if S.canToInt sel rcvr args then .toInt
  else if S.canToDbl sel rcvr args then .toDbl
  else if S.canByInt sel rcvr args then .byInt
  else if S.canByDbl sel rcvr args then .byDbl
  else if S.canDownInt sel rcvr args then .downInt
  else if S.canDownDbl sel rcvr args then .downDbl
  else if canIfElse sel rcvr args then .ifElse
  else if canIf sel rcvr args then .ifOne (decide (sel = "ifTrue:".toList))
  else .send

/-- A Python exception. -/
def Sys.fails (S : Sys W E) (e : Err) : Src.Rel W E := raises S.err e

/-- A block is evaluated, everything else is answered. -/
def Sys.valueIfBlock (S : Sys W E) (v : Val) : Src.Rel W E :=
  match S.kind v with
  | .block => S.invoke v []
  | _ => Src.pure v

/-- `_do_loop`: `body_block.get_method()`, `rcvr.get_embedded_integer()` and `limit.get_embedded_integer()` or `get_embedded_double()` are missing in objects of other
classes. -/
def Sys.doLoop (S : Sys W E) (dbl down : Bool) (rcvr limit step block : Val) : Src.Rel W E :=
  match S.kind block, S.kind rcvr, S.kind limit, S.kind step, dbl with
  | .block, .int lo, .int hi, .int by', false => S.loop (fun i => if down then decide (hi ≤ i) else decide (i ≤ hi)) by' lo rcvr block
  | .block, .int lo, .dbl leI geI, .int by', true => S.loop (if down then geI else leI) by' lo rcvr block
  | _, _, _, _, _ => S.fails .attribute

/-- `execute_evaluated` of the nodes (`to_do_node.py:29-31`, `to_by_do_node.py:31-33`, `if_true_false.py:24-37, 76-85`, `generic_node.py`).  An argument that is missing in
the list cannot happen: the parser gives as many as the selector has. -/
def Sys.exec (S : Sys W E) (sel : Sel) (rcvr : Val) (args : List Val) : Node → Src.Rel W E
  | .uninit => S.fails .other
  | .toInt => match args with | [a, b] => S.doLoop false false rcvr a (.int 1) b | _ => S.fails .index
  | .toDbl => match args with | [a, b] => S.doLoop true false rcvr a (.int 1) b | _ => S.fails .index
  | .byInt => match args with | [a, b, c] => S.doLoop false false rcvr a b c | _ => S.fails .index
  | .byDbl => match args with | [a, b, c] => S.doLoop true false rcvr a b c | _ => S.fails .index
  | .downInt => match args with | [a, b] => S.doLoop false true rcvr a (.int (-1)) b | _ => S.fails .index
  | .downDbl => match args with | [a, b] => S.doLoop true true rcvr a (.int (-1)) b | _ => S.fails .index
  | .ifElse => match args with
    | [a, b] => if rcvr = .tru then S.valueIfBlock a else if rcvr = .fls then S.valueIfBlock b else S.fails .assertion
    | _ => S.fails .index
  | .ifOne c => match args with
    | [a] => if rcvr = boolVal c then S.valueIfBlock a else if rcvr = .fls ∨ rcvr = .tru then Src.pure .nil else S.fails .assertion
    | _ => S.fails .index
  | .send => S.send sel rcvr args

/-- A call site: the node that is at its place in the tree, and how many nodes have been there.  `open_` are the executions that have begun: each with the number of its node. -/
structure St where
  node : Node
  gen : Nat
  open_ : List (Node × Nat)

def St.init : St := ⟨.uninit, 0, []⟩

/-- What happens at a call site: an execution begins, or the innermost one has evaluated the receiver and the arguments (and then sends the message), or it ends by an
exception before that. -/
inductive Ev where
  | enter
  | run (rcvr : Val) (args : List Val)
  | leave

/-- One event; the second component says which node executes. -/
def Sys.step (S : Sys W E) (sel : Sel) (s : St) : Ev → St × Option Node
  | .enter => ({ s with open_ := (s.node, s.gen) :: s.open_ }, none)
  | .leave => ({ s with open_ := s.open_.tail }, none)
  | .run rcvr args =>
    match s.open_ with
    | [] => (s, none)
    | (nd, g) :: rest =>
      if nd = .uninit then
        let nd' := S.specialize sel rcvr args
        -- `self.replace`: only if the parent still has this node
        if s.gen = g then (⟨nd', s.gen + 1, rest⟩, some nd') else ({ s with open_ := rest }, some nd')
      else ({ s with open_ := rest }, some nd)

/-- The state after some events. -/
def Sys.after (S : Sys W E) (sel : Sel) : List Ev → St → St
  | [], s => s
  | e :: es, s => S.after sel es (S.step sel s e).1

end
end PySOM.Site

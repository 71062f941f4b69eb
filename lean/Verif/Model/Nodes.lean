import Verif.Model.Base
/-!
# Model of the trees that rewrite themselves (`src/rtruffle/node.py`, `src/rtruffle/abstract_node.py`)

The nodes of the syntax-tree interpreter live in a heap; a node has children and one pointer to a parent.  While a program runs, the nodes
the parser makes for reads, writes, sends and globals replace themselves by specialised ones.  A run is a list of events: a method is
entered, a child of the node that is running is executed, the node replaces itself, an execution ends.  What the nodes compute and which of
these events comes next is left open, so every program, every argument and every nesting of calls is among the runs.

Simplified: the child slots of a node (`_child_nodes_`) are one list in the order in which the constructors take them.  A node carries `src`,
which stands for everything it takes over from the node it replaces (its part of the program text, selector, variable).  The trees are those
left by the parser, after literal blocks have been inlined.
-/
set_option autoImplicit false
namespace PySOM.Nodes

/-- The classes of nodes as far as they are replaced: `_Invokable` (`method_ast.py:63-73`), nodes that never are, the ones that replace
themselves, `UninitializedReadNode`, `UninitializedWriteNode` (`variable_node.py:14-30`, `63-83`), `UninitializedMessageNode`
(`uninitialized_node.py:27-78`), `_UninitializedGlobalReadNode` (`global_read_node.py:30-50`), and what they are replaced by. -/
inductive Form where
  | method | plain | read | write | send | global | special
  deriving DecidableEq, Repr

/-- The classes that have a `_specialize` method. -/
def Form.fresh : Form → Bool
  | .read => true
  | .write => true
  | .send => true
  | .global => true
  | _ => false

/-- `Node` (`rtruffle/node.py:11-15`). -/
structure Node (α : Type) where
  src : α
  form : Form
  kids : List Nat
  parent : Option Nat
  deriving DecidableEq, Repr

abbrev Heap (α : Type) := List (Node α)

variable {α : Type}

/-- `adopt_child` (`rtruffle/node.py:23-27`). -/
def adopt (h : Heap α) (p c : Nat) : Heap α := h.modify c fun n => { n with parent := some p }

/-- `adopt_children` (`rtruffle/node.py:29-41`); the copy of the list is not seen by anyone. -/
def adoptAll (h : Heap α) (p : Nat) (cs : List Nat) : Heap α := cs.foldl (fun h c => adopt h p c) h

/-- A constructor of a node: the children are adopted, except by `UninitializedWriteNode` (`variable_node.py:67-71`). -/
def make (h : Heap α) (src : α) (form : Form) (kids : List Nat) : Heap α :=
  if form = .write then h ++ [⟨src, form, kids, none⟩] else adoptAll (h ++ [⟨src, form, kids, none⟩]) h.length kids

/-- `replace_child_with` (`rtruffle/abstract_node.py:23-49`): every slot that holds the old child gets the new one; nothing is said if there
is none. -/
def replaceChildWith (h : Heap α) (p old new : Nat) : Heap α :=
  h.modify p fun n => { n with kids := n.kids.map fun c => if c = old then new else c }

/-- `replace` (`rtruffle/node.py:43-48`); without a parent `None.replace_child_with` is an `AttributeError`. -/
def replace (h : Heap α) (old new : Nat) : Except Err (Heap α) :=
  match h[old]? with
  | none => .error .other
  | some n =>
    match n.parent with
    | none => .error .attribute
    | some p => .ok (adopt (replaceChildWith h p old new) p new)

/-- `_specialize` (`variable_node.py:25-28`, `76-81`, `uninitialized_node.py:32-78` with the `specialize_node` of the loops and conditionals,
`global_read_node.py:47-50`): a node of another class with the same children takes the place.  The answer is the new node. -/
def specialize (h : Heap α) (n : Nat) : Except Err (Nat × Heap α) :=
  match h[n]? with
  | none => .error .other
  | some nd =>
    if nd.form.fresh then (replace (make h nd.src .special nd.kids) n h.length).map fun h' => (h.length, h')
    else .error .other

/-! ## The trees the parser makes -/

mutual
/-- An expression of the text: what it is, the class of its node, its parts. -/
inductive Expr (α : Type) where
  | mk (src : α) (form : Form) (kids : Exprs α)
inductive Exprs (α : Type) where
  | nil
  | cons (e : Expr α) (es : Exprs α)
end

mutual
/-- The nodes of an expression are made from the inside out (`compiler/ast/parser.py`). -/
def Expr.build (h : Heap α) : Expr α → Nat × Heap α
  | .mk src form kids => ((kids.build h).2.length, make (kids.build h).2 src form (kids.build h).1)
def Exprs.build (h : Heap α) : Exprs α → List Nat × Heap α
  | .nil => ([], h)
  | .cons e es => ((e.build h).1 :: (es.build (e.build h).2).1, (es.build (e.build h).2).2)
end

/-- The methods of a program, each with the name under which it is entered (`method_ast.py:88-121`, `63-73`). -/
def load (h : Heap α) : List (α × Expr α) → Heap α
  | [] => h
  | (a, e) :: ms => load (make (e.build h).2 a .method [(e.build h).1]) ms

/-! ## Runs -/

/-- The heap and the nodes whose `execute` is running, the innermost first. -/
structure State (α : Type) where
  heap : Heap α
  stack : List Nat

inductive Op where
  /-- A method is invoked: `node.invokable.expr_or_sequence.execute(frame)` (`method_ast.py:138-145`). -/
  | enter (r : Nat)
  /-- The running node executes one of its children: `self._rcvr_expr.execute(frame)` and the like.  The child is looked up in the slot at
  that moment.  An `UninitializedWriteNode` does not execute its child, it replaces itself first (`variable_node.py:73-74`). -/
  | child (i : Nat)
  /-- The running node replaces itself and the new node goes on (`execute_evaluated` or `execute` of the answer of `_specialize`). -/
  | specialize
  /-- The running node answers or raises. -/
  | leave
  deriving DecidableEq, Repr

/-- One event.  The error `other` says that the event is none of this state. -/
def step (s : State α) : Op → Except Err (State α)
  | .enter r =>
    match s.heap[r]? with
    | none => .error .other
    | some n =>
      if n.form = .method then
        match n.kids with
        | b :: _ => .ok { s with stack := b :: s.stack }
        | [] => .error .other
      else .error .other
  | .child i =>
    match s.stack with
    | [] => .error .other
    | x :: _ =>
      match s.heap[x]? with
      | none => .error .other
      | some n =>
        if n.form = .write then .error .other
        else
          match n.kids[i]? with
          | none => .error .other
          | some c => .ok { s with stack := c :: s.stack }
  | .specialize =>
    match s.stack with
    | [] => .error .other
    | x :: xs => (specialize s.heap x).map fun r => ⟨r.2, r.1 :: xs⟩
  | .leave =>
    match s.stack with
    | [] => .error .other
    | _ :: xs => .ok { s with stack := xs }

/-- A run: its events in order. -/
def run (s : State α) : List Op → Except Err (State α)
  | [] => .ok s
  | o :: os => do
    let s ← step s o
    run s os

end PySOM.Nodes

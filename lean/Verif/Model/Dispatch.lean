import Verif.Model.Array
/-!
# Model of message dispatch

Call sites with inline caches: `_lookup` and the send instructions of the bytecode interpreter (`src/som/interpreter/bc/interpreter.py`),
`BcAbstractMethod.drop_old_inline_cache_entries` (`src/som/vmobjects/method_bc.py`), the message nodes of the AST interpreter
(`src/som/interpreter/ast/nodes/message/generic_node.py`), dispatch nodes (`src/som/interpreter/ast/nodes/dispatch.py`), and `perform:`
(`src/som/primitives/object_primitives.py`).

Layouts, classes, methods, selectors and objects are identified by numbers.  Looking up a method in a class is a function
`look : Cid → Sel → Option Meth`: `C17_lookup_repeatable` shows that memoisation in classes does not change what is found.  A call site
belongs to one selector.  What the called method does is not modelled: the model gives the call that is made.  The linked list of
dispatch nodes, to which nothing else refers, is a list.
-/
set_option autoImplicit false
namespace PySOM.Disp
open PySOM

abbrev Lid := Nat
abbrev Cid := Nat
abbrev Meth := Nat
abbrev Sel := Nat
abbrev Oid := Nat

/-- `ObjectLayout` (`object_layout.py:26-33`): `for_class` and `is_latest`. -/
structure Layout where
  cls : Cid
  latest : Bool
  deriving DecidableEq, Repr

/-- All layouts made so far; `get_layout_for_instances` of every class; the layout of every object. -/
structure World where
  layouts : List Layout
  cur : Cid → Lid
  objs : Oid → Lid

def upd {A : Type} (f : Nat → A) (i : Nat) (a : A) : Nat → A := fun j => if j = i then a else f j

/-- `layout.is_latest` -/
def World.latest (w : World) (l : Lid) : Bool := match w.layouts[l]? with | some x => x.latest | none => false

/-- `layout.for_class` -/
def World.cls (w : World) (l : Lid) : Cid := match w.layouts[l]? with | some x => x.cls | none => 0

/-- `update_layout_to_match_class` (`object_with_layout.py:80-91`); what happens to the fields is in `Model/Object`. -/
def World.sync (w : World) (o : Oid) : World := { w with objs := upd w.objs o (w.cur (w.cls (w.objs o))) }

/-- The layout of a class changes because a field of one of its instances does (`update_layout_with_initialized_field`,
`update_layout_with_generalized_field`, `object_with_layout.py:114-134`; `with_initialized_field`, `with_generalized_field`,
`object_layout.py:62-98`): the old layout of the class is no longer the latest. -/
def World.relayout (w : World) (o : Oid) : World :=
  let c := w.cls (w.objs o)
  let old := w.cur c
  { layouts := (w.layouts.modify old fun x => { x with latest := false }) ++ [⟨c, true⟩],
    cur := upd w.cur c w.layouts.length,
    objs := upd w.objs o w.layouts.length }

/-- Dispatch nodes (`dispatch.py`): `CachedDispatchNode` (79-83), `CachedDnuNode` (102-115), `GenericDispatchNode` (19-30). -/
inductive Node where
  | cached (m : Meth)
  | dnu
  | generic
  deriving DecidableEq, Repr

/-- A node with its `expected_layout`. -/
structure Entry where
  layout : Option Lid
  node : Node
  deriving DecidableEq, Repr

abbrev Site := List Entry

/-- The call that is made: a method, or `doesNotUnderstand:arguments:` with the selector and an array, which is made by the given
array operations. -/
inductive Call where
  | invoke (m : Meth) (o : Oid) (args : List Arr.Val)
  | dnu (o : Oid) (s : Sel) (array : List Arr.Op)
  deriving DecidableEq, Repr

/-- `INLINE_CACHE_SIZE` (`dispatch.py:7`) -/
def cacheSize : Nat := 6

/-- `lookup_and_send_3(…, Array.from_values(args), "doesNotUnderstand:arguments:")` (`dispatch.py:39-46`, `117-132`).  `Array.from_size(0)`
for a message without arguments (118) is the same array as that of no values. -/
def sendDnu (o : Oid) (s : Sel) (args : List Arr.Val) : Call := .dnu o s [.values args]

/-- The loop of `send_does_not_understand` (`interpreter.py:872-881`): the arguments are taken from the stack from the last to the first. -/
def fillDown : List Arr.Val → Nat → List Arr.Op
  | _, 0 => []
  | stack, i + 1 =>
    match stack with
    | v :: stack => .put 0 (i + 1 : Nat) v :: fillDown stack i
    | [] => []

/-- `send_does_not_understand` (`interpreter.py:867-887`); the operand stack is a list with its top first. -/
def sendDnuN (o : Oid) (s : Sel) (numArgs : Nat) (stack : List Arr.Val) : Call := .dnu o s (.new numArgs :: fillDown stack numArgs)

section
variable (look : Cid → Sel → Option Meth) (s : Sel)

/-- `dispatch_1`, `dispatch_2`, `dispatch_3`, `dispatch_args` of the three kinds of nodes (`dispatch.py:48-76`, `85-96`, `117-132`). -/
def dispatch (w : World) (n : Node) (o : Oid) (args : List Arr.Val) : Call :=
  match n with
  | .cached m => .invoke m o args
  | .dnu => sendDnu o s args
  | .generic =>
    match look (w.cls (w.objs o)) s with
    | some m => .invoke m o args
    | none => sendDnu o s args

/-- `dispatch_n_bc` (`dispatch.py:70-76`, `98-99`); `CachedDnuNode` has no such method, and the bytecode interpreter makes no such nodes.
The method finds its arguments on the stack (`C27_activation_bc_n`): here the list of them. -/
def dispatchN (w : World) (n : Node) (o : Oid) (args : List Arr.Val) : Except Err Call :=
  match n with
  | .cached m => .ok (.invoke m o args)
  | .dnu => .error .attribute
  | .generic =>
    match look (w.cls (w.objs o)) s with
    | some m => .ok (.invoke m o args)
    | none => .ok (sendDnuN o s args.length args.reverse)

/-! ## Bytecode interpreter -/

/-- `_lookup` (`interpreter.py:827-858`): the node to use and the cache afterwards.  The loop that computes the size of the cache starts
with `cache`, which is `None` after the first loop: the size is always 0. -/
def bcLookup (w : World) (site : Site) (l : Lid) : Node × Site :=
  match site.find? (fun e => e.layout == some l) with
  | some e => (e.node, site)
  | none =>
    match site.head? with
    | some ⟨none, n⟩ => (n, site)
    | _ =>
      let size := 0
      if size ≤ cacheSize then
        match look (w.cls l) s with
        | some m => (.cached m, ⟨some l, .cached m⟩ :: site)
        | none => (.generic, [⟨none, .generic⟩])
      else (.generic, [⟨none, .generic⟩])

/-- `drop_old_inline_cache_entries` (`method_bc.py:156-171`): `cache.expected_layout.is_latest` fails for a generic node. -/
def dropOld (w : World) : Site → Except Err Site
  | [] => .ok []
  | e :: es =>
    match e.layout with
    | none => .error .attribute
    | some l => do
      let r ← dropOld w es
      .ok (if w.latest l then e :: r else r)

/-- `send_1`, `send_2`, `send_3`, `send_n` (`interpreter.py:386-464`). -/
def bcSend (w : World) (site : Site) (o : Oid) (args : List Arr.Val) : Except Err (Call × World × Site) := do
  let l := w.objs o
  let (n, site) := bcLookup look s w site l
  if w.latest l then
    let c ← if args.length ≤ 2 then .ok (dispatch look s w n o args) else dispatchN look s w n o args
    .ok (c, w, site)
  else
    let w := w.sync o
    let site ← dropOld w site
    let c ← if args.length ≤ 2 then .ok (dispatch look s w n o args) else dispatchN look s w n o args
    .ok (c, w, site)

/-! ## AST interpreter -/

/-- `_lookup` (`generic_node.py:24-37`) -/
def astLookup (site : Site) (l : Lid) : Option Node :=
  match site.find? (fun e => e.layout == some l) with
  | some e => some e.node
  | none =>
    match site.head? with
    | some ⟨none, n⟩ => some n
    | _ => none

/-- `_specialize` from the point where the cache is cleaned (`generic_node.py:66-86`; `_get_cache_size_and_drop_old_entries`, 39-56). -/
def astExtend (w : World) (site : Site) (l : Lid) : Except Err (Node × Site) := do
  let site ← dropOld w site
  if site.length < cacheSize then
    match look (w.cls l) s with
    | some m => .ok (.cached m, ⟨some l, .cached m⟩ :: site)
    | none => .ok (.dnu, ⟨some l, .dnu⟩ :: site)
  else .ok (.generic, [⟨none, .generic⟩])

/-- `_specialize` (`generic_node.py:58-86`) -/
def astSpecialize (w : World) (site : Site) (l : Lid) (o : Oid) : Except Err (Node × World × Site) :=
  if w.latest l then do
    let (n, site) ← astExtend look s w site l
    .ok (n, w, site)
  else
    let w := w.sync o
    match astLookup site (w.objs o) with
    | some n => .ok (n, w, site)
    | none => do
      let (n, site) ← astExtend look s w site (w.objs o)
      .ok (n, w, site)

/-- `execute_evaluated`, `exec_evaluated_2`, … (`generic_node.py:102-115`, `128-141`, `157-171`, `185-195`). -/
def astSend (w : World) (site : Site) (o : Oid) (args : List Arr.Val) : Except Err (Call × World × Site) :=
  match astLookup site (w.objs o) with
  | some n => .ok (dispatch look s w n o args, w, site)
  | none => do
    let (n, w, site) ← astSpecialize look s w site (w.objs o) o
    .ok (dispatch look s w n o args, w, site)

/-! ## Histories of a call site -/

/-- What happens: a send at the site, the layout of an object (and of its class) changes, an object is brought up to date (by another
call site, or when it is created). -/
inductive Ev where
  | send (o : Oid) (args : List Arr.Val)
  | relayout (o : Oid)
  | sync (o : Oid)
  deriving DecidableEq, Repr

abbrev Send := World → Site → Oid → List Arr.Val → Except Err (Call × World × Site)

def step (send : Send) (st : World × Site) : Ev → Except Err (World × Site)
  | .send o args => do
    let (_, w, site) ← send st.1 st.2 o args
    .ok (w, site)
  | .relayout o => .ok (st.1.relayout o, st.2)
  | .sync o => .ok (st.1.sync o, st.2)

def run (send : Send) (st : World × Site) : List Ev → Except Err (World × Site)
  | [] => .ok st
  | e :: es => do
    let st ← step send st e
    run send st es

/-! ## perform: -/

/-- `_perform` (`object_primitives.py:60-62`): `invoke_1` of `None` is an AttributeError. -/
def perform (w : World) (o : Oid) : Except Err Call :=
  match look (w.cls (w.objs o)) s with
  | some m => .ok (.invoke m o [])
  | none => .error .attribute

/-- `_perform_in_superclass` (65-67) -/
def performInSuperclass (c : Cid) (o : Oid) : Except Err Call :=
  match look c s with
  | some m => .ok (.invoke m o [])
  | none => .error .attribute

/-- `_perform_with_arguments` (70-83) -/
def performWithArguments (w : World) (o : Oid) (args : List Arr.Val) : Except Err Call :=
  let numArgs := args.length + 1
  let invokable := look (w.cls (w.objs o)) s
  let invoke (as : List Arr.Val) : Except Err Call := match invokable with | some m => .ok (.invoke m o as) | none => .error .attribute
  if numArgs = 1 then invoke []
  else if numArgs = 2 then invoke (args.take 1)
  else if numArgs = 3 then invoke (args.take 2)
  else .error .notImplemented

/-! ## super -/

/-- `super_send` and `q_super_send_*` (`interpreter.py:39-69`, `755-783`) of a method whose holder has superclass `c`: the cached method, if
there is one.  When no method is found `get_number_of_signature_arguments` of `None` is an AttributeError.  The number of arguments
is that of the method found. -/
def bcSuper (c : Cid) (cache : Option Meth) (o : Oid) (args : List Arr.Val) : Except Err (Call × Option Meth) :=
  match cache with
  | some m => .ok (.invoke m o args, some m)
  | none =>
    match look c s with
    | some m => .ok (.invoke m o args, some m)
    | none => .error .attribute

/-- `execute` of `UnarySuper`, `BinarySuper`, `TernarySuper`, `NArySuper` (`super_node.py:19-104`). -/
def astSuper (c : Cid) (cache : Option Meth) (o : Oid) (args : List Arr.Val) : Except Err (Call × Option Meth) := do
  let m ← match cache with
    | some m => .ok m
    | none =>
      match look c s with
      | some m => .ok m
      | none => .error .notImplemented
  .ok (.invoke m o args, some m)

/-- The calls of a history of one super send. -/
def superRun (send : Option Meth → Oid → List Arr.Val → Except Err (Call × Option Meth)) (cache : Option Meth) :
    List (Oid × List Arr.Val) → Except Err (List Call)
  | [] => .ok []
  | (o, args) :: es => do
    let (c, cache) ← send cache o args
    let cs ← superRun send cache es
    .ok (c :: cs)

end
end PySOM.Disp

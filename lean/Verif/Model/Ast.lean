import Verif.Model.Program
import Verif.Model.Cond
/-!
# Model of the AST compiler and of the trees it produces

`src/som/compiler/ast/parser.py` and `src/som/compiler/ast/method_generation_context.py` (what is built for which source), `src/rtruffle/abstract_node.py` with the
`handle_inlining` and `handle_outer_inlined` methods of the nodes in `src/som/interpreter/ast/nodes` (how a block is inlined), the `create_trivial_method` methods,
and the `execute` methods of the nodes.

The source is the same as for the bytecode compiler (`SMethod`, `Model/Program`): names are resolved, and `+ 1` and `- 1` are marked where the text says so.
A local variable is known by its index in the list of variables of its method and by its `source`, by which `get_inlined_local` finds its copy; where in a frame it is
stored is left out (`Model/Scope`).  Nodes that replace themselves when they are first executed behave like those they replace (`Model/Site` is about call sites), so the
trees here do not change during execution.
-/
set_option autoImplicit false
namespace PySOM.BC
open PySOM

/-- Nodes with a receiver and one inlined block: `IfInlinedNode`, `IfNilInlinedNode`, `IfNotNilInlinedNode` (`specialized/literal_if.py`), `AndInlinedNode`,
`OrInlinedNode` (`specialized/literal_and_or.py`). -/
inductive Inl1 where
  | ifBool (b : Bool)
  | ifNil
  | ifNotNil
  | and
  | or
  deriving DecidableEq, Repr

/-- Nodes with a receiver and two inlined blocks, in the order of the source: `IfElseInlinedNode`, `IfNilNotNilInlinedNode` (`is_if_nil` says which of the blocks is
which, `compiler/ast/parser.py:306-326`). -/
inductive Inl2 where
  | ifElse (b : Bool)
  | ifNil (isIfNil : Bool)
  deriving DecidableEq, Repr

/-- Trivial methods (`vmobjects/method_trivial.py`); a `GlobalRead` made from a `_CachedGlobalReadNode` has an association, but neither a name nor a universe. -/
inductive ATriv where
  | lit (v : Val)
  | globK (n : Sel)
  | globU (n : Sel) (lvl : Nat)
  | fldRead (idx lvl : Nat)
  | fldWrite (idx arg : Nat)

mutual
/-- Trees.  The expression that reads `self` in the nodes for fields is represented by its context level. -/
inductive Node where
  /-- `LiteralNode` -/
  | lit (v : Val)
  /-- `_CachedGlobalReadNode`: a global that was known when the method was compiled -/
  | globK (n : Sel)
  /-- `_UninitializedGlobalReadNode` -/
  | globU (n : Sel) (lvl : Nat)
  /-- `UninitializedReadNode` of an `Argument` -/
  | readArg (idx lvl : Nat)
  /-- `UninitializedReadNode` of a `Local` -/
  | readLoc (idx src lvl : Nat)
  /-- `LocalFrameVarReadNode` (level 0) or `NonLocalVariableReadNode`, which are made only for `self` (`variable.py:133-141`) -/
  | self (lvl : Nat)
  /-- `UninitializedWriteNode` -/
  | writeArg (idx lvl : Nat) (e : Node)
  | writeLoc (idx src lvl : Nat) (e : Node)
  /-- `FieldReadNode`, `FieldWriteNode`, `FieldIncrementNode` -/
  | fld (idx lvl : Nat)
  | fldW (idx lvl : Nat) (e : Node)
  | fldInc (idx lvl : Nat)
  /-- `IntIncrementNode` -/
  | inc (e : Node)
  /-- `BlockNodeWithContext` and `BlockNode` -/
  | blk (ctx : Bool) (m : AMeth)
  /-- `UninitializedMessageNode` -/
  | send (sel : Sel) (r : Node) (as : Nodes)
  /-- `UnarySuper`, `BinarySuper`, `TernarySuper`, `NArySuper` -/
  | superSend (sel : Sel) (r : Node) (as : Nodes)
  | inl1 (k : Inl1) (r a : Node)
  | inl2 (k : Inl2) (r a b : Node)
  /-- `WhileInlinedNode` -/
  | while (b : Bool) (c body : Node)
  /-- `SequenceNode` -/
  | seq (es : Nodes)
  /-- `ReturnNonLocalNode` -/
  | retNL (lvl : Nat) (e : Node)
  /-- `ReturnLocalNode` -/
  | retL (e : Node)
inductive Nodes where
  | nil
  | cons (e : Node) (es : Nodes)
/-- The method of a block: an `AstMethod` (`vmobjects/method_ast.py:75-117`) or a trivial method.  `id` says which block of the source it is and is never looked at. -/
inductive AMeth where
  | ast (id : Nat) (args locals : List Nat) (body : Node)
  | triv (id : Nat) (t : ATriv)
end

def AMeth.id : AMeth → Nat
  | .ast id _ _ _ => id
  | .triv id _ => id

def AMeth.locals : AMeth → List Nat
  | .ast _ _ ls _ => ls
  | .triv _ _ => []

/-! ## Inlining -/

/-- `get_inlined_local` (`compiler/method_generation_context.py:100-109`): the first variable with the source. -/
def firstIdx : List Nat → Nat → Except Err Nat
  | [], _ => .error .other
  | x :: xs, src => if x = src then .ok 0 else do .ok ((← firstIdx xs src) + 1)

/-- What `handle_outer_inlined` does to a read or write of `self` at level `lvl` (`variable_node.py:141-148`; `LocalFrameVarReadNode` has no such method). -/
def adaptSelf (k lvl : Nat) : Except Err Nat :=
  if lvl = 0 then .ok 0 else if lvl > k then (if lvl - 1 > 0 then .ok (lvl - 1) else .error .assertion) else .error .assertion

mutual
/-- `adapt_after_outer_inlined` (`rtruffle/abstract_node.py:71-89`) with the `handle_outer_inlined` methods; `k` is `removed_ctx_level`, `env` the variables of the method
into which the enclosing block is inlined. -/
def Node.adapt (k : Nat) (env : List Nat) : Node → Except Err Node
  | .lit v => .ok (.lit v)
  | .globK n => .ok (.globK n)
  | .globU n l => .ok (.globU n l) -- `_UninitializedGlobalReadNode` has no `handle_outer_inlined`
  | .readArg i l => if l > k then .ok (.readArg i (l - 1)) else if l = k then .error .assertion else .ok (.readArg i l)
  | .readLoc i s l =>
    if l > k then .ok (.readLoc i s (l - 1)) else if l = k then do .ok (.readLoc (← firstIdx env s) s l) else .ok (.readLoc i s l)
  | .self l => do .ok (.self (← adaptSelf k l))
  | .writeArg i l e => do
    let e ← e.adapt k env
    if l > k then .ok (.writeArg i (l - 1) e) else if l = k then .error .assertion else .ok (.writeArg i l e)
  | .writeLoc i s l e => do
    let e ← e.adapt k env
    if l > k then .ok (.writeLoc i s (l - 1) e) else if l = k then do .ok (.writeLoc (← firstIdx env s) s l e) else .ok (.writeLoc i s l e)
  | .fld i l => do .ok (.fld i (← adaptSelf k l))
  | .fldW i l e => do
    let e ← e.adapt k env
    .ok (.fldW i (← adaptSelf k l) e)
  | .fldInc i l => do .ok (.fldInc i (← adaptSelf k l))
  | .inc e => do .ok (.inc (← e.adapt k env))
  | .blk true m => do .ok (.blk true (← m.adapt (k + 1) env)) -- `block_node.py:33-34`
  | .blk false m => .ok (.blk false m)
  | .send sel r as => do
    let r ← r.adapt k env
    .ok (.send sel r (← as.adapt k env))
  | .superSend sel r as => do
    let r ← r.adapt k env
    .ok (.superSend sel r (← as.adapt k env))
  | .inl1 x r a => do
    let r ← r.adapt k env
    .ok (.inl1 x r (← a.adapt k env))
  | .inl2 x r a b => do
    let r ← r.adapt k env
    let a ← a.adapt k env
    .ok (.inl2 x r a (← b.adapt k env))
  | .while x c b => do
    let c ← c.adapt k env
    .ok (.while x c (← b.adapt k env))
  | .seq es => do .ok (.seq (← es.adapt k env))
  | .retNL l e => do -- `return_non_local_node.py:59-65`
    let e ← e.adapt k env
    if l = 0 then .error .assertion else if l = 1 then .ok (.retL e) else .ok (.retNL (l - 1) e)
  | .retL e => do .ok (.retL (← e.adapt k env))
def Nodes.adapt (k : Nat) (env : List Nat) : Nodes → Except Err Nodes
  | .nil => .ok .nil
  | .cons e es => do
    let e ← e.adapt k env
    .ok (.cons e (← es.adapt k env))
/-- `AstMethod.adapt_after_outer_inlined` (`method_ast.py:173-178`); the trivial methods do not have this method. -/
def AMeth.adapt (k : Nat) (env : List Nat) : AMeth → Except Err AMeth
  | .ast id args locals body => do .ok (.ast id args locals (← body.adapt k env))
  | .triv _ _ => .error .attribute
end

mutual
/-- `adapt_after_inlining` (`rtruffle/abstract_node.py:52-68`) with the `handle_inlining` methods.  A node that is not the child of another one cannot be replaced; the
value of an `UninitializedWriteNode` is not adopted by it (`variable_node.py:67-71`), so `adopted` says whether there is a parent. -/
def Node.inline (env : List Nat) (adopted : Bool) : Node → Except Err Node
  | .lit v => .ok (.lit v)
  | .globK n => .ok (.globK n)
  | .globU n l => .ok (.globU n (l - 1)) -- `global_read_node.py:57-58`
  | .readArg i l => if l = 0 then .error .assertion else .ok (.readArg i (l - 1))
  | .readLoc i s l => if l = 0 then do .ok (.readLoc (← firstIdx env s) s 0) else .ok (.readLoc i s (l - 1))
  | .self l => if l = 1 then if adopted then .ok (.self 0) else .error .attribute else .ok (.self (l - 1)) -- `variable_node.py:130-139`
  | .writeArg i l e => do
    let e ← e.inline env false
    if l = 0 then .error .assertion else .ok (.writeArg i (l - 1) e)
  | .writeLoc i s l e => do
    let e ← e.inline env false
    if l = 0 then do .ok (.writeLoc (← firstIdx env s) s 0 e) else .ok (.writeLoc i s (l - 1) e)
  | .fld i l => .ok (.fld i (l - 1))
  | .fldW i l e => do .ok (.fldW i (l - 1) (← e.inline env true))
  | .fldInc i l => .ok (.fldInc i (l - 1))
  | .inc e => do .ok (.inc (← e.inline env true))
  | .blk true m => do .ok (.blk true (← m.adapt 1 env)) -- `block_node.py:30-31`
  | .blk false m => .ok (.blk false m)
  | .send sel r as => do
    let r ← r.inline env true
    .ok (.send sel r (← as.inline env))
  | .superSend sel r as => do
    let r ← r.inline env true
    .ok (.superSend sel r (← as.inline env))
  | .inl1 x r a => do
    let r ← r.inline env true
    .ok (.inl1 x r (← a.inline env true))
  | .inl2 x r a b => do
    let r ← r.inline env true
    let a ← a.inline env true
    .ok (.inl2 x r a (← b.inline env true))
  | .while x c b => do
    let c ← c.inline env true
    .ok (.while x c (← b.inline env true))
  | .seq es => do .ok (.seq (← es.inline env))
  | .retNL l e => do -- `return_non_local_node.py:51-57`
    let e ← e.inline env true
    if l = 0 then .error .assertion
    else if l = 1 then if adopted then .ok (.retL e) else .error .attribute
    else .ok (.retNL (l - 1) e)
  | .retL e => do .ok (.retL (← e.inline env true))
def Nodes.inline (env : List Nat) : Nodes → Except Err Nodes
  | .nil => .ok .nil
  | .cons e es => do
    let e ← e.inline env true
    .ok (.cons e (← es.inline env))
end

/-- `create_global_node` (`global_read_node.py:11-27`) in a context at level `lvl`. -/
def globNode (known : Sel → Bool) (lvl : Nat) (n : Sel) : Node :=
  if n = symTrue then .lit .tru
  else if n = symFalse then .lit .fls
  else if n = symNil then .lit .nil
  else if known n then .globK n
  else .globU n lvl

/-- `inline` of a method (`method_ast.py:168-171`) and of trivial methods (`method_trivial.py:73-76, 128-131, 173-176`): the tree and the variables of the context at
level `lvl` after that.  A `GlobalRead` of a global that was known has `None` for the universe. -/
def AMeth.inline (known : Sel → Bool) (lvl : Nat) (env : List Nat) : AMeth → Except Err (Node × List Nat)
  | .ast _ args locals body => do
    let env ← mergeLocals args locals env
    .ok (← body.inline env true, env)
  | .triv _ (.lit v) => .ok (.lit v, env)
  | .triv _ (.globK _) => .error .attribute
  | .triv _ (.globU n _) => .ok (globNode known lvl n, env)
  | .triv _ (.fldRead i _) => .ok (.fld i lvl, env)
  | .triv _ (.fldWrite _ _) => .error .attribute

/-! ## The compiler -/

/-- `create_trivial_method` (`literal_node.py:14-17`, `global_read_node.py:52-55, 71-72`, `field_node.py:26-31, 48-62`, `sequence_node.py:24-34`). -/
def Node.triv : Node → Option ATriv
  | .lit v => some (.lit v)
  | .globK n => some (.globK n)
  | .globU n l => some (.globU n l)
  | .fld i l => some (.fldRead i l)
  | .fldW i 0 (.readArg j _) => some (.fldWrite i j)
  | .seq (.cons (.fldW i 0 (.readArg j _)) (.cons (.self 0) .nil)) => some (.fldWrite i j)
  | _ => none

/-- What the selectors stand for that are inlined if the arguments are literal blocks (`compiler/ast/parser.py:211-220, 352-423`). -/
inductive ASpecial where
  | one (k : Inl1)
  | two (k : Inl2)
  | while (b : Bool)
  deriving DecidableEq, Repr

def aspecials : List (Sel × ASpecial) :=
  [("&&".toList, .one .and), ("||".toList, .one .or), ("ifTrue:".toList, .one (.ifBool true)), ("ifFalse:".toList, .one (.ifBool false)),
   ("ifNil:".toList, .one .ifNil), ("ifNotNil:".toList, .one .ifNotNil), ("whileTrue:".toList, .while true), ("whileFalse:".toList, .while false),
   ("and:".toList, .one .and), ("or:".toList, .one .or), ("ifTrue:ifFalse:".toList, .two (.ifElse true)), ("ifFalse:ifTrue:".toList, .two (.ifElse false)),
   ("ifNil:ifNotNil:".toList, .two (.ifNil true)), ("ifNotNil:ifNil:".toList, .two (.ifNil false))]

def aspecial? (sel : Sel) : Option ASpecial := aspecials.lookup sel

/-- `UninitializedMessageNode`, or `IntIncrementNode` for `+` with a `LiteralNode` whose value is the integer 1 (226-233).  To find out, the node is executed without a
frame; a `BlockNode` is a `LiteralNode`, and one with context then reads the frame. -/
def plainSend (sel : Sel) (r : Node) (as : Nodes) : Except Err Node :=
  if sel = "+".toList then
    match as with
    | .cons (.lit (.int 1)) .nil => .ok (.inc r)
    | .cons (.blk true _) .nil => .error .type
    | _ => .ok (.send sel r as)
  else .ok (.send sel r as)

/-- The `_try_inlining_…` methods (247-333), or else the send. -/
def sendNode (known : Sel → Bool) (lvl : Nat) (sel : Sel) (r : Node) (as : Nodes) (env : List Nat) : Except Err (Node × List Nat) :=
  match aspecial? sel, r, as with
  | some (.one k), r, .cons (.blk _ m) .nil => do
    let (a, env) ← m.inline known lvl env
    .ok (.inl1 k r a, env)
  | some (.two k), r, .cons (.blk _ m1) (.cons (.blk _ m2) .nil) => do
    let (a, env) ← m1.inline known lvl env
    let (b, env) ← m2.inline known lvl env
    .ok (.inl2 k r a b, env)
  | some (.while w), .blk _ m1, .cons (.blk _ m2) .nil => do
    let (c, env) ← m1.inline known lvl env
    let (b, env) ← m2.inline known lvl env
    .ok (.while w c b, env)
  | _, _, _ => do .ok (← plainSend sel r as, env)

/-- `get_variable` (`compiler/ast/method_generation_context.py:76-88`) for a local variable: its `source`. -/
def sourceOf (chain : List (List Nat)) (idx lvl : Nat) : Except Err Nat := getLocal chain idx lvl

/-- `_variable_write` (493-520) and `create_write_node` (`field_node.py:77-80`). -/
def writeNode (chain : List (List Nat)) (lvl : Nat) (e : Node) : Tgt → Except Err Node
  | .var _ true i l => .ok (.writeArg i l e)
  | .var _ false i l => do .ok (.writeLoc i (← sourceOf chain i l) l e)
  | .fld _ i =>
    match e with
    | .inc (.fld j _) => if i = j then .ok (.fldInc i lvl) else .ok (.fldW i lvl e)
    | _ => .ok (.fldW i lvl e)

/-- `_assignments` (106-127): the last variable is written first, and the others are assigned the value of that. -/
def writeNodes (chain : List (List Nat)) (lvl : Nat) (e : Node) : List Tgt → Except Err Node
  | [] => .ok e
  | t :: ts => do writeNode chain lvl (← writeNodes chain lvl e ts) t

/-- `_create_sequence_node` (76-85). -/
def seqNode : Nodes → Node
  | .nil => .lit .nil
  | .cons e .nil => e
  | es => .seq es

mutual
/-- `_expression`, `_primary` (142-170), `_assignments`, `_unary_message`, `_binary_message`, `_keyword_message` in a context at level `outer.length` with the variables `env`;
`outer` are those of the contexts around it, and `alloc` makes the array of a literal array (`_literal_array`, 483-490), one for each occurrence. -/
def Ex.ast (known : Sel → Bool) (alloc : LitTs → Val) (outer : List (List Nat)) : Ex SBlock → List Nat → Except Err (Node × List Nat)
  | .lit (.val v), env => .ok (.lit v, env)
  | .lit (.arr es), env => .ok (.lit (alloc es), env)
  | .glob n, env => .ok (globNode known outer.length n, env)
  | .var true i l, env => .ok (if i = 0 then .self l else .readArg i l, env)
  | .var false i l, env => do .ok (.readLoc i (← sourceOf (env :: outer) i l) l, env)
  | .fld _ i, env => .ok (.fld i outer.length, env)
  | .blk _ s, env => do .ok (.blk (s.requiresContext known) (← s.ast known alloc (env :: outer)), env)
  | .asg t ts e, env => do
    let (e, env) ← e.ast known alloc outer env
    .ok (← writeNodes (env :: outer) outer.length e (t :: ts), env)
  | .inc e, env => do
    let (e, env) ← e.ast known alloc outer env
    .ok (.inc e, env)
  | .dec e, env => do
    let (e, env) ← e.ast known alloc outer env
    .ok (.send "-".toList e (.cons (.lit (.int 1)) .nil), env)
  | .send sel r as, env => do
    let (r, env) ← r.ast known alloc outer env
    let (as, env) ← as.ast known alloc outer env
    sendNode known outer.length sel r as env
  | .superSend sel r as, env => do
    let (r, env) ← r.ast known alloc outer env
    let (as, env) ← as.ast known alloc outer env
    .ok (.superSend sel r as, env)
def Exs.ast (known : Sel → Bool) (alloc : LitTs → Val) (outer : List (List Nat)) : Exs SBlock → List Nat → Except Err (Nodes × List Nat)
  | .nil, env => .ok (.nil, env)
  | .cons e es, env => do
    let (e, env) ← e.ast known alloc outer env
    let (es, env) ← es.ast known alloc outer env
    .ok (.cons e es, env)
/-- The expressions of `_block_body` (53-74) and `_result` (87-101).  At the end of a method `self` is read; `^ e` is just `e` in a method. -/
def Body.ast (known : Sel → Bool) (alloc : LitTs → Val) (isBlock : Bool) (outer : List (List Nat)) : Body SBlock → List Nat → Except Err (Nodes × List Nat)
  | .done, env => .ok (if isBlock then .nil else .cons (.self 0) .nil, env)
  | .last e, env => do
    let (e, env) ← e.ast known alloc outer env
    .ok (if isBlock then .cons e .nil else .cons e (.cons (.self 0) .nil), env)
  | .stmt e rest, env => do
    let (e, env) ← e.ast known alloc outer env
    let (es, env) ← rest.ast known alloc isBlock outer env
    .ok (.cons e es, env)
  | .exit e, env => do
    let (e, env) ← e.ast known alloc outer env
    .ok (if isBlock then .cons (.retNL outer.length e) .nil else .cons e .nil, env)
  | .exitSelf, env => .ok (.cons (if isBlock then .retNL outer.length (.self outer.length) else .self 0) .nil, env)
/-- A nested block (154-168) and `assemble` (`compiler/ast/method_generation_context.py:21-46`) for it; `outer` are the variables of the contexts around it. -/
def SBlock.ast (known : Sel → Bool) (alloc : LitTs → Val) (outer : List (List Nat)) : SBlock → Except Err AMeth
  | .mk id args env b => do
    let (es, env) ← b.ast known alloc true outer env
    match (seqNode es).triv with
    | some t => .ok (.triv id t)
    | none => .ok (.ast id args env (seqNode es))
end

mutual
/-- `make_catch_non_local_return` is called while the expression is parsed: there is a `^` in a block. -/
def Ex.throws : Ex SBlock → Bool
  | .blk _ s => s.throws
  | .asg _ _ e => e.throws
  | .inc e => e.throws
  | .dec e => e.throws
  | .send _ r as => r.throws || as.throws
  | .superSend _ r as => r.throws || as.throws
  | _ => false
def Exs.throws : Exs SBlock → Bool
  | .nil => false
  | .cons e es => e.throws || es.throws
def Body.throws (isBlock : Bool) : Body SBlock → Bool
  | .done => false
  | .last e => e.throws
  | .stmt e rest => e.throws || rest.throws isBlock
  | .exit e => isBlock || e.throws
  | .exitSelf => isBlock
def SBlock.throws : SBlock → Bool
  | .mk _ _ _ b => b.throws true
end

/-- A method: an `AstMethod`, whose body may be in a `CatchNonLocalReturnNode` (28-31), or a trivial method. -/
inductive AMethod where
  | ast (locals : List Nat) (catches : Bool) (body : Node)
  | triv (t : ATriv)

/-- A method (`compiler/parser.py:139-154`, `assemble`). -/
def SMethod.ast (known : Sel → Bool) (alloc : LitTs → Val) (s : SMethod) : Except Err AMethod := do
  let (es, env) ← s.body.ast known alloc false [] s.env
  if s.body.throws false then .ok (.ast env true (seqNode es))
  else match (seqNode es).triv with
    | some t => .ok (.triv t)
    | none => .ok (.ast env false (seqNode es))

/-! ## Execution -/

section
variable {W E : Type}

/-- `execute` of the nodes with one inlined block, given the meanings of the receiver and the block. -/
def Inl1.exec (err : Err → E) : Inl1 → Src.Rel W E → Src.Rel W E → Src.Rel W E
  | .ifBool b => Cond.ifNode err b
  | .ifNil => Cond.ifNilNode
  | .ifNotNil => Cond.ifNotNilNode
  | .and => Cond.andNode err
  | .or => Cond.orNode err

def Inl2.exec (err : Err → E) : Inl2 → Src.Rel W E → Src.Rel W E → Src.Rel W E → Src.Rel W E
  | .ifElse b => Cond.ifElseNode err b
  | .ifNil true => Cond.ifNilNotNilNode
  | .ifNil false => fun r a b => Cond.ifNilNotNilNode r b a

/-- `WhileInlinedNode.execute` (`literal_while.py:37-50`): anything but a boolean raises. -/
def whileNode (err : Err → E) (b : Bool) (cond body : Src.Rel W E) : Src.Rel W E :=
  Src.While (fun v => decide (v = if b then .fls else .tru))
    (Src.bind cond fun v => if v = .tru ∨ v = .fls then Src.pure v else Cond.raises err .notImplemented) body

mutual
/-- `execute`.  Blocks are created by their identities.  `A` says what the actions do: those of the bytecode interpreter and of these nodes have the same names.  `U n l` is
the reading of a global that was not known when the method was compiled, by a node at level `l`: if there is none, `unknownGlobal:` is sent to the `self` that is `l` contexts
out (`global_read_node.py:38-45`).  Simplifications: super nodes look up the method before they evaluate receiver and arguments (`super_node.py:24-28`); the kinds of the Python errors
that actions raise in the two interpreters are not distinguished. -/
def Node.exec (A : World Nat W E) (U : Sel → Nat → Src.Rel W E) (err : Err → E) : Node → Src.Rel W E
  | .lit v => Src.pure v
  | .globK n => Src.act A (.glob n)
  | .globU n l => U n l
  | .readArg i l => Src.act A (.rdVar true i l)
  | .readLoc i _ l => Src.act A (.rdVar false i l)
  | .self l => Src.act A (.rdVar true 0 l)
  | .writeArg i l e => Src.bind (e.exec A U err) fun v => Src.bind (Src.act A (.wrVar true i l v)) fun _ => Src.pure v
  | .writeLoc i _ l e => Src.bind (e.exec A U err) fun v => Src.bind (Src.act A (.wrVar false i l v)) fun _ => Src.pure v
  | .fld i l => Src.act A (.rdFld i l)
  | .fldW i l e => Src.bind (e.exec A U err) fun v => Src.bind (Src.act A (.wrFld i l v)) fun _ => Src.pure v
  | .fldInc i l => Src.act A (.incFld i l)
  | .inc e => Src.bind (e.exec A U err) fun v => Src.act A (.inc v)
  | .blk c m => Src.act A (.mkBlock c m.id)
  | .send sel r as => Src.bind (r.exec A U err) fun v => as.exec A U err fun vs => Src.act A (.send sel (v :: vs))
  | .superSend sel r as => Src.bind (r.exec A U err) fun v => as.exec A U err fun vs => Src.act A (.superSend sel (v :: vs))
  | .inl1 k r a => k.exec err (r.exec A U err) (a.exec A U err)
  | .inl2 k r a b => k.exec err (r.exec A U err) (a.exec A U err) (b.exec A U err)
  | .while b c body => whileNode err b (c.exec A U err) (body.exec A U err)
  | .seq es => es.execSeq A U err
  | .retNL l e => Src.bind (e.exec A U err) fun v => Src.act A (.nlr l v)
  | .retL e => Src.bind (e.exec A U err) Src.answer
/-- Arguments from left to right, then `k`. -/
def Nodes.exec (A : World Nat W E) (U : Sel → Nat → Src.Rel W E) (err : Err → E) : Nodes → (List Val → Src.Rel W E) → Src.Rel W E
  | .nil, k => k []
  | .cons e es, k => Src.bind (e.exec A U err) fun v => es.exec A U err fun vs => k (v :: vs)
/-- `SequenceNode.execute` (`sequence_node.py:15-22`). -/
def Nodes.execSeq (A : World Nat W E) (U : Sel → Nat → Src.Rel W E) (err : Err → E) : Nodes → Src.Rel W E
  | .nil => Src.pure .nil
  | .cons e .nil => e.exec A U err
  | .cons e es => Src.bind (e.exec A U err) fun _ => es.execSeq A U err
end

/-- The caller gets the value of a tree; with a `CatchNonLocalReturnNode` (`return_non_local_node.py:68-87`) also that of a `ReturnLocalNode`.  Catching non-local returns from
blocks that are activated by other methods is not part of this (`Model/Nlr`). -/
def answers (catches : Bool) (err : Err → E) (R : Src.Rel W E) : Src.Rel W E := fun w r w' =>
  match r with
  | .val _ => False
  | .ret v => R w (.val v) w' ∨ (catches = true ∧ R w (.ret v) w')
  | .exc e => R w (.exc e) w' ∨ (catches = false ∧ e = err .other ∧ ∃ v, R w (.ret v) w')

/-- `invoke_1` and so on of the trivial methods (`method_trivial.py`); `FieldWrite` answers the receiver. -/
def ATriv.run (A : World Nat W E) (U : Sel → Nat → Src.Rel W E) : ATriv → Src.Rel W E
  | .lit v => Src.answer v
  | .globK n => Src.bind (Src.act A (.glob n)) Src.answer
  | .globU n l => Src.bind (U n l) Src.answer
  | .fldRead i l => Src.bind (Src.act A (.rdFld i l)) Src.answer
  | .fldWrite i j => Src.bind (Src.act A (.rdVar true j 0)) fun v => Src.bind (Src.act A (.wrFld i 0 v)) fun _ => Src.bind (Src.act A .self) Src.answer

/-- Activating a block (`method_ast.py:122-166`); there is no `CatchNonLocalReturnNode` in blocks. -/
def AMeth.run (A : World Nat W E) (U : Sel → Nat → Src.Rel W E) (err : Err → E) : AMeth → Src.Rel W E
  | .ast _ _ _ body => answers false err (body.exec A U err)
  | .triv _ t => t.run A U

/-- Activating a method. -/
def AMethod.run (A : World Nat W E) (U : Sel → Nat → Src.Rel W E) (err : Err → E) : AMethod → Src.Rel W E
  | .ast _ catches body => answers catches err (body.exec A U err)
  | .triv t => t.run A U
end

end PySOM.BC

import Verif.Spec.Source
/-!
# Model of conditionals

The primitives of true and false (`primitives/true_primitives.py`, `primitives/false_primitives.py`), the nodes the AST compiler inlines
them to (`interpreter/ast/nodes/specialized/literal_if.py`, `literal_and_or.py`) and the nodes that replace call sites
(`specialized/if_true_false.py`).  The code the bytecode compiler produces for them is in `Model/Gen`, its meaning in `Spec/Source`.

A block is represented by what evaluating it does (`block_method.invoke_1(block)`); a Python exception is the outcome `err e`.
-/
set_option autoImplicit false
namespace PySOM.Cond
open PySOM PySOM.BC

section
variable {W E : Type}

/-- An argument: a block (with the meaning of `value`) or something else. -/
inductive Arg (W E : Type) where
  | block (body : Src.Rel W E)
  | val (v : Val)

/-- A Python exception. -/
def raises (err : Err → E) (e : Err) : Src.Rel W E := fun w r w' => r = .exc (err e) ∧ w' = w

/-- `_and_and_if_true` (`true_primitives.py:20-24`), `_or_and_if_false` (`false_primitives.py:20-24`) and the body of `_if_true_if_false`: blocks
are evaluated, anything else is answered. -/
def valueIfBlock : Arg W E → Src.Rel W E
  | .block b => b
  | .val v => Src.pure v

/-- The binary primitives of `True` (`true_primitives.py:37-48`). -/
def truePrim2 (sel : Sel) (a : Arg W E) : Option (Src.Rel W E) :=
  if sel = "or:".toList then some (Src.pure .tru)
  else if sel = "||".toList then some (Src.pure .tru)
  else if sel = "and:".toList then some (valueIfBlock a)
  else if sel = "&&".toList then some (valueIfBlock a)
  else if sel = "ifTrue:".toList then some (valueIfBlock a)
  else if sel = "ifFalse:".toList then some (Src.pure .nil)
  else none

/-- The ternary primitive of `True` (49-51, 31-35). -/
def truePrim3 (sel : Sel) (a _b : Arg W E) : Option (Src.Rel W E) :=
  if sel = "ifTrue:ifFalse:".toList then some (valueIfBlock a) else none

/-- The binary primitives of `False` (`false_primitives.py:37-46`); `ifTrue:` is not installed. -/
def falsePrim2 (sel : Sel) (a : Arg W E) : Option (Src.Rel W E) :=
  if sel = "and:".toList then some (Src.pure .fls)
  else if sel = "&&".toList then some (Src.pure .fls)
  else if sel = "or:".toList then some (valueIfBlock a)
  else if sel = "||".toList then some (valueIfBlock a)
  else if sel = "ifFalse:".toList then some (valueIfBlock a)
  else none

/-- The ternary primitive of `False` (47-49, 31-35). -/
def falsePrim3 (sel : Sel) (_a b : Arg W E) : Option (Src.Rel W E) :=
  if sel = "ifTrue:ifFalse:".toList then some (valueIfBlock b) else none

/-! ## Nodes of the AST interpreter with inlined blocks -/

/-- `IfInlinedNode.execute` (`literal_if.py:22-31`). -/
def ifNode (err : Err → E) (ifTrue : Bool) (cond body : Src.Rel W E) : Src.Rel W E :=
  Src.bind cond fun v =>
    if v = (if ifTrue then Val.tru else Val.fls) then body
    else if v = (if ifTrue then Val.fls else Val.tru) then Src.pure .nil
    else raises err .notImplemented

/-- `IfNilInlinedNode.execute` (`literal_if.py:47-51`). -/
def ifNilNode (cond body : Src.Rel W E) : Src.Rel W E :=
  Src.bind cond fun v => if v = Val.nil then body else Src.pure v

/-- `IfNotNilInlinedNode.execute` (`literal_if.py:67-71`). -/
def ifNotNilNode (cond body : Src.Rel W E) : Src.Rel W E :=
  Src.bind cond fun v => if v = Val.nil then Src.pure v else body

/-- `IfElseInlinedNode.execute` (`literal_if.py:95-104`). -/
def ifElseNode (err : Err → E) (ifTrue : Bool) (cond a b : Src.Rel W E) : Src.Rel W E :=
  Src.bind cond fun v =>
    if v = (if ifTrue then Val.tru else Val.fls) then a
    else if v = (if ifTrue then Val.fls else Val.tru) then b
    else raises err .notImplemented

/-- `IfNilNotNilInlinedNode.execute` (`literal_if.py:121-125`). -/
def ifNilNotNilNode (cond nil notNil : Src.Rel W E) : Src.Rel W E :=
  Src.bind cond fun v => if v = Val.nil then nil else notNil

/-- `AndInlinedNode.execute` (`literal_and_or.py:14-19`). -/
def andNode (err : Err → E) (cond arg : Src.Rel W E) : Src.Rel W E :=
  Src.bind cond fun v => if v = Val.tru then arg else if v = Val.fls then Src.pure .fls else raises err .assertion

/-- `OrInlinedNode.execute` (`literal_and_or.py:31-36`). -/
def orNode (err : Err → E) (cond arg : Src.Rel W E) : Src.Rel W E :=
  Src.bind cond fun v => if v = Val.tru then Src.pure .tru else if v = Val.fls then arg else raises err .assertion

/-- The inlining of a message with one literal block (`compiler/ast/parser.py:353-401` and, for `&&` and `||`, `_binary_message`; with
`_try_inlining_if`, `_try_inlining_if_nil`, `_try_inlining_and`, `_try_inlining_or`).  Loops are in `Model/Loops`. -/
def astInline1 (err : Err → E) (sel : Sel) (cond body : Src.Rel W E) : Option (Src.Rel W E) :=
  if sel = "ifTrue:".toList then some (ifNode err true cond body)
  else if sel = "ifFalse:".toList then some (ifNode err false cond body)
  else if sel = "ifNil:".toList then some (ifNilNode cond body)
  else if sel = "ifNotNil:".toList then some (ifNotNilNode cond body)
  else if sel = "and:".toList then some (andNode err cond body)
  else if sel = "or:".toList then some (orNode err cond body)
  else if sel = "&&".toList then some (andNode err cond body)
  else if sel = "||".toList then some (orNode err cond body)
  else none

/-- With two literal blocks (`compiler/ast/parser.py:402-426`, `_try_inlining_if_else`, `_try_inlining_if_nil_not_nil`). -/
def astInline2 (err : Err → E) (sel : Sel) (cond a b : Src.Rel W E) : Option (Src.Rel W E) :=
  if sel = "ifTrue:ifFalse:".toList then some (ifElseNode err true cond a b)
  else if sel = "ifFalse:ifTrue:".toList then some (ifElseNode err false cond a b)
  else if sel = "ifNil:ifNotNil:".toList then some (ifNilNotNilNode cond a b)
  else if sel = "ifNotNil:ifNil:".toList then some (ifNilNotNilNode cond b a)
  else none

/-! ## Nodes that replace a call site of the AST interpreter -/

/-- `IfTrueIfFalseNode._do_iftrue_iffalse` (`if_true_false.py:27-37`). -/
def doIfTrueIfFalse (err : Err → E) (v : Val) (a b : Arg W E) : Src.Rel W E :=
  if v = Val.tru then valueIfBlock a else if v = Val.fls then valueIfBlock b else raises err .assertion

/-- `IfNode._do_if` (`if_true_false.py:79-85`). -/
def doIf (err : Err → E) (condition : Val) (v : Val) (a : Arg W E) : Src.Rel W E :=
  if v = condition then valueIfBlock a else if v = Val.fls ∨ v = Val.tru then Src.pure .nil else raises err .assertion

end
end PySOM.Cond

import Verif.Model.Symbols
/-!
# Model of invoking methods and primitives

`src/som/vmobjects/primitive.py`, the entry points of `src/som/vmobjects/method_ast.py`, `method_bc.py` and `method_trivial.py`, the senders that choose
among them, and the table of all primitives of the VM.  An invokable's own code is a parameter, a function of the receiver and the arguments: what the
code does is the subject of the other models; here is asked whether it is reached, and with which arguments.
-/
set_option autoImplicit false
namespace PySOM.Inv

/-- The two interpreters (`interp_type.py`). -/
inductive Engine where
  | ast
  | bc
  deriving DecidableEq, Repr

/-- What can go wrong: an entry point that the Python class does not define, the deliberate `NotImplementedError` of `FieldWrite.invoke_1`, an index outside of
a list, and other exceptions. -/
inductive Err where
  | attribute
  | notImplemented
  | index
  | other
  deriving DecidableEq, Repr

/-- The Python classes of invokables: `Primitive` (`primitive.py:52-76`), `UnaryPrimitive`, `BinaryPrimitive`, `TernaryPrimitive` (79-121), `AstMethod`/`BcMethod`,
`LiteralReturn`/`GlobalRead`/`FieldRead`, and `FieldWrite` (`method_trivial.py`). -/
inductive Kind where
  | generic
  | unary
  | binary
  | ternary
  | method
  | reader
  | setter
  deriving DecidableEq, Repr

/-- An invokable with its code.  `generic` has the function of the AST interpreter, from receiver and argument list, and that of the bytecode interpreter, from
stack to stack (top first).  `setter i f` stores its `i`-th argument. -/
inductive Body (V : Type) where
  | generic (ast : V → List V → V) (bc : List V → List V)
  | unary (f : V → V)
  | binary (f : V → V → V)
  | ternary (f : V → V → V → V)
  | method (f : List V → V)
  | reader (f : V → V)
  | setter (i : Nat) (f : V → V → V)

variable {V : Type}

/-- The class of an invokable. -/
def Body.kind : Body V → Kind
  | .generic _ _ => .generic
  | .unary _ => .unary
  | .binary _ => .binary
  | .ternary _ => .ternary
  | .method _ => .method
  | .reader _ => .reader
  | .setter _ _ => .setter

/-! ## Entry points -/

/-- `invoke_1` (`primitive.py:86-88`, `method_ast.py:122-129`, `method_bc.py:215-217`, `method_trivial.py:54, 95-107, 147-152, 192-195`). -/
def invoke1 : Body V → V → Except Err V
  | .unary f, r => .ok (f r)
  | .method f, r => .ok (f [r])
  | .reader f, r => .ok (f r)
  | .setter _ _, _ => .error .notImplemented
  | .generic _ _, _ | .binary _, _ | .ternary _, _ => .error .attribute

/-- `invoke_2` (`primitive.py:101-103`, `method_ast.py:131-140`, `method_bc.py:219-227`, `method_trivial.py:57, 109, 154, 197-199`): a setter stores the argument, whichever it is to store. -/
def invoke2 : Body V → V → V → Except Err V
  | .binary f, r, a => .ok (f r a)
  | .method f, r, a => .ok (f [r, a])
  | .reader f, r, _ => .ok (f r)
  | .setter _ f, r, a => .ok (f r a)
  | .generic _ _, _, _ | .unary _, _, _ | .ternary _, _, _ => .error .attribute

/-- `invoke_3` (`primitive.py:116-118`, `method_ast.py:142-152`, `method_bc.py:229-238`, `method_trivial.py:60, 112, 157, 201-204`). -/
def invoke3 : Body V → V → V → V → Except Err V
  | .ternary f, r, a, b => .ok (f r a b)
  | .method f, r, a, b => .ok (f [r, a, b])
  | .reader f, r, _, _ => .ok (f r)
  | .setter i f, r, a, b => if i = 1 then .ok (f r a) else .ok (f r b)
  | .generic _ _, _, _, _ | .unary _, _, _, _ | .binary _, _, _, _ => .error .attribute

/-- `invoke_args`, which only the AST interpreter uses (`primitive.py:59-61`, `method_ast.py:154-166`). -/
def invokeArgs : Body V → V → List V → Except Err V
  | .generic f _, r, as => .ok (f r as)
  | .method f, r, as => .ok (f (r :: as))
  | .unary _, _, _ | .binary _, _, _ | .ternary _, _, _ | .reader _, _, _ | .setter _ _, _, _ => .error .attribute

/-- `stack_pop_old_arguments_and_push_result` (`bc/frame.py:168-175`). -/
def popAndPush (stack : List V) (k : Nat) (v : V) : List V := v :: stack.drop k

/-- `invoke_n`, which only the bytecode interpreter uses (`primitive.py:71-73`, `method_bc.py:240-253`, `method_trivial.py:63-69, 115-124, 160-169, 206-216`).  `k` is the number
of signature arguments of the invokable; the frame that `BcMethod` builds holds the top `k` values of the stack (C27).  Indices outside of the stack are an `IndexError`
(Python would count a negative index from the end; the stack of a send holds the arguments). -/
def invokeN (b : Body V) (k : Nat) (stack : List V) : Except Err (List V) :=
  match b with
  | .generic _ f => .ok (f stack)
  | .method f => .ok (popAndPush stack k (f (stack.take k).reverse))
  | .reader f =>
    match stack[k - 1]? with
    | none => .error .index
    | some r => .ok (popAndPush stack k (f r))
  | .setter i f =>
    match stack[k - 1]?, stack[k - i]? with
    | some r, some a => .ok (popAndPush stack k (f r a))
    | _, _ => .error .index
  | .unary _ | .binary _ | .ternary _ => .error .attribute

/-! ## Senders -/

/-- A send in the AST interpreter, when the lookup has found `b`: `UnarySend`, `BinarySend`, `TernarySend`, `NArySend` (chosen in `uninitialized_node.py:32-78`) with
`dispatch_1`, `dispatch_2`, `dispatch_3`, `dispatch_args` of `CachedDispatchNode` and `GenericDispatchNode` (`dispatch.py:46-68, 86-96`); the super sends do the same
(`super_node.py`). -/
def sendAst (b : Body V) (r : V) : List V → Except Err V
  | [] => invoke1 b r
  | [x] => invoke2 b r x
  | [x, y] => invoke3 b r x y
  | as => invokeArgs b r as

/-- A send in the bytecode interpreter, when the lookup has found `b`: `send_1`, `send_2`, `send_3`, `send_n` (`bc/interpreter.py:391-460`), chosen by `emit_send` from the number `k`
of signature arguments of the selector; `_invoke_invokable_slow_path` does the same for super sends (88-113). -/
def sendBc (b : Body V) (k : Nat) (stack : List V) : Except Err (List V) :=
  if k = 1 then
    match stack with
    | r :: below => do .ok ((← invoke1 b r) :: below)
    | _ => .error .index
  else if k = 2 then
    match stack with
    | x :: r :: below => do .ok ((← invoke2 b r x) :: below)
    | _ => .error .index
  else if k = 3 then
    match stack with
    | y :: x :: r :: below => do .ok ((← invoke3 b r x y) :: below)
    | _ => .error .index
  else invokeN b k stack

/-- `_perform` and `_perform_in_superclass` (`object_primitives.py:60-67`), when the lookup has found `b`. -/
def perform (b : Body V) (r : V) : Except Err V := invoke1 b r

/-- `_perform_with_arguments` (70-83), when the lookup has found `b`. -/
def performWith (b : Body V) (r : V) : List V → Except Err V
  | [] => invoke1 b r
  | [x] => invoke2 b r x
  | [x, y] => invoke3 b r x y
  | _ => .error .other

/-! ## Primitives without an implementation -/

/-- `empty_primitive` with `_empty_invoke_ast` and `_empty_invoke_bc` (`primitive.py:122-150`): the first answers Python's `None`, the second the unchanged stack pointer.
The warning they print is left out. -/
def emptyPrimitive (none : V) : Body V := .generic (fun _ _ => none) (fun stack => stack)

/-! ## Blocks -/

/-- `get_class` and `get_object_layout` of blocks (`block_ast.py:45-49`, `block_bc.py:51-55`): an index into `[Block, Block1, Block2, Block3]` (`universe.py:307-311`), the number of arguments
including the block itself. -/
def blockClass (numArgs : Nat) : Except Err Nat :=
  match [0, 1, 2, 3][numArgs]? with
  | some c => .ok c
  | none => .error .index

/-- `block_evaluation_primitive` with `_invoke_1`, `_invoke_2`, `_invoke_3` (`block_bc.py:59-78`), the primitive of the class `Block1`, `Block2`, `Block3`; `m` is the method of the block
that is the receiver. -/
def evalPrimitive (i : Nat) (m : Body V) (r : V) : List V → Except Err V
  | [] => if i = 1 then invoke1 m r else .error .attribute
  | [x] => if i = 2 then invoke2 m r x else .error .attribute
  | [x, y] => if i = 3 then invoke3 m r x y else .error .attribute
  | _ => .error .attribute

/-- Sending `value`, `value:`, `value:with:` with the arguments `as` to a block whose method `m` has `numArgs` signature arguments, both interpreters: the class of the block decides
which of the three it understands; `none` is a `doesNotUnderstand:arguments:`. -/
def sendValue (numArgs : Nat) (m : Body V) (r : V) (as : List V) : Except Err (Option V) := do
  let c ← blockClass numArgs
  if c = as.length + 1 then return some (← evalPrimitive c m r as) else return none

/-! ## The primitives of the VM -/

/-- Installed in the class itself or in its class (`primitives.py:16-25`). -/
inductive Side where
  | inst
  | cls
  deriving DecidableEq, Repr

/-- `array_primitives.py:100-109`. -/
def arrayPrims : List (Side × String × Kind) :=
  [
    (.inst, "at:", .binary), (.inst, "at:put:", .ternary), (.inst, "length", .unary), (.inst, "copy", .unary), (.cls, "new:", .binary),
    (.inst, "doIndexes:", .binary), (.inst, "do:", .binary), (.inst, "putAll:", .binary)]

/-- `block_primitives.py:65-67`. -/
def blockPrims : List (Side × String × Kind) :=
  [
    (.inst, "whileTrue:", .binary), (.inst, "whileFalse:", .binary), (.inst, "restart", .generic)]

/-- `class_primitives.py:28-32`. -/
def classPrims : List (Side × String × Kind) :=
  [
    (.inst, "new", .unary), (.inst, "name", .unary), (.inst, "superclass", .unary), (.inst, "methods", .unary), (.inst, "fields", .unary)]

/-- `double_primitives.py:114-141`. -/
def doublePrims : List (Side × String × Kind) :=
  [
    (.inst, "asString", .unary), (.inst, "round", .unary), (.inst, "asInteger", .unary), (.inst, "sqrt", .unary), (.inst, "+", .binary),
    (.inst, "-", .binary), (.inst, "*", .binary), (.inst, "//", .binary), (.inst, "%", .binary), (.inst, "=", .binary), (.inst, "<", .binary),
    (.inst, "<=", .binary), (.inst, ">", .binary), (.inst, ">=", .binary), (.inst, "<>", .binary), (.inst, "~=", .binary),
    (.inst, "max:", .binary), (.inst, "min:", .binary), (.inst, "sin", .unary), (.inst, "cos", .unary), (.cls, "PositiveInfinity", .unary),
    (.cls, "fromString:", .binary)]

/-- `false_primitives.py:40-48`. -/
def falsePrims : List (Side × String × Kind) :=
  [
    (.inst, "not", .unary), (.inst, "and:", .binary), (.inst, "&&", .binary), (.inst, "or:", .binary), (.inst, "||", .binary),
    (.inst, "ifFalse:", .binary), (.inst, "ifTrue:ifFalse:", .ternary)]

/-- `integer_primitives.py:198-238`. -/
def integerPrims : List (Side × String × Kind) :=
  [
    (.inst, "asString", .unary), (.inst, "asDouble", .unary), (.inst, "as32BitSignedValue", .unary), (.inst, "as32BitUnsignedValue", .unary),
    (.inst, "sqrt", .unary), (.inst, "+", .binary), (.inst, "-", .binary), (.inst, "*", .binary), (.inst, "//", .binary), (.inst, "/", .binary),
    (.inst, "%", .binary), (.inst, "rem:", .binary), (.inst, "&", .binary), (.inst, "==", .binary), (.inst, "=", .binary), (.inst, "<", .binary),
    (.inst, "<=", .binary), (.inst, ">", .binary), (.inst, ">=", .binary), (.inst, "<>", .binary), (.inst, "~=", .binary), (.inst, "<<", .binary),
    (.inst, "bitXor:", .binary), (.inst, ">>>", .binary), (.inst, "abs", .unary), (.inst, "max:", .binary), (.inst, "min:", .binary),
    (.inst, "to:", .binary), (.cls, "fromString:", .binary)]

/-- `invokable_primitives.py:15-16`. -/
def invokablePrims : List (Side × String × Kind) :=
  [
    (.inst, "holder", .unary), (.inst, "signature", .unary)]

/-- `object_primitives.py:88-106`. -/
def objectPrims : List (Side × String × Kind) :=
  [
    (.inst, "==", .binary), (.inst, "hashcode", .unary), (.inst, "objectSize", .unary), (.inst, "instVarAt:", .binary),
    (.inst, "instVarAt:put:", .ternary), (.inst, "instVarNamed:", .binary), (.inst, "halt", .unary), (.inst, "class", .unary),
    (.inst, "perform:", .binary), (.inst, "perform:inSuperclass:", .ternary), (.inst, "perform:withArguments:", .ternary)]

/-- `string_primitives.py:93-105`. -/
def stringPrims : List (Side × String × Kind) :=
  [
    (.inst, "charAt:", .binary), (.inst, "concatenate:", .binary), (.inst, "asSymbol", .unary), (.inst, "length", .unary), (.inst, "=", .binary),
    (.inst, "primSubstringFrom:to:", .ternary), (.inst, "hashcode", .unary), (.inst, "isWhiteSpace", .unary), (.inst, "isLetters", .unary),
    (.inst, "isDigits", .unary)]

/-- `symbol_primitives.py:23-24`. -/
def symbolPrims : List (Side × String × Kind) :=
  [
    (.inst, "asString", .unary), (.inst, "=", .binary)]

/-- `system_primitives.py:96-112`. -/
def systemPrims : List (Side × String × Kind) :=
  [
    (.inst, "load:", .binary), (.inst, "exit:", .binary), (.inst, "hasGlobal:", .binary), (.inst, "global:", .binary),
    (.inst, "global:put:", .ternary), (.inst, "printString:", .binary), (.inst, "printNewline", .unary), (.inst, "errorPrint:", .binary),
    (.inst, "errorPrintln:", .binary), (.inst, "time", .unary), (.inst, "ticks", .unary), (.inst, "fullGC", .unary),
    (.inst, "loadFile:", .binary)]

/-- `true_primitives.py:40-49`. -/
def truePrims : List (Side × String × Kind) :=
  [
    (.inst, "not", .unary), (.inst, "or:", .binary), (.inst, "||", .binary), (.inst, "and:", .binary), (.inst, "&&", .binary),
    (.inst, "ifTrue:", .binary), (.inst, "ifFalse:", .binary), (.inst, "ifTrue:ifFalse:", .ternary)]

/-- What `ast/*_primitives.py` and `bc/*_primitives.py` add: `ast/method_primitives.py:24`, `ast/primitive_primitives.py:23`, `bc/integer_primitives.py:166-168`. -/
def onlyInvokable : Engine → List (Side × String × Kind)
  | .ast => [(.inst, "invokeOn:with:", .generic)]
  | .bc => []
def onlyInteger : Engine → List (Side × String × Kind)
  | .ast => []
  | .bc => [(.inst, "to:do:", .ternary), (.inst, "downTo:do:", .ternary), (.inst, "to:by:do:", .generic)]

/-- `_setup_primitives` and `primitives_for_class` (`known.py:34-89`): the thirteen classes that have primitives, with them. -/
def known (e : Engine) : List (String × List (Side × String × Kind)) :=
  [("Array", arrayPrims), ("Block", blockPrims), ("Class", classPrims), ("Double", doublePrims), ("False", falsePrims), ("Integer", integerPrims ++ onlyInteger e),
   ("Method", invokablePrims ++ onlyInvokable e), ("Object", objectPrims), ("Primitive", invokablePrims ++ onlyInvokable e), ("String", stringPrims), ("Symbol", symbolPrims),
   ("System", systemPrims), ("True", truePrims)]

/-- `_to_by_do` (`bc/integer_primitives.py:93-127`): it takes the block, the increment and the limit from the stack, and leaves the receiver.  The loop itself is C38. -/
def toByDo : List V → List V
  | _ :: _ :: _ :: r :: below => r :: below
  | stack => stack

end PySOM.Inv

import Verif.Model.Program
import Verif.Spec.Compiled
/-!
# Model of the disassembler

`src/som/compiler/bc/disassembler.py`: what `-d` prints for a class when it is loaded (`universe.py:459-463, 476-479`), and
`src/som/compiler/ast/disassembler.py`.

The text goes to the error output; here it is the result.  Simplification: when a Python exception ends the listing, the text printed before is dropped.
-/
set_option autoImplicit false
namespace PySOM.Disasm
open PySOM BC

/-- Texts. -/
abbrev Text := List Char

/-- The exceptions: a failed assertion of `get_bytecode`, an index out of the range of a list, a missing method or attribute, too deep recursion. -/
inductive Fail where
  | assertion
  | index
  | attribute
  | recursion
  deriving DecidableEq, Repr

/-- `_BYTECODE_NAMES` (`interpreter/bc/bytecodes.py:316-333`): the names of the members of `Bytecodes` (8-110) in upper case, in the order of their values. -/
def names : List String :=
  ["HALT", "DUP", "PUSH_FRAME", "PUSH_FRAME_0", "PUSH_FRAME_1", "PUSH_FRAME_2", "PUSH_INNER", "PUSH_INNER_0", "PUSH_INNER_1", "PUSH_INNER_2",
   "PUSH_FIELD", "PUSH_FIELD_0", "PUSH_FIELD_1", "PUSH_BLOCK", "PUSH_BLOCK_NO_CTX", "PUSH_CONSTANT", "PUSH_CONSTANT_0", "PUSH_CONSTANT_1",
   "PUSH_CONSTANT_2", "PUSH_0", "PUSH_1", "PUSH_NIL", "PUSH_GLOBAL", "POP", "POP_FRAME", "POP_FRAME_0", "POP_FRAME_1", "POP_FRAME_2", "POP_INNER",
   "POP_INNER_0", "POP_INNER_1", "POP_INNER_2", "POP_FIELD", "POP_FIELD_0", "POP_FIELD_1", "SEND_1", "SEND_2", "SEND_3", "SEND_N", "SUPER_SEND",
   "RETURN_LOCAL", "RETURN_NON_LOCAL", "RETURN_SELF", "RETURN_FIELD_0", "RETURN_FIELD_1", "RETURN_FIELD_2", "INC", "DEC", "INC_FIELD", "INC_FIELD_PUSH",
   "JUMP", "JUMP_ON_TRUE_TOP_NIL", "JUMP_ON_FALSE_TOP_NIL", "JUMP_ON_TRUE_POP", "JUMP_ON_FALSE_POP", "JUMP_ON_NOT_NIL_TOP_TOP", "JUMP_ON_NIL_TOP_TOP",
   "JUMP_ON_NOT_NIL_POP", "JUMP_ON_NIL_POP", "JUMP_BACKWARD", "JUMP2", "JUMP2_ON_TRUE_TOP_NIL", "JUMP2_ON_FALSE_TOP_NIL", "JUMP2_ON_TRUE_POP",
   "JUMP2_ON_FALSE_POP", "JUMP2_ON_NOT_NIL_TOP_TOP", "JUMP2_ON_NIL_TOP_TOP", "JUMP2_ON_NOT_NIL_POP", "JUMP2_ON_NIL_POP", "JUMP2_BACKWARD",
   "Q_SUPER_SEND_1", "Q_SUPER_SEND_2", "Q_SUPER_SEND_3", "Q_SUPER_SEND_N", "PUSH_LOCAL", "PUSH_ARGUMENT", "POP_LOCAL", "POP_ARGUMENT", "INVALID"]

/-- `bytecode_as_str` (`bytecodes.py:310-313`). -/
def bytecodeAsStr (op : Nat) : Except Fail Text :=
  match names[op]? with
  | some n => .ok n.toList
  | none => .error .assertion

/-- `bytecode_length` (`bytecodes.py:304-307`). -/
def lengthOf (op : Nat) : Except Fail Nat :=
  match bytecodeLength op with
  | some n => .ok n
  | none => .error .assertion

/-- How objects are printed: `str` of a constant and the name of its class (`constant.get_class(current_universe).get_name()`, or `not yet supported` when this fails), and
the names of the instance variables of the holder of the method, if it has one. -/
structure Names where
  str : Lit Meth → Text
  cls : Lit Meth → Text
  fields : Option (List Text)

/-- `str` of an integer that is not negative. -/
def dec (n : Nat) : Text := Nat.toDigits 10 n

/-- `str` of `b - offset`. -/
def decInt : Int → Text
  | .ofNat n => dec n
  | .negSucc n => '-' :: dec (n + 1)

/-- `get_bytecode` (`vmobjects/method_bc.py:131-135`). -/
def byteAt (bytes : List Nat) (i : Nat) : Except Fail Nat :=
  match bytes[i]? with
  | some b => .ok b
  | none => .error .assertion

/-- `get_constant` (`method_bc.py:114-117`). -/
def constant (lits : List (Lit Meth)) (bytes : List Nat) (b : Nat) : Except Fail (Lit Meth) := do
  match lits[← byteAt bytes (b + 1)]? with
  | some l => .ok l
  | none => .error .index

/-- The name of a field: `m.get_holder().get_instance_field_name(…)` (117-122; `clazz.py:144-145`). -/
def fieldName (N : Names) (i : Nat) : Except Fail Text :=
  match N.fields with
  | none => .ok "Holder Not Set".toList
  | some fs => match fs[i]? with
    | some f => .ok f
    | none => .error .index

/-- The offset and mnemonic that begin a line of `dump_bytecode` (52-62). -/
def lineHead (b : Nat) (name : Text) : Text :=
  (if b < 10 then " ".toList else []) ++ (if b < 100 then " ".toList else []) ++ " ".toList ++ dec b ++ ":".toList ++ name ++ "  ".toList

/-- The rest of a line of `dump_bytecode` (64-200); `inner` prints the method of a nested block. -/
def operands (N : Names) (inner : Lit Meth → Text → Except Fail Text) (lits : List (Lit Meth)) (bytes : List Nat) (indent : Text) (b op : Nat) : Except Fail Text := do
  if (← lengthOf op) = 1 then .ok "\n".toList
  else if op = Op.pushLocal ∨ op = Op.popLocal then
    .ok ("local: ".toList ++ dec (← byteAt bytes (b + 1)) ++ ", context: ".toList ++ dec (← byteAt bytes (b + 2)) ++ "\n".toList)
  else if op = Op.pushArgument ∨ op = Op.popArgument then
    .ok ("argument: ".toList ++ dec (← byteAt bytes (b + 1)) ++ ", context ".toList ++ dec (← byteAt bytes (b + 2)) ++ "\n".toList)
  else if op = Op.pushFrame ∨ op = Op.popFrame then
    .ok ("idx: ".toList ++ dec (← byteAt bytes (b + 1)) ++ "\n".toList)
  else if op = Op.pushInner ∨ op = Op.popInner then
    .ok ("idx: ".toList ++ dec (← byteAt bytes (b + 1)) ++ ", context: ".toList ++ dec (← byteAt bytes (b + 2)) ++ "\n".toList)
  else if op ∈ [Op.pushFrame0, Op.pushFrame1, Op.pushFrame2, Op.popFrame0, Op.popFrame1, Op.popFrame2, Op.pushInner0, Op.pushInner1, Op.pushInner2,
      Op.popInner0, Op.popInner1, Op.popInner2] then .ok "\n".toList
  else if op = Op.pushField ∨ op = Op.popField ∨ op = Op.incFieldPush ∨ op = Op.incField then do
    let name ← fieldName N (← byteAt bytes (b + 1))
    .ok ("(index: ".toList ++ dec (← byteAt bytes (b + 1)) ++ ", context ".toList ++ dec (← byteAt bytes (b + 2)) ++ ") field: ".toList ++ name ++ "\n".toList)
  else if op = Op.pushBlock then do
    let i ← byteAt bytes (b + 1)
    let text ← inner (← constant lits bytes b) (indent ++ "\t".toList)
    .ok ("block: (index: ".toList ++ dec i ++ ") ".toList ++ text)
  else if op = Op.pushConstant then do
    let c ← constant lits bytes b
    .ok ("(index: ".toList ++ dec (← byteAt bytes (b + 1)) ++ ") value: (".toList ++ N.str c ++ " class: ".toList ++ N.cls c ++ ") \n".toList)
  else if op = Op.pushGlobal then
    .ok ("(index: ".toList ++ dec (← byteAt bytes (b + 1)) ++ ") value: ".toList ++ N.str (← constant lits bytes b) ++ "\n".toList)
  else if op ∈ [Op.send1, Op.send2, Op.send3, Op.sendN, Op.superSend, Op.qSuperSend1, Op.qSuperSend2, Op.qSuperSend3, Op.qSuperSendN] then
    .ok ("(index: ".toList ++ dec (← byteAt bytes (b + 1)) ++ ") signature: ".toList ++ N.str (← constant lits bytes b) ++ "\n".toList)
  else if op = Op.returnNonLocal then
    .ok ("context: ".toList ++ dec (← byteAt bytes (b + 1)) ++ "\n".toList)
  else if jumpBytecodes.contains op then do
    let offset := (← byteAt bytes (b + 1)) + (← byteAt bytes (b + 2)) <<< 8
    let target : Int := if op = Op.jumpBackward ∨ op = Op.jump2Backward then (b : Int) - offset else b + offset
    .ok ("(jump offset: ".toList ++ dec offset ++ " -> jump target: ".toList ++ decInt target ++ ")\n".toList)
  else .ok "<incorrect bytecode>\n".toList

/-- `dump_bytecode` (50-200) with the indentation printed before it (43). -/
def dumpBytecode (N : Names) (inner : Lit Meth → Text → Except Fail Text) (lits : List (Lit Meth)) (bytes : List Nat) (indent : Text) (b : Nat) : Except Fail Text := do
  let op ← byteAt bytes b
  let name ← bytecodeAsStr op
  .ok (indent ++ lineHead b name ++ (← operands N inner lits bytes indent b op))

/-- The loop of `dump_method` (40-45).  The first number bounds the iterations; every instruction has at least one byte. -/
def dumpFrom (N : Names) (inner : Lit Meth → Text → Except Fail Text) (lits : List (Lit Meth)) (bytes : List Nat) (indent : Text) : Nat → Nat → Except Fail Text
  | 0, _ => .ok []
  | k + 1, b =>
    if b < bytes.length then do
      let line ← dumpBytecode N inner lits bytes indent b
      let n ← lengthOf (← byteAt bytes b)
      .ok (line ++ (← dumpFrom N inner lits bytes indent k (b + n)))
    else .ok []

/-- The second line of `dump_method` (29-37); `get_maximum_number_of_stack_elements` (`method_bc.py:97-102`) is the size of the stack with its reserves. -/
def counts (indent : Text) (locals stack bytes : Nat) : Text :=
  indent ++ "<".toList ++ dec locals ++ " locals, ".toList ++ dec stack ++ " stack, ".toList ++ dec bytes ++ " bc_count>\n".toList

/-- `dump_method` (25-47).  The number bounds the depth of nested blocks.  A trivial method (`method_trivial.py:23-39`) has no `get_number_of_bytecodes`; a constant that is not a
method has none either. -/
def dumpMethod (N : Names) : Nat → Lit Meth → Text → Except Fail Text
  | 0, _, _ => .error .recursion
  | n + 1, .meth (.bc _ lits bytes _ _ locals stack _), indent => do
    let code ← dumpFrom N (dumpMethod N n) lits bytes indent bytes.length 0
    .ok ("(\n".toList ++ counts indent locals.length stack bytes.length ++ code ++ indent ++ ")\n".toList)
  | _ + 1, .meth (.triv _ _), _ => .error .attribute
  | _ + 1, .val _, _ => .error .attribute

/-- An entry of the table of a class: its signature and a primitive or a method. -/
structure Entry where
  signature : Text
  body : Option Meth

/-- The loop of `dump` (13-22). -/
def dumpEntries (N : Names) (n : Nat) (name : Text) : List Entry → Except Fail Text
  | [] => .ok []
  | e :: es => do
    let text ← match e.body with
      | none => .ok "<primitive>\n".toList
      | some m => dumpMethod N n (.meth m) "\t".toList
    .ok (name ++ ">>".toList ++ e.signature ++ " = ".toList ++ text ++ (← dumpEntries N n name es))

/-- `dump` (13-22): the table of a class that has no methods is `None` (`get_instance_invokables_for_disassembler`, `clazz.py:91-92`; it stays `None` in
`set_instance_invokables`, `clazz.py:76-81`). -/
def dump (N : Names) (n : Nat) (name : Text) : Option (List Entry) → Except Fail Text
  | none => .error .attribute
  | some es => dumpEntries N n name es

/-- `dump` of the AST interpreter (`compiler/ast/disassembler.py:4-20`). -/
def dumpAst (name : Text) : Option (List Entry) → Except Fail Text
  | none => .error .attribute
  | some es => .ok (es.flatMap fun e => name ++ ">>".toList ++ e.signature ++ " = ".toList ++ match e.body with
      | none => "<primitive>\n".toList
      | some _ => "(\n\t\tTODO\n\t)\n".toList)

end PySOM.Disasm

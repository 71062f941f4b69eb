import Verif.Model.Bytecode
/-!
# Model of the bytecode generator

`src/som/compiler/bc/bytecode_generator.py`, `src/som/compiler/bc/method_generation_context.py` and the code-emitting part of
`src/som/compiler/bc/parser.py`.

The parser emits code while it reads the source; here the same calls are made in the same order by traversing a syntax tree in
which names are resolved (`Verif/Model/Scope.lean` is about resolving them).  A nested block is represented in the tree by its
compiled method, of an abstract type `M`: the parser compiles it completely before it emits `push_block`.  Inlining the method of a
block (`to_be_inlined.inline(self)`) is a parameter; `Verif/Model/Inline.lean` models it.  The rest of the generation context (the
lists of variables, which only inlining changes once code is emitted) is an abstract `env`.
-/
set_option autoImplicit false
namespace PySOM.BC
open PySOM

/-- `MethodGenerationContext` (48-68): the bytes, the literals, `_last_4_bytecodes`, `_is_currently_inlining_a_block`, the stack
depth counters, `inlined_loops`, the number of enclosing contexts (`get_max_context_level()`), and the rest. -/
structure G (M X : Type) where
  bytes : List Nat
  lits : List (Lit M)
  l0 : Nat
  l1 : Nat
  l2 : Nat
  l3 : Nat
  inl : Bool
  depth : Int
  maxDepth : Int
  loops : List (Nat × Nat)
  lvl : Nat
  env : X

/-- A new context (48-68). -/
def G.new {M X : Type} (lvl : Nat) (env : X) : G M X :=
  ⟨[], [], Op.invalid, Op.invalid, Op.invalid, Op.invalid, false, 0, 0, [], lvl, env⟩

section
variable {M X : Type}

/-- `add_bytecode` (278-286). -/
def addBytecode (g : G M X) (b : Nat) (effect : Int) : G M X :=
  { g with depth := g.depth + effect, maxDepth := max g.maxDepth (g.depth + effect), bytes := g.bytes ++ [b],
           l0 := g.l1, l1 := g.l2, l2 := g.l3, l3 := b }

/-- `add_bytecode_argument` (288-289). -/
def addArg (g : G M X) (b : Nat) : G M X := { g with bytes := g.bytes ++ [b] }

/-- `emit1` (`bytecode_generator.py:240-241`). -/
def emit1 (g : G M X) (code : Nat) (effect : Int) : G M X := addBytecode g code effect
/-- `emit2` (244-246). -/
def emit2 (g : G M X) (code idx : Nat) (effect : Int) : G M X := addArg (addBytecode g code effect) idx
/-- `emit3` (254-257). -/
def emit3 (g : G M X) (code idx ctx : Nat) (effect : Int) : G M X := addArg (addArg (addBytecode g code effect) idx) ctx

/-- Is it the same object?  Python's `in` and `index` compare with `==`, which for literals is identity.  Every number literal and
every compiled block is a new object; symbols, `nil`, `true` and `false` are unique. -/
def sameLit : Lit M → Lit M → Bool
  | .val (.int _), _ => false
  | .val v, .val w => decide (v = w)
  | _, _ => false

/-- `add_literal_if_absent` (240-245). -/
def addLiteralIfAbsent (g : G M X) (l : Lit M) : Nat × G M X :=
  match g.lits.findIdx? (sameLit l) with
  | some i => (i, g)
  | none => (g.lits.length, { g with lits := g.lits ++ [l] })

/-! ## Removing and replacing recent bytecodes -/

/-- `_reset_last_bytecode_buffer` (355-359). -/
def resetLast (g : G M X) : G M X := { g with l0 := Op.invalid, l1 := Op.invalid, l2 := Op.invalid, l3 := Op.invalid }

/-- `del self._bytecode[i:j]`. -/
def delBytes (bs : List Nat) (i j : Nat) : List Nat := bs.take i ++ bs.drop j

/-- `bytecode_length`, which asserts a valid bytecode. -/
def lenOf (op : Nat) : Except Err Nat :=
  match bytecodeLength op with
  | some n => .ok n
  | none => .error .assertion

/-- `n - m` with `assert offset >= 0`. -/
def subAssert (n m : Nat) : Except Err Nat := if m ≤ n then .ok (n - m) else .error .assertion

/-- `_remove_last_bytecodes(1)` (343-353). -/
def removeLast1 (g : G M X) : Except Err (G M X) := do
  let n ← lenOf g.l3
  let o ← subAssert g.bytes.length n
  .ok { g with bytes := g.bytes.take o }

/-- `_remove_last_bytecodes(2)`. -/
def removeLast2 (g : G M X) : Except Err (G M X) := do
  let n ← lenOf g.l3
  let m ← lenOf g.l2
  let o ← subAssert g.bytes.length (n + m)
  .ok { g with bytes := g.bytes.take o }

/-- `_remove_last_bytecodes(3)`. -/
def removeLast3 (g : G M X) : Except Err (G M X) := do
  let n ← lenOf g.l3
  let m ← lenOf g.l2
  let k ← lenOf g.l1
  let o ← subAssert g.bytes.length (n + m + k)
  .ok { g with bytes := g.bytes.take o }

/-- `_remove_last_bytecode_at(1)` (332-341): the offset is found with `_get_offset_of_last_bytecode` (322-330). -/
def removeLastAt1 (g : G M X) : Except Err (G M X) := do
  let n ← lenOf g.l3
  let m ← lenOf g.l2
  let o ← subAssert g.bytes.length (n + m)
  .ok { g with bytes := delBytes g.bytes o (o + m) }

/-! ## Peephole optimisations -/

/-- `optimize_inc_field_push` (389-398). -/
def optimizeIncFieldPush (g : G M X) : Except Err (G M X) := do
  let i ← subAssert g.bytes.length 3
  if g.bytes[i]? = some Op.incFieldPush then .ok { g with bytes := g.bytes.set i Op.incField, l3 := Op.incField }
  else .error .assertion

/-- `optimize_dup_pop_pop_sequence` (361-387); the Boolean is its result. -/
def optimizeDupPopPop (g : G M X) : Except Err (Bool × G M X) :=
  if g.inl then .ok (false, g)
  else if g.l3 = Op.incFieldPush then do .ok (true, ← optimizeIncFieldPush g)
  else if popXBytecodes.contains g.l3 = false then .ok (false, g)
  else if g.l2 ≠ Op.dup then .ok (false, g)
  else do
    let h ← removeLastAt1 g
    .ok (true, { h with l2 := g.l1, l1 := g.l0, l0 := Op.invalid })

/-- `_get_index_and_ctx_of_last` (463-471). -/
def indexAndCtxOfLast (g : G M X) (op off : Nat) : Except Err (Nat × Nat) :=
  if op = Op.pushField0 then .ok (0, 0)
  else if op = Op.pushField1 then .ok (1, 0)
  else do
    let o ← subAssert g.bytes.length off
    if g.bytes[o]? = some op then
      match g.bytes[o + 1]?, g.bytes[o + 2]? with
      | some i, some c => .ok (i, c)
      | _, _ => .error .index
    else .error .assertion

/-- `emit_inc_field_push` (21-22). -/
def emitIncFieldPush (g : G M X) (idx lvl : Nat) : G M X := emit3 g Op.incFieldPush idx lvl 1

/-- `optimize_inc_field` (400-436). -/
def optimizeIncField (g : G M X) (idx lvl : Nat) : Except Err (Bool × G M X) :=
  if g.inl then .ok (false, g)
  else if g.l3 ≠ Op.dup then .ok (false, g)
  else if g.l2 ≠ Op.inc then .ok (false, g)
  else if pushFieldBytecodes.contains g.l1 = false then .ok (false, g)
  else do
    let n ← lenOf g.l1
    let (i, c) ← indexAndCtxOfLast g g.l1 (1 + 1 + n)
    if i = idx ∧ c = lvl then do
      let h ← removeLast3 g
      .ok (true, emitIncFieldPush (resetLast h) idx lvl)
    else .ok (false, g)

/-- `emit_return_field` (48-60). -/
def emitReturnField (g : G M X) (idx : Nat) : Except Err (G M X) :=
  if idx = 0 then .ok (emit1 g Op.returnField0 0)
  else if idx = 1 then .ok (emit1 g Op.returnField1 0)
  else if idx = 2 then .ok (emit1 g Op.returnField2 0)
  else .error .notImplemented

/-- The second part of `optimize_return_field` (458-461). -/
def replaceByReturnField (g : G M X) (idx : Nat) : Except Err (Bool × G M X) := do
  let h ← removeLast1 g
  .ok (true, ← emitReturnField (resetLast h) idx)

/-- `optimize_return_field` (438-461). -/
def optimizeReturnField (g : G M X) : Except Err (Bool × G M X) :=
  if g.inl then .ok (false, g)
  else if g.l3 = Op.pushField0 then replaceByReturnField g 0
  else if g.l3 = Op.pushField1 then replaceByReturnField g 1
  else if g.l3 = Op.pushField then
    match g.bytes[g.bytes.length - 1]?, g.bytes[g.bytes.length - 2]? with
    | some ctx, some idx => if ctx > 0 then .ok (false, g) else if idx > 2 then .ok (false, g) else replaceByReturnField g idx
    | _, _ => .error .index
  else .ok (false, g)

/-- `remove_last_pop_for_block_local_return` (209-238). -/
def removeLastPop (g : G M X) : Except Err (G M X) :=
  if g.l3 = Op.pop then .ok { g with bytes := g.bytes.dropLast }
  else if popXBytecodes.contains g.l3 = true ∧ g.l2 ≠ Op.dup then do
    let n ← lenOf g.l3
    let i ← subAssert g.bytes.length n
    match g.bytes[i]? with
    | some b =>
      if popXBytecodes.contains b then
        .ok { g with bytes := g.bytes.take i ++ Op.dup :: g.bytes.drop i, l0 := g.l1, l1 := g.l2, l2 := Op.dup }
      else .error .assertion
    | none => .error .index
  else if g.l3 = Op.incField then do
    let i ← subAssert g.bytes.length 3
    if g.bytes[i]? = some Op.incField then .ok { g with bytes := g.bytes.set i Op.incFieldPush, l3 := Op.incFieldPush }
    else .error .assertion
  else .ok g

/-! ## Emitting instructions (`bytecode_generator.py`) -/

/-- `emit_pop` (25-27). -/
def emitPop (g : G M X) : Except Err (G M X) := do
  let (done, g) ← optimizeDupPopPop g
  .ok (if done then g else emit1 g Op.pop (-1))

/-- `emit_return_self` (34-36). -/
def emitReturnSelf (g : G M X) : Except Err (G M X) := do
  let (_, g) ← optimizeDupPopPop g
  .ok (emit1 g Op.returnSelf 0)

/-- `emit_return_local` (39-41). -/
def emitReturnLocal (g : G M X) : Except Err (G M X) := do
  let (done, g) ← optimizeReturnField g
  .ok (if done then g else emit1 g Op.returnLocal 0)

/-- `emit_return_non_local` (44-45). -/
def emitReturnNonLocal (g : G M X) : G M X := emit2 g Op.returnNonLocal g.lvl 0

/-- `emit_push_block` (67-69). -/
def emitPushBlock (g : G M X) (m : M) (ctx : Bool) : G M X :=
  let (i, g) := addLiteralIfAbsent g (.meth m)
  emit2 g (if ctx then Op.pushBlock else Op.pushBlockNoCtx) i 1

/-- `emit_push_argument`, `emit_push_local` (30-31, 72-73). -/
def emitPushVar (g : G M X) (isArg : Bool) (idx lvl : Nat) : G M X := emit3 g (if isArg then Op.pushArgument else Op.pushLocal) idx lvl 1
/-- `emit_pop_argument`, `emit_pop_local` (113-118). -/
def emitPopVar (g : G M X) (isArg : Bool) (idx lvl : Nat) : G M X := emit3 g (if isArg then Op.popArgument else Op.popLocal) idx lvl (-1)

/-- `emit_push_field_with_index` (83-92). -/
def emitPushField (g : G M X) (idx lvl : Nat) : G M X :=
  if lvl = 0 ∧ idx = 0 then emit1 g Op.pushField0 1
  else if lvl = 0 ∧ idx = 1 then emit1 g Op.pushField1 1
  else emit3 g Op.pushField idx g.lvl 1

/-- `emit_pop_field_with_index` (131-139). -/
def emitPopFieldWithIndex (g : G M X) (idx lvl : Nat) : G M X :=
  if lvl = 0 ∧ idx = 0 then emit1 g Op.popField0 (-1)
  else if lvl = 0 ∧ idx = 1 then emit1 g Op.popField1 (-1)
  else emit3 g Op.popField idx lvl (-1)

/-- `emit_pop_field` (121-128). -/
def emitPopField (g : G M X) (idx : Nat) : Except Err (G M X) := do
  let (done, g) ← optimizeIncField g idx g.lvl
  .ok (if done then g else emitPopFieldWithIndex g idx g.lvl)

/-- `emit_push_constant` (163-189). -/
def emitPushConstant (g : G M X) (v : Val) : G M X :=
  if v = .int 0 then emit1 g Op.push0 1
  else if v = .int 1 then emit1 g Op.push1 1
  else if v = .nil then emit1 g Op.pushNil 1
  else
    let (i, g) := addLiteralIfAbsent g (.val v)
    if i = 0 then emit1 g Op.pushConstant0 1
    else if i = 1 then emit1 g Op.pushConstant1 1
    else if i = 2 then emit1 g Op.pushConstant2 1
    else emit2 g Op.pushConstant i 1

def symNil : Sel := "nil".toList
def symTrue : Sel := "true".toList
def symFalse : Sel := "false".toList

/-- `emit_push_global` (95-110); `mark_self_as_accessed_from_outer_context` sets a flag that does not affect the code. -/
def emitPushGlobal (g : G M X) (n : Sel) : G M X :=
  if n = symNil then emitPushConstant g .nil
  else if n = symTrue then emitPushConstant g .tru
  else if n = symFalse then emitPushConstant g .fls
  else
    let (i, g) := addLiteralIfAbsent g (.val (.sym n))
    emit2 g Op.pushGlobal i 1

/-- `emit_super_send` (142-145). -/
def emitSuperSend (g : G M X) (sel : Sel) : G M X :=
  let (i, g) := addLiteralIfAbsent g (.val (.sym sel))
  emit2 g Op.superSend i (-(Sym.numberOfSignatureArguments sel : Int) + 1)

/-- `emit_send` (148-160). -/
def emitSend (g : G M X) (sel : Sel) : G M X :=
  let (i, g) := addLiteralIfAbsent g (.val (.sym sel))
  let n := Sym.numberOfSignatureArguments sel
  let op := if n = 1 then Op.send1 else if n = 2 then Op.send2 else if n = 3 then Op.send3 else Op.sendN
  emit2 g op i (-(n : Int) + 1)

/-! ## Jumps -/

/-- The bytecode of a conditional jump (`emit_jump_on_with_dummy_offset:206-215`). -/
def jumpOp (c : JCond) (needsPop : Bool) : Nat :=
  match c with
  | .onTrue => if needsPop then Op.jumpOnTruePop else Op.jumpOnTrueTopNil
  | .onFalse => if needsPop then Op.jumpOnFalsePop else Op.jumpOnFalseTopNil
  | .onNotNil => if needsPop then Op.jumpOnNotNilPop else Op.jumpOnNotNilTopTop
  | .onNil => if needsPop then Op.jumpOnNilPop else Op.jumpOnNilTopTop

/-- A bytecode and two zero bytes (217-220, 224-227): also the index of the first offset byte. -/
def emit3Dummy (g : G M X) (op : Nat) (effect : Int) : Nat × G M X :=
  (g.bytes.length + 1, addArg (addArg (addBytecode g op effect) 0) 0)

/-- `emit_jump_on_with_dummy_offset` (196-220). -/
def emitJumpOnDummy (g : G M X) (c : JCond) (needsPop : Bool) : Nat × G M X :=
  emit3Dummy g (jumpOp c needsPop) (if needsPop then -1 else 0)

/-- `emit_jump_with_dummy_offset` (223-227). -/
def emitJumpDummy (g : G M X) : Nat × G M X := emit3Dummy g Op.jump 0

/-- `patch_jump_offset_to_point_to_next_instruction` (786-805), with `_check_jump_offset` (811-822). -/
def patchJump (g : G M X) (idx : Nat) : Except Err (G M X) := do
  let start ← subAssert idx 1
  match g.bytes[start]? with
  | none => .error .index
  | some op =>
    if jumpBytecodes.contains op = false then .error .assertion
    else
      let off : Int := (g.bytes.length : Int) - start
      if ¬ (0 ≤ off ∧ off ≤ 0xFFFF) then .error .parse
      else
        let off := off.toNat
        if off ≤ 0xFF then .ok { g with bytes := (g.bytes.set idx off).set (idx + 1) 0 }
        else
          let op' := if op < firstDoubleByteJump then op + numSingleByteJumps else op
          if jumpBytecodes.contains op' = false then .error .assertion
          else .ok { g with bytes := ((g.bytes.set start op').set idx (off &&& 0xFF)).set (idx + 1) (off >>> 8) }

/-- `emit_backwards_jump_offset_to_target` (774-784), with `emit_jump_backward_with_offset` (`bytecode_generator.py:230-237`). -/
def emitBackJump (g : G M X) (begin : Nat) : Except Err (G M X) :=
  let off : Int := (g.bytes.length : Int) - begin
  if ¬ (0 ≤ off ∧ off ≤ 0xFFFF) then .error .parse
  else
    let off := off.toNat
    let here := g.bytes.length
    let g := emit3 g (if off ≤ 0xFF then Op.jumpBackward else Op.jump2Backward) (off &&& 0xFF) (off >>> 8) 0
    .ok { g with loops := g.loops ++ [(begin, here)] }

/-! ## Inlined control structures -/

/-- `to_be_inlined.inline(self)`. -/
abbrev Inline (M X : Type) := M → G M X → Except Err (G M X)

/-- The literal a `push_block` refers to. -/
def blockLit (g : G M X) (i : Option Nat) : Except Err M :=
  match i with
  | none => .error .index
  | some i => match g.lits[i]? with
    | some (.meth m) => .ok m
    | some (.val _) => .error .attribute
    | none => .error .index

/-- `inline_then_branch` (587-618); the Boolean is its result. -/
def inlineThenBranch (inl : Inline M X) (g : G M X) (c : JCond) : Except Err (Bool × G M X) :=
  if pushBlockBytecodes.contains g.l3 = false then .ok (false, g)
  else do
    let i := g.bytes[g.bytes.length - 1]?
    let g ← removeLast1 g
    let (at1, g) := emitJumpOnDummy g c false
    let m ← blockLit g i
    let g ← inl m { g with inl := true }
    let g ← patchJump g at1
    .ok (true, resetLast g)

/-- `_has_two_literal_block_arguments` (620-626). -/
def hasTwoBlocks (g : G M X) : Bool := pushBlockBytecodes.contains g.l3 && pushBlockBytecodes.contains g.l2

/-- `_extract_block_methods_and_remove_bytecodes` (674-684). -/
def extractBlocks (g : G M X) : Except Err (M × M × G M X) := do
  let m1 ← blockLit g (g.bytes[g.bytes.length - 3]?)
  let m2 ← blockLit g (g.bytes[g.bytes.length - 1]?)
  let g ← removeLast2 g
  .ok (m1, m2, g)

/-- `inline_then_else_branches` (628-672). -/
def inlineThenElse (inl : Inline M X) (g : G M X) (c : JCond) : Except Err (Bool × G M X) :=
  if hasTwoBlocks g = false then .ok (false, g)
  else do
    let (m1, m2, g) ← extractBlocks g
    let (at1, g) := emitJumpOnDummy g c true
    let g ← inl m1 { g with inl := true }
    let (at2, g) := emitJumpDummy g
    let g ← patchJump g at1
    let g ← inl m2 (resetLast g)
    let g ← patchJump { g with inl := false } at2
    .ok (true, resetLast g)

/-- `inline_while` (686-716) with `_complete_jumps_and_emit_returning_nil` (757-772). -/
def inlineWhile (inl : Inline M X) (g : G M X) (isWhileTrue : Bool) : Except Err (Bool × G M X) :=
  if hasTwoBlocks g = false then .ok (false, g)
  else do
    let (m1, m2, g) ← extractBlocks g
    let begin := g.bytes.length
    let g ← inl m1 { g with inl := true }
    let (at1, g) := emitJumpOnDummy g (if isWhileTrue then .onFalse else .onTrue) true
    let g ← inl m2 g
    let g ← emitPop (resetLast g)
    let g ← emitBackJump g begin
    let g ← patchJump g at1
    let g := resetLast (emitPushConstant g .nil)
    .ok (true, { g with inl := false })

/-- `inline_andor` (718-755). -/
def inlineAndOr (inl : Inline M X) (g : G M X) (isOr : Bool) : Except Err (Bool × G M X) :=
  if pushBlockBytecodes.contains g.l3 = false then .ok (false, g)
  else do
    let i := g.bytes[g.bytes.length - 1]?
    let g ← removeLast1 g
    let (at1, g) := emitJumpOnDummy g (if isOr then .onTrue else .onFalse) true
    let m ← blockLit g i
    let g ← inl m { g with inl := true }
    let (at2, g) := emitJumpDummy { g with inl := false }
    let g ← patchJump g at1
    let g := emitPushConstant g (if isOr then .tru else .fls)
    let g ← patchJump g at2
    .ok (true, resetLast g)

/-! ## Expressions (`parser.py`) -/

/-- Target of an assignment. -/
inductive Tgt where
  | var (name : Sel) (isArg : Bool) (idx lvl : Nat)
  | fld (name : Sel) (idx : Nat)
  deriving DecidableEq, Repr

def Tgt.name : Tgt → Sel
  | .var n _ _ _ => n
  | .fld n _ => n

mutual
/-- Literals: numbers, symbols and strings, and literal arrays of literals. -/
inductive LitT where
  | val (v : Val)
  | arr (es : LitTs)
/-- The elements of a literal array. -/
inductive LitTs where
  | nil
  | cons (e : LitT) (es : LitTs)
end

def LitTs.length : LitTs → Nat
  | .nil => 0
  | .cons _ es => es.length + 1

mutual
/-- Expressions with resolved names.  `blk` is a block literal: its compiled method and whether it needs a context.  `inc` and `dec` are `e + 1` and `e - 1`
where the operand is the integer literal written `1` (`_try_inc_or_dec_bytecodes`, 216-226). -/
inductive Ex (M : Type) where
  | lit (l : LitT)
  | glob (n : Sel)
  | var (isArg : Bool) (idx lvl : Nat)
  | fld (name : Sel) (idx : Nat)
  | blk (ctx : Bool) (m : M)
  | asg (t : Tgt) (ts : List Tgt) (e : Ex M)
  | inc (e : Ex M)
  | dec (e : Ex M)
  | send (sel : Sel) (r : Ex M) (as : Exs M)
  | superSend (sel : Sel) (r : Ex M) (as : Exs M)
/-- Arguments, left to right. -/
inductive Exs (M : Type) where
  | nil
  | cons (e : Ex M) (es : Exs M)
end

def symArray : Sel := "Array".toList
def symNew : Sel := "new:".toList
def symAtPut : Sel := "at:put:".toList
/-- `sym_array_size_placeholder` (`symbols.py`). -/
def symPlaceholder : Sel := "ArraySizeLiteralPlaceholder".toList

/-- `add_literal` (247-253). -/
def addLiteral (g : G M X) (l : Lit M) : Except Err (Nat × G M X) :=
  if g.lits.length < 128 then .ok (g.lits.length, { g with lits := g.lits ++ [l] }) else .error .assertion

/-- `update_literal` (255-257). -/
def updateLiteral (g : G M X) (old : Lit M) (i : Nat) (new : Lit M) : Except Err (G M X) :=
  match g.lits[i]? with
  | none => .error .index
  | some l => if sameLit old l then .ok { g with lits := g.lits.set i new } else .error .assertion

mutual
/-- `_literal` (339-350) and `_literal_array` (376-400). -/
def cLit : LitT → G M X → Except Err (G M X)
  | .val v, g => .ok (emitPushConstant g v)
  | .arr es, g => do
    let (k, g) ← addLiteral g (.val (.sym symPlaceholder))
    let g := emitPushGlobal g symArray
    let g := emit2 g Op.pushConstant k 1
    let g := emitSend g symNew
    let g ← cLits es 1 g
    updateLiteral g (.val (.sym symPlaceholder)) k (.val (.int es.length))
/-- The loop of `_literal_array` (387-395). -/
def cLits : LitTs → Nat → G M X → Except Err (G M X)
  | .nil, _, g => .ok g
  | .cons e es, i, g => do
    let g := emitPushConstant g (.int i)
    let g ← cLit e g
    cLits es (i + 1) (emitSend g symAtPut)
end

/-- `_gen_pop_variable` (444-460). -/
def genPop (g : G M X) : Tgt → Except Err (G M X)
  | .var _ a i l => .ok (emitPopVar g a i l)
  | .fld _ i => emitPopField g i

/-- `mgenc.add_literal_if_absent(var)` for each target (`_assignment:137-143`). -/
def addNames (g : G M X) : List Tgt → G M X
  | [] => g
  | t :: ts => addNames (addLiteralIfAbsent g (.val (.sym t.name))).2 ts

/-- The second loop of `_assignation` (127-128). -/
def genPops (g : G M X) : List Tgt → Except Err (G M X)
  | [] => .ok g
  | t :: ts => do genPops (← genPop g t) ts

/-- The first loop of `_assignation` (124-125). -/
def emitDups (g : G M X) : Nat → G M X
  | 0 => g
  | n + 1 => emitDups (emit1 g Op.dup 1) n

/-- The control structures the parser tries to inline, by selector (`_binary_message:239-245`, `_keyword_message:273-316`); the conditions of
`||` and `&&` are those of `or:` and `and:`. -/
inductive Special where
  | thenBranch (c : JCond)
  | thenElse (c : JCond)
  | while (isTrue : Bool)
  | andOr (isOr : Bool)
  deriving DecidableEq, Repr

def specials : List (Sel × Special) :=
  [("ifTrue:".toList, .thenBranch .onFalse), ("ifFalse:".toList, .thenBranch .onTrue), ("ifNil:".toList, .thenBranch .onNotNil),
   ("ifNotNil:".toList, .thenBranch .onNil), ("whileTrue:".toList, .while true), ("whileFalse:".toList, .while false),
   ("or:".toList, .andOr true), ("and:".toList, .andOr false), ("||".toList, .andOr true), ("&&".toList, .andOr false),
   ("ifTrue:ifFalse:".toList, .thenElse .onFalse), ("ifFalse:ifTrue:".toList, .thenElse .onTrue),
   ("ifNil:ifNotNil:".toList, .thenElse .onNotNil), ("ifNotNil:ifNil:".toList, .thenElse .onNil)]

/-- The special form for a selector, if there is one. -/
def special? (sel : Sel) : Option Special := specials.lookup sel

/-- `mgenc.inline_…`. -/
def tryInline (inl : Inline M X) (g : G M X) : Special → Except Err (Bool × G M X)
  | .thenBranch c => inlineThenBranch inl g c
  | .thenElse c => inlineThenElse inl g c
  | .while b => inlineWhile inl g b
  | .andOr b => inlineAndOr inl g b

/-- The end of `_binary_message` and `_keyword_message` for a message that is not sent to super: inline or send. -/
def sendOrInline (inl : Inline M X) (g : G M X) (sel : Sel) : Except Err (G M X) :=
  match special? sel with
  | none => .ok (emitSend g sel)
  | some sp => do
    let (done, g) ← tryInline inl g sp
    .ok (if done then g else emitSend g sel)

mutual
/-- `_expression` (`parser.py:255-260` of the base class), `_assignation` (118-128), `_primary` (158-176), `_gen_push_variable` (420-442), `_unary_message` (205-214), `_binary_message` (228-250),
`_keyword_message` (258-323). -/
def cEx (inl : Inline M X) : Ex M → G M X → Except Err (G M X)
  | .lit l, g => cLit l g
  | .glob n, g => .ok (emitPushGlobal g n)
  | .var a i l, g => .ok (emitPushVar g a i l)
  | .fld n i, g => .ok (emitPushField (addLiteralIfAbsent g (.val (.sym n))).2 i g.lvl)
  | .blk ctx m, g => .ok (emitPushBlock g m ctx)
  | .asg t ts e, g => do
    let g ← cEx inl e (addNames g (t :: ts))
    genPops (emitDups g (ts.length + 1)) (t :: ts)
  | .inc e, g => do .ok (emit1 (← cEx inl e g) Op.inc 0)
  | .dec e, g => do .ok (emit1 (← cEx inl e g) Op.dec 0)
  | .send sel r as, g => do
    let g ← cEx inl r g
    let g ← cExs inl as g
    sendOrInline inl g sel
  | .superSend sel r as, g => do
    let g ← cEx inl r g
    let g ← cExs inl as g
    .ok (emitSuperSend g sel)
/-- Arguments are compiled in order. -/
def cExs (inl : Inline M X) : Exs M → G M X → Except Err (G M X)
  | .nil, g => .ok g
  | .cons e es, g => do cExs inl es (← cEx inl e g)
end

/-- What `_block_body` (60-88) reads: expressions ended by a period, and the end of the body. -/
inductive Body (M : Type) where
  /-- the closing bracket or parenthesis, after a period or at the beginning -/
  | done
  /-- an expression without a period -/
  | last (e : Ex M)
  /-- an expression with a period -/
  | stmt (e : Ex M) (rest : Body M)
  /-- `^ e` -/
  | exit (e : Ex M)
  /-- `^ self` in a method (91-105) -/
  | exitSelf

/-- `_block_body` (60-88), `_result` (90-116) and what `_method_block` (45-58) and `nested_block` (402-417) add after it. -/
def cBody (inl : Inline M X) (isBlock : Bool) : Body M → Bool → G M X → Except Err (G M X)
  | .done, seenPeriod, g =>
    if isBlock then do
      let g ← if seenPeriod then removeLastPop g else .ok g
      emitReturnLocal (if g.bytes = [] then emitPushConstant g .nil else g)
    else emitReturnSelf g
  | .last e, _, g => do
    let g ← cEx inl e g
    if isBlock then emitReturnLocal (if g.bytes = [] then emitPushConstant g .nil else g) else emitReturnSelf g
  | .stmt e rest, _, g => do
    let g ← cEx inl e g
    let g ← emitPop g
    cBody inl isBlock rest true g
  | .exit e, _, g => do
    let g ← cEx inl e g
    if isBlock then .ok (emitReturnNonLocal g) else emitReturnLocal g
  | .exitSelf, _, g => emitReturnSelf g

/-- A whole method or block. -/
def compile (inl : Inline M X) (isBlock : Bool) (lvl : Nat) (env : X) (b : Body M) : Except Err (G M X) :=
  cBody inl isBlock b false (G.new lvl env)

/-- `assemble` (133-180) for a method that is not trivial: `set_bytecode` asserts that each byte is in range
(`method_bc.py:141-146`); the stack gets `max_stack_depth + 2` elements and two more (`method_bc.py:84`). -/
def assemble (g : G M X) : Except Err (Code M) :=
  if g.bytes.all (· ≤ 255) then .ok ⟨g.lits, g.bytes, (g.maxDepth + 2 + 2).toNat⟩ else .error .assertion
end

end PySOM.BC

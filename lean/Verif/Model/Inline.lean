import Verif.Model.Trivial
import Verif.Model.Heap
import Verif.Spec.Struct
/-!
# Model of inlining a compiled block into the method that is being generated

`src/som/vmobjects/method_bc.py:255-622` (`inline`, `_inline_into`, `adapt_after_outer_inlined`), the `inline` methods of
`src/som/vmobjects/method_trivial.py`, `merge_into_scope` and `inline_locals` (`src/som/compiler/method_generation_context.py:84-98, 214-218`) and
`get_inlined_local_idx` (`src/som/compiler/bc/method_generation_context.py:192-201`).

A local variable is represented by its `source`, which `copy_for_inlining` copies and by which `get_inlined_local_idx` finds the copy.  The chain of
`LexicalScope` objects of a nested block is represented by the nesting of the methods: the scope of a block is enclosed by the scope of the method that
contains its literal (`drop_inlined_scope`, `lexical_scope.py:43-50`, takes the scope of an inlined block out of the chain once the blocks in it are adapted).
`adapt_after_outer_inlined` changes a method in place; here it answers the changed method, and the literal list of the enclosing method is updated.
-/
set_option autoImplicit false
namespace PySOM.BC
open PySOM

/-- A compiled block: a `BcMethod` (`method_bc.py:46-92`, `214`) with the fields that inlining looks at, or a trivial method.  Two components are not part of the
object and are never looked at by the functions below: `id` says which block of the source it was compiled from, and `code` is the structured code that
the bytes encode. -/
inductive Meth where
  | bc (id : Nat) (lits : List (Lit Meth)) (bytes : List Nat) (loops : List (Nat × Nat)) (args locals : List Nat) (stack : Nat) (code : SC Meth)
  | triv (id : Nat) (t : Triv Meth)

/-- The local variables of a method: `_lexical_scope.locals`. -/
def Meth.locals : Meth → List Nat
  | .bc _ _ _ _ _ ls _ _ => ls
  | .triv _ _ => []

def Meth.id : Meth → Nat
  | .bc id _ _ _ _ _ _ _ => id
  | .triv id _ => id

/-- Takes the place of a block that cannot be adapted in the component `code`; inlining fails in this case. -/
def Meth.stub (m : Meth) : Meth := .triv m.id (.lit (.val .nil))

/-- `get_bytecode` (`method_bc.py:131-135`). -/
def getByte (bs : List Nat) (i : Nat) : Except Err Nat :=
  match bs[i]? with
  | some b => .ok b
  | none => .error .assertion

/-- `set_bytecode` (`method_bc.py:141-146`). -/
def setByte (bs : List Nat) (i v : Nat) : Except Err (List Nat) :=
  if i < bs.length ∧ v ≤ 255 then .ok (bs.set i v) else .error .assertion

/-- `LexicalScope.get_local` (`lexical_scope.py:19-23`); the scopes from the inside out. -/
def getLocal (chain : List (List Nat)) (idx lvl : Nat) : Except Err Nat :=
  match chain[lvl]? with
  | none => .error .attribute
  | some ls =>
    match ls[idx]? with
    | some v => .ok v
    | none => .error .index

/-- The loop of `get_inlined_local_idx` (192-201), from `n - 1` down to 0. -/
def lastIdx (xs : List Nat) (src : Nat) : Nat → Option Nat
  | 0 => none
  | i + 1 => if xs[i]? = some src then some i else lastIdx xs src i

/-- `get_inlined_local_idx` (192-201); marking the variable as accessed does not affect the code. -/
def inlinedIdx (xs : List Nat) (src : Nat) : Except Err Nat :=
  match lastIdx xs src xs.length with
  | some i => .ok i
  | none => .error .other

/-- `RUN_TIME_ONLY_BYTECODES` and the rest of what `_inline_into` and `adapt_after_outer_inlined` reject raise an exception. -/
def unexpected {α : Type} : Except Err α := .error .other

/-! ## `adapt_after_outer_inlined` (505-622) -/

/-- The bytecodes that do not refer to a context (511-555). -/
def noContextBytecodes : List Nat :=
  [Op.halt, Op.dup, Op.pushBlockNoCtx, Op.pushConstant, Op.pushConstant0, Op.pushConstant1, Op.pushConstant2, Op.push0, Op.push1, Op.pushNil,
   Op.pushGlobal, Op.pop, Op.send1, Op.send2, Op.send3, Op.sendN, Op.superSend, Op.returnLocal, Op.returnField0, Op.returnField1, Op.returnField2, Op.inc,
   Op.dec, Op.jump, Op.jumpOnTrueTopNil, Op.jumpOnTruePop, Op.jumpOnFalseTopNil, Op.jumpOnFalsePop, Op.jumpOnNotNilTopTop, Op.jumpOnNilTopTop,
   Op.jumpOnNotNilPop, Op.jumpOnNilPop, Op.jumpBackward, Op.jump2, Op.jump2OnTrueTopNil, Op.jump2OnTruePop, Op.jump2OnFalseTopNil, Op.jump2OnFalsePop,
   Op.jump2OnNotNilTopTop, Op.jump2OnNilTopTop, Op.jump2OnNotNilPop, Op.jump2OnNilPop, Op.jump2Backward]

/-- One iteration: the bytes and literals after it.  `sub` adapts a nested block. -/
def adaptOp (sub : Meth → Except Err Meth) (k : Nat) (chain : List (List Nat)) (new : List Nat) (op i : Nat) (bs : List Nat) (lits : List (Lit Meth)) :
    Except Err (List Nat × List (Lit Meth)) :=
  if noContextBytecodes.contains op then .ok (bs, lits)
  else if op = Op.pushField ∨ op = Op.popField ∨ op = Op.pushArgument ∨ op = Op.popArgument ∨ op = Op.incFieldPush ∨ op = Op.incField then do
    let l ← getByte bs (i + 2)
    if l > k then do .ok (← setByte bs (i + 2) (l - 1), lits) else .ok (bs, lits)
  else if op = Op.pushBlock then do
    let j ← getByte bs (i + 1)
    match lits[j]? with
    | none => .error .index
    | some (.val _) => .error .attribute
    | some (.meth m) => do .ok (bs, lits.set j (.meth (← sub m)))
  else if op = Op.pushLocal ∨ op = Op.popLocal then do
    let l ← getByte bs (i + 2)
    if l = k then do
      let idx ← getByte bs (i + 1)
      let v ← getLocal chain idx l
      let new ← inlinedIdx new v
      .ok (← setByte bs (i + 1) new, lits)
    else if l > k then do .ok (← setByte bs (i + 2) (l - 1), lits)
    else .ok (bs, lits)
  else if op = Op.returnNonLocal then do
    let l ← getByte bs (i + 1)
    .ok (← setByte bs (i + 1) (← subAssert l 1), lits)
  else unexpected

/-- The loop (506-619); `n` bounds the number of iterations, of which there are at most as many as there are bytes. -/
def adaptLoop (sub : Meth → Except Err Meth) (k : Nat) (chain : List (List Nat)) (new : List Nat) :
    Nat → Nat → List Nat → List (Lit Meth) → Except Err (List Nat × List (Lit Meth))
  | 0, i, bs, lits => if i < bs.length then .error .other else .ok (bs, lits)
  | n + 1, i, bs, lits =>
    if i < bs.length then do
      let op ← getByte bs i
      let len ← lenOf op
      let (bs, lits) ← adaptOp sub k chain new op i bs lits
      adaptLoop sub k chain new n (i + len) bs lits
    else .ok (bs, lits)

/-- Replace every instruction of structured code. -/
def SC.subst {M N : Type} (f : Ins M → SC N) : SC M → SC N
  | .nop => .nop
  | .ins i => f i
  | .seq a b => .seq (a.subst f) (b.subst f)
  | .thenB c body => .thenB c (body.subst f)
  | .ifElse c a b => .ifElse c (a.subst f) (b.subst f)
  | .loop c cond body => .loop c (cond.subst f) (body.subst f)

/-- What happens to an instruction; only for the component `code`. -/
def adaptIns (sub : Meth → Except Err Meth) (k : Nat) (chain : List (List Nat)) (new : List Nat) : Ins Meth → Ins Meth
  | .pushFld i l => .pushFld i (if l > k then l - 1 else l)
  | .popFld i l => .popFld i (if l > k then l - 1 else l)
  | .incFld i l => .incFld i (if l > k then l - 1 else l)
  | .incFldPush i l => .incFldPush i (if l > k then l - 1 else l)
  | .pushVar true i l => .pushVar true i (if l > k then l - 1 else l)
  | .popVar true i l => .popVar true i (if l > k then l - 1 else l)
  | .pushVar false i l =>
    if l = k then .pushVar false (((getLocal chain i l).bind (inlinedIdx new)).toOption.getD i) l else .pushVar false i (if l > k then l - 1 else l)
  | .popVar false i l =>
    if l = k then .popVar false (((getLocal chain i l).bind (inlinedIdx new)).toOption.getD i) l else .popVar false i (if l > k then l - 1 else l)
  | .pushBlock true m => .pushBlock true ((sub m).toOption.getD m.stub)
  | .retNonLocal l => .retNonLocal (l - 1)
  | i => i

/-- `adapt_after_outer_inlined` (505-622): `k` is `removed_ctx_level`, `chain` the scopes of the method from the inside out, `new` the variables of the method
into which the enclosing block is inlined.  The trivial methods do not have this method.  The first argument bounds the depth of nesting. -/
def adapt : Nat → Nat → List (List Nat) → List Nat → Meth → Except Err Meth
  | 0, _, _, _, _ => .error .other
  | _ + 1, _, _, _, .triv _ _ => .error .attribute
  | n + 1, k, outer, new, .bc id lits bytes loops args locals stack code => do
    let sub := adapt n (k + 1) (locals :: outer) new
    let (bytes', lits') ← adaptLoop sub k (locals :: outer) new bytes.length 0 bytes lits
    .ok (.bc id lits' bytes' loops args locals stack (code.subst (fun i => .ins (adaptIns sub k (locals :: outer) new i))))

/-! ## `_inline_into` (291-503) -/

/-- State of the loop: the context, the pending forward jumps, the loops not yet begun, and the loops begun. -/
structure InlSt where
  g : G Meth (List Nat)
  jumps : List HeapQ.Entry
  back : List HeapQ.Entry
  patch : List HeapQ.Entry

/-- `_prepare_back_jump_to_current_address` (266-279); `n` bounds the number of iterations. -/
def prepareBack (i here : Nat) : Nat → List HeapQ.Entry → List HeapQ.Entry → Except Err (List HeapQ.Entry × List HeapQ.Entry)
  | 0, back, patch => .ok (back, patch)
  | n + 1, back, patch =>
    match back with
    | [] => .ok (back, patch)
    | e :: _ =>
      if e.address ≤ i then
        match HeapQ.heappop back with
        | none => .error .index
        | some (e, back) => if e.address = i then prepareBack i here n back (HeapQ.heappush patch ⟨e.payload, here⟩) else .error .assertion
      else .ok (back, patch)

/-- `_patch_jump_to_current_address` (281-289); `n` bounds the number of iterations. -/
def patchHere (i : Nat) : Nat → List HeapQ.Entry → G Meth (List Nat) → Except Err (List HeapQ.Entry × G Meth (List Nat))
  | 0, jumps, g => .ok (jumps, g)
  | n + 1, jumps, g =>
    match jumps with
    | [] => .ok (jumps, g)
    | e :: _ =>
      if e.address ≤ i then
        match HeapQ.heappop jumps with
        | none => .error .index
        | some (e, jumps) =>
          if e.address = i then do patchHere i n jumps (← patchJump g e.payload) else .error .assertion
      else .ok (jumps, g)

/-- `self._literals[j]` used as a constant; a method is not a constant the generator emits. -/
def litVal (lits : List (Lit Meth)) (j : Nat) : Except Err Val :=
  match lits[j]? with
  | some (.val v) => .ok v
  | some (.meth _) => .error .other
  | none => .error .index

/-- `self._literals[j]` used as a symbol. -/
def litSym (lits : List (Lit Meth)) (j : Nat) : Except Err Sel :=
  match lits[j]? with
  | some (.val (.sym s)) => .ok s
  | some _ => .error .attribute
  | none => .error .index

/-- `self._literals[j]` used as a method. -/
def litMeth (lits : List (Lit Meth)) (j : Nat) : Except Err Meth :=
  match lits[j]? with
  | some (.meth m) => .ok m
  | some (.val _) => .error .attribute
  | none => .error .index

def topJumps : List Nat :=
  [Op.jump, Op.jumpOnTrueTopNil, Op.jumpOnFalseTopNil, Op.jumpOnNotNilTopTop, Op.jumpOnNilTopTop, Op.jump2, Op.jump2OnTrueTopNil, Op.jump2OnFalseTopNil,
   Op.jump2OnNotNilTopTop, Op.jump2OnNilTopTop]
def popJumps : List Nat :=
  [Op.jumpOnTruePop, Op.jumpOnFalsePop, Op.jumpOnNotNilPop, Op.jumpOnNilPop, Op.jump2OnTruePop, Op.jump2OnFalsePop, Op.jump2OnNotNilPop, Op.jump2OnNilPop]

/-- The branches that only emit an instruction; `sub` adapts a nested block.  `none` for the jumps. -/
def inlineIns (sub : Meth → Except Err Meth) (lits : List (Lit Meth)) (bytes : List Nat) (locals : List Nat) (op i : Nat) (g : G Meth (List Nat)) :
    Option (Except Err (G Meth (List Nat))) :=
  if op = Op.halt then some (.ok (emit1 g op 0))
  else if op = Op.dup then some (.ok (emit1 g op 1))
  else if op = Op.pushField ∨ op = Op.popField ∨ op = Op.pushArgument ∨ op = Op.popArgument then some do
    let idx ← getByte bytes (i + 1)
    let l ← getByte bytes (i + 2)
    if l > 0 then
      if op = Op.pushField then .ok (emitPushField g idx (l - 1))
      else if op = Op.popField then .ok (emitPopFieldWithIndex g idx (l - 1))
      else .ok (emit3 g op idx (l - 1) 1)
    else .error .assertion
  else if op = Op.incField ∨ op = Op.incFieldPush then some do
    let idx ← getByte bytes (i + 1)
    let l ← getByte bytes (i + 2)
    if l > 0 then .ok (emit3 g op idx (l - 1) 1) else .error .assertion
  else if op = Op.pushLocal ∨ op = Op.popLocal then some do
    let idx ← getByte bytes (i + 1)
    let l ← getByte bytes (i + 2)
    if l = 0 then do
      let v ← getLocal [locals] idx 0
      let idx ← inlinedIdx g.env v
      .ok (emit3 g op idx 0 (if op = Op.pushLocal then 1 else -1))
    else .ok (emit3 g op idx (l - 1) (if op = Op.pushLocal then 1 else -1))
  else if op = Op.pushBlock then some do
    let m ← litMeth lits (← getByte bytes (i + 1))
    .ok (emitPushBlock g (← sub m) true)
  else if op = Op.pushBlockNoCtx then some do
    .ok (emitPushBlock g (← litMeth lits (← getByte bytes (i + 1))) false)
  else if op = Op.pushConstant then some do .ok (emitPushConstant g (← litVal lits (← getByte bytes (i + 1))))
  else if op = Op.pushConstant0 ∨ op = Op.pushConstant1 ∨ op = Op.pushConstant2 then some do
    .ok (emitPushConstant g (← litVal lits (op - Op.pushConstant0)))
  else if op = Op.push0 ∨ op = Op.push1 ∨ op = Op.pushNil then some (.ok (emit1 g op 1))
  else if op = Op.pop then some (.ok (emit1 g op (-1)))
  else if op = Op.inc ∨ op = Op.dec then some (.ok (emit1 g op 0))
  else if op = Op.pushGlobal then some do .ok (emitPushGlobal g (← litSym lits (← getByte bytes (i + 1))))
  else if op = Op.send1 ∨ op = Op.send2 ∨ op = Op.send3 ∨ op = Op.sendN then some do
    .ok (emitSend g (← litSym lits (← getByte bytes (i + 1))))
  else if op = Op.superSend then some do .ok (emitSuperSend g (← litSym lits (← getByte bytes (i + 1))))
  else if op = Op.returnLocal then some (.ok g)
  else if op = Op.returnNonLocal then some do
    let l ← getByte bytes (i + 1)
    if l = 1 then emitReturnLocal g
    else if l = g.lvl + 1 then .ok (emitReturnNonLocal g)
    else .error .assertion
  else if op = Op.returnField0 ∨ op = Op.returnField1 ∨ op = Op.returnField2 then some (.ok (emit1 g op 0))
  else if topJumps.contains op ∨ popJumps.contains op ∨ op = Op.jumpBackward ∨ op = Op.jump2Backward then none
  else some unexpected

/-- One iteration after the jumps to the current address have been dealt with. -/
def inlineOp (sub : Meth → Except Err Meth) (lits : List (Lit Meth)) (bytes : List Nat) (locals : List Nat) (op i : Nat) (s : InlSt) : Except Err InlSt :=
  match inlineIns sub lits bytes locals op i s.g with
  | some r => do .ok { s with g := ← r }
  | none =>
    if op = Op.jumpBackward ∨ op = Op.jump2Backward then
      match HeapQ.heappop s.patch with
      | none => .error .index
      | some (e, patch) => if e.address = i then do .ok { s with g := ← emitBackJump s.g e.payload, patch := patch } else .error .assertion
    else do
      let (at1, g) := emit3Dummy s.g op (if popJumps.contains op then -1 else 0)
      let a ← getByte bytes (i + 1)
      let b ← getByte bytes (i + 2)
      .ok { s with g := g, jumps := HeapQ.heappush s.jumps ⟨i + (a + b <<< 8), at1⟩ }

/-- The loop (297-501); `n` bounds the number of iterations, of which there are at most as many as there are bytes. -/
def inlineLoop (sub : Meth → Except Err Meth) (lits : List (Lit Meth)) (bytes : List Nat) (locals : List Nat) : Nat → Nat → InlSt → Except Err InlSt
  | 0, i, s => if i < bytes.length then .error .other else .ok s
  | n + 1, i, s =>
    if i < bytes.length then do
      let (back, patch) ← prepareBack i s.g.bytes.length s.back.length s.back s.patch
      let (jumps, g) ← patchHere i s.jumps.length s.jumps s.g
      let op ← getByte bytes i
      let len ← lenOf op
      let s ← inlineOp sub lits bytes locals op i ⟨g, jumps, back, patch⟩
      inlineLoop sub lits bytes locals n (i + len) s
    else .ok s

/-- `merge_into_scope` (214-218) and `inline_locals` (84-98).  The assertion is that the qualified name, made of the name and the source position, is not yet
in use; here that the source is not. -/
def mergeLocals (args locals env : List Nat) : Except Err (List Nat) :=
  if args.length ≠ 1 then .error .assertion
  else if locals.any env.contains then .error .assertion
  else .ok (env ++ locals)

/-- `_create_back_jump_heap` (259-264). -/
def backHeap (loops : List (Nat × Nat)) : List HeapQ.Entry := loops.foldl (fun h l => HeapQ.heappush h ⟨l.1, l.2⟩) []

/-- `inline` of a method (`method_bc.py:255-257`) and of trivial methods (`method_trivial.py:80-81, 135-136, 180-181`; `FieldWrite` has none).  `n` bounds the
depth of nesting. -/
def inlineMeth (n : Nat) : Inline Meth (List Nat)
  | .bc _ lits bytes loops args locals _ _, g => do
    let env ← mergeLocals args locals g.env
    let s ← inlineLoop (adapt n 1 [locals] env) lits bytes locals bytes.length 0 ⟨{ g with env := env }, [], backHeap loops, []⟩
    if s.jumps = [] then .ok s.g else .error .assertion
  | .triv _ (.lit (.val v)), g => .ok (emitPushConstant g v)
  | .triv _ (.lit (.meth _)), _ => .error .other
  | .triv _ (.glob n _), g => .ok (emitPushGlobal g n)
  | .triv _ (.fldRead idx ctx), g => if ctx = 0 then .error .other else .ok (emitPushField g idx (ctx - 1))
  | .triv _ (.fldWrite _ _), _ => .error .attribute

end PySOM.BC

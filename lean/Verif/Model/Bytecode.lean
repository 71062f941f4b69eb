import Verif.Model.Base
import Verif.Model.Symbols
/-!
# Model of the bytecode set and of the bytecode interpreter's main loop

`src/som/interpreter/bc/bytecodes.py` (numbers and lengths), `src/som/interpreter/bc/interpreter.py:117-798` (`interpret`).

What an instruction does to the rest of the world (variables of frames and contexts, fields, globals, message sends, block
creation, arithmetic of `inc`/`dec`, non-local return) is an *action*; its outcome is given by an arbitrary relation.  So
the statements about the interpreter hold whatever the called methods do.  The forms of instructions that only appear
while a method runs (`push_frame*`, `push_inner*`, `pop_frame*`, `pop_inner*`, `q_super_send_*`) are the subject of
`Verif/Model/Quick.lean`; here `push_local` and the like access the variable directly.
-/
set_option autoImplicit false
namespace PySOM.BC
open PySOM

/-! ## `class Bytecodes` (`bytecodes.py:8-110`) -/
namespace Op
abbrev halt : Nat := 0
abbrev dup : Nat := 1
abbrev pushFrame : Nat := 2
abbrev pushFrame0 : Nat := 3
abbrev pushFrame1 : Nat := 4
abbrev pushFrame2 : Nat := 5
abbrev pushInner : Nat := 6
abbrev pushInner0 : Nat := 7
abbrev pushInner1 : Nat := 8
abbrev pushInner2 : Nat := 9
abbrev pushField : Nat := 10
abbrev pushField0 : Nat := 11
abbrev pushField1 : Nat := 12
abbrev pushBlock : Nat := 13
abbrev pushBlockNoCtx : Nat := 14
abbrev pushConstant : Nat := 15
abbrev pushConstant0 : Nat := 16
abbrev pushConstant1 : Nat := 17
abbrev pushConstant2 : Nat := 18
abbrev push0 : Nat := 19
abbrev push1 : Nat := 20
abbrev pushNil : Nat := 21
abbrev pushGlobal : Nat := 22
abbrev pop : Nat := 23
abbrev popFrame : Nat := 24
abbrev popFrame0 : Nat := 25
abbrev popFrame1 : Nat := 26
abbrev popFrame2 : Nat := 27
abbrev popInner : Nat := 28
abbrev popInner0 : Nat := 29
abbrev popInner1 : Nat := 30
abbrev popInner2 : Nat := 31
abbrev popField : Nat := 32
abbrev popField0 : Nat := 33
abbrev popField1 : Nat := 34
abbrev send1 : Nat := 35
abbrev send2 : Nat := 36
abbrev send3 : Nat := 37
abbrev sendN : Nat := 38
abbrev superSend : Nat := 39
abbrev returnLocal : Nat := 40
abbrev returnNonLocal : Nat := 41
abbrev returnSelf : Nat := 42
abbrev returnField0 : Nat := 43
abbrev returnField1 : Nat := 44
abbrev returnField2 : Nat := 45
abbrev inc : Nat := 46
abbrev dec : Nat := 47
abbrev incField : Nat := 48
abbrev incFieldPush : Nat := 49
abbrev jump : Nat := 50
abbrev jumpOnTrueTopNil : Nat := 51
abbrev jumpOnFalseTopNil : Nat := 52
abbrev jumpOnTruePop : Nat := 53
abbrev jumpOnFalsePop : Nat := 54
abbrev jumpOnNotNilTopTop : Nat := 55
abbrev jumpOnNilTopTop : Nat := 56
abbrev jumpOnNotNilPop : Nat := 57
abbrev jumpOnNilPop : Nat := 58
abbrev jumpBackward : Nat := 59
abbrev jump2 : Nat := 60
abbrev jump2OnTrueTopNil : Nat := 61
abbrev jump2OnFalseTopNil : Nat := 62
abbrev jump2OnTruePop : Nat := 63
abbrev jump2OnFalsePop : Nat := 64
abbrev jump2OnNotNilTopTop : Nat := 65
abbrev jump2OnNilTopTop : Nat := 66
abbrev jump2OnNotNilPop : Nat := 67
abbrev jump2OnNilPop : Nat := 68
abbrev jump2Backward : Nat := 69
abbrev qSuperSend1 : Nat := 70
abbrev qSuperSend2 : Nat := 71
abbrev qSuperSend3 : Nat := 72
abbrev qSuperSendN : Nat := 73
abbrev pushLocal : Nat := 74
abbrev pushArgument : Nat := 75
abbrev popLocal : Nat := 76
abbrev popArgument : Nat := 77
abbrev invalid : Nat := 78
end Op

/-- `_BYTECODE_LENGTH` (`bytecodes.py:221-301`). -/
def lengths : List Nat :=
  [1, 1, 3, 3, 3, 3, 3, 3, 3, 3, 3, 1, 1, 2, 2, 2, 1, 1, 1, 1, 1, 1, 2, 1, 3, 3, 3, 3, 3, 3, 3, 3, 3, 1, 1, 2, 2, 2, 2,
   2, 1, 2, 1, 1, 1, 1, 1, 1, 3, 3, 3, 3, 3, 3, 3, 3, 3, 3, 3, 3, 3, 3, 3, 3, 3, 3, 3, 3, 3, 3, 2, 2, 2, 2, 3, 3, 3, 3]

/-- `bytecode_length` (`bytecodes.py:304-307`): an assertion and a list access; `none` is the failed assertion. -/
def bytecodeLength (op : Nat) : Option Nat := lengths[op]?

/-- `POP_X_BYTECODES` (121-127). -/
def popXBytecodes : List Nat := [Op.popLocal, Op.popArgument, Op.popField, Op.popField0, Op.popField1]
/-- `PUSH_BLOCK_BYTECODES` (129). -/
def pushBlockBytecodes : List Nat := [Op.pushBlock, Op.pushBlockNoCtx]
/-- `PUSH_CONST_BYTECODES` (131-139). -/
def pushConstBytecodes : List Nat :=
  [Op.pushConstant, Op.pushConstant0, Op.pushConstant1, Op.pushConstant2, Op.push0, Op.push1, Op.pushNil]
/-- `PUSH_FIELD_BYTECODES` (141-145). -/
def pushFieldBytecodes : List Nat := [Op.pushField, Op.pushField0, Op.pushField1]
/-- `POP_FIELD_BYTECODES` (147-151). -/
def popFieldBytecodes : List Nat := [Op.popField, Op.popField0, Op.popField1]
/-- `RETURN_FIELD_BYTECODES` (153-157). -/
def returnFieldBytecodes : List Nat := [Op.returnField0, Op.returnField1, Op.returnField2]
/-- `JUMP_BYTECODES` (159-180). -/
def jumpBytecodes : List Nat :=
  [Op.jump, Op.jumpOnTrueTopNil, Op.jumpOnTruePop, Op.jumpOnFalsePop, Op.jumpOnFalseTopNil, Op.jumpOnNotNilTopTop,
   Op.jumpOnNilTopTop, Op.jumpOnNotNilPop, Op.jumpOnNilPop, Op.jumpBackward, Op.jump2, Op.jump2OnTrueTopNil,
   Op.jump2OnTruePop, Op.jump2OnFalsePop, Op.jump2OnFalseTopNil, Op.jump2OnNotNilTopTop, Op.jump2OnNilTopTop,
   Op.jump2OnNotNilPop, Op.jump2OnNilPop, Op.jump2Backward]
/-- `FIRST_DOUBLE_BYTE_JUMP_BYTECODE` and `NUM_SINGLE_BYTE_JUMP_BYTECODES` (182-183). -/
def firstDoubleByteJump : Nat := Op.jump2
def numSingleByteJumps : Nat := jumpBytecodes.length / 2

/-! ## Values, literals, actions -/

/-- Selectors and names of globals. -/
abbrev Sel := Sym.Str

/-- Objects, as far as the bytecode interpreter looks at them.  Everything that is neither a constant the compiler treats
specially nor a symbol is an object identity. -/
inductive Val where
  | nil
  | tru
  | fls
  | int (i : Int)
  | sym (s : Sel)
  | obj (n : Nat)
  deriving DecidableEq, Repr

/-- Entries of a method's literal list: constants (also selectors and names) and the methods of nested blocks. -/
inductive Lit (M : Type) where
  | val (v : Val)
  | meth (m : M)
  deriving DecidableEq, Repr

/-- What instructions ask of the rest of the system.  Variables are given as in the instruction: argument or local, index,
and context level. -/
inductive Act (M : Type) where
  | rdVar (isArg : Bool) (idx lvl : Nat)
  | wrVar (isArg : Bool) (idx lvl : Nat) (v : Val)
  | rdFld (idx lvl : Nat)
  | wrFld (idx lvl : Nat) (v : Val)
  | incFld (idx lvl : Nat)
  | glob (g : Sel)
  | mkBlock (ctx : Bool) (m : M)
  | send (sel : Sel) (args : List Val)
  | superSend (sel : Sel) (args : List Val)
  | inc (v : Val)
  | dec (v : Val)
  | self
  | nlr (lvl : Nat) (v : Val)
  deriving DecidableEq, Repr

/-- The outcome of an action: a value or an exception (an error, or a `ReturnException` unwinding the stack). -/
inductive Res (E : Type) where
  | val (v : Val)
  | exc (e : E)
  deriving DecidableEq, Repr

/-- The behaviour of the rest of the system: any relation between action, state before, outcome and state after. -/
abbrev World (M W E : Type) := Act M → W → Res E → W → Prop

/-! ## Instructions -/

/-- An instruction other than a jump, independent of its encoding. -/
inductive Ins (M : Type) where
  | dup
  | pop
  | pushVar (isArg : Bool) (idx lvl : Nat)
  | popVar (isArg : Bool) (idx lvl : Nat)
  | pushFld (idx lvl : Nat)
  | popFld (idx lvl : Nat)
  | incFld (idx lvl : Nat)
  | incFldPush (idx lvl : Nat)
  | pushBlock (ctx : Bool) (m : M)
  | pushConst (v : Val)
  | pushGlobal (g : Sel)
  | send (sel : Sel) (n : Nat)
  | superSend (sel : Sel) (n : Nat)
  | retLocal
  | retNonLocal (lvl : Nat)
  | retSelf
  | retFld (idx : Nat)
  | inc
  | dec
  deriving DecidableEq, Repr

/-- `JumpCondition` (`bytecode_generator.py:6-10`). -/
inductive JCond where
  | onNil
  | onNotNil
  | onTrue
  | onFalse
  deriving DecidableEq, Repr

/-- Does the conditional jump jump for this value? -/
def JCond.holds : JCond → Val → Bool
  | .onNil, v => decide (v = .nil)
  | .onNotNil, v => decide (v ≠ .nil)
  | .onTrue, v => decide (v = .tru)
  | .onFalse, v => decide (v = .fls)

/-- What `jump_on_*_top_nil` and `jump_on_*_top_top` leave on the stack when they jump. -/
def JCond.top : JCond → Val → Val
  | .onNil, v => v
  | .onNotNil, v => v
  | .onTrue, _ => .nil
  | .onFalse, _ => .nil

/-- A decoded instruction. -/
inductive Dec (M : Type) where
  | ins (i : Ins M) (len : Nat)
  | jump (off : Nat)
  | jumpTop (c : JCond) (off : Nat)
  | jumpPop (c : JCond) (off : Nat)
  | jumpBack (off : Nat)
  deriving DecidableEq, Repr

section Decode
variable {M : Type}

/-- `method.get_constant` used as a value. -/
def constVal (lits : List (Lit M)) (i : Nat) : Option Val :=
  match lits[i]? with
  | some (.val v) => some v
  | _ => none

/-- `method.get_constant` used as a selector or name. -/
def constSym (lits : List (Lit M)) (i : Nat) : Option Sel :=
  match lits[i]? with
  | some (.val (.sym s)) => some s
  | _ => none

/-- `method.get_constant` used as a block's method. -/
def constMeth (lits : List (Lit M)) (i : Nat) : Option M :=
  match lits[i]? with
  | some (.meth m) => some m
  | _ => none

/-- The branches of `interpret` (`interpreter.py:138-797`), without the run-time-only forms and without `halt` (0), which
no method contains.  `a` and `b` are the two following bytes, where they exist: reading a byte beyond the end of the code
fails an assertion (`method_bc.py:132-135`), here `none`. -/
def decodeOp (lits : List (Lit M)) (op : Nat) (a b : Option Nat) : Option (Dec M) :=
  if op = Op.dup then some (.ins .dup 1)
  else if op = Op.pushField then do some (.ins (.pushFld (← a) (← b)) 3)
  else if op = Op.pushField0 then some (.ins (.pushFld 0 0) 1)
  else if op = Op.pushField1 then some (.ins (.pushFld 1 0) 1)
  else if op = Op.pushBlock then do some (.ins (.pushBlock true (← constMeth lits (← a))) 2)
  else if op = Op.pushBlockNoCtx then do some (.ins (.pushBlock false (← constMeth lits (← a))) 2)
  else if op = Op.pushConstant then do some (.ins (.pushConst (← constVal lits (← a))) 2)
  else if op = Op.pushConstant0 then do some (.ins (.pushConst (← constVal lits 0)) 1)
  else if op = Op.pushConstant1 then do some (.ins (.pushConst (← constVal lits 1)) 1)
  else if op = Op.pushConstant2 then do some (.ins (.pushConst (← constVal lits 2)) 1)
  else if op = Op.push0 then some (.ins (.pushConst (.int 0)) 1)
  else if op = Op.push1 then some (.ins (.pushConst (.int 1)) 1)
  else if op = Op.pushNil then some (.ins (.pushConst .nil) 1)
  else if op = Op.pushGlobal then do some (.ins (.pushGlobal (← constSym lits (← a))) 2)
  else if op = Op.pop then some (.ins .pop 1)
  else if op = Op.popField then do some (.ins (.popFld (← a) (← b)) 3)
  else if op = Op.popField0 then some (.ins (.popFld 0 0) 1)
  else if op = Op.popField1 then some (.ins (.popFld 1 0) 1)
  else if op = Op.send1 then do some (.ins (.send (← constSym lits (← a)) 1) 2)
  else if op = Op.send2 then do some (.ins (.send (← constSym lits (← a)) 2) 2)
  else if op = Op.send3 then do some (.ins (.send (← constSym lits (← a)) 3) 2)
  else if op = Op.sendN then do
    let s ← constSym lits (← a)
    some (.ins (.send s (Sym.numberOfSignatureArguments s)) 2)
  else if op = Op.superSend then do
    let s ← constSym lits (← a)
    some (.ins (.superSend s (Sym.numberOfSignatureArguments s)) 2)
  else if op = Op.returnLocal then some (.ins .retLocal 1)
  else if op = Op.returnNonLocal then do some (.ins (.retNonLocal (← a)) 2)
  else if op = Op.returnSelf then some (.ins .retSelf 1)
  else if op = Op.returnField0 then some (.ins (.retFld 0) 1)
  else if op = Op.returnField1 then some (.ins (.retFld 1) 1)
  else if op = Op.returnField2 then some (.ins (.retFld 2) 1)
  else if op = Op.inc then some (.ins .inc 1)
  else if op = Op.dec then some (.ins .dec 1)
  else if op = Op.incField then do some (.ins (.incFld (← a) (← b)) 3)
  else if op = Op.incFieldPush then do some (.ins (.incFldPush (← a) (← b)) 3)
  else if op = Op.jump then do some (.jump (← a))
  else if op = Op.jumpOnTrueTopNil then do some (.jumpTop .onTrue (← a))
  else if op = Op.jumpOnFalseTopNil then do some (.jumpTop .onFalse (← a))
  else if op = Op.jumpOnTruePop then do some (.jumpPop .onTrue (← a))
  else if op = Op.jumpOnFalsePop then do some (.jumpPop .onFalse (← a))
  else if op = Op.jumpOnNotNilTopTop then do some (.jumpTop .onNotNil (← a))
  else if op = Op.jumpOnNilTopTop then do some (.jumpTop .onNil (← a))
  else if op = Op.jumpOnNotNilPop then do some (.jumpPop .onNotNil (← a))
  else if op = Op.jumpOnNilPop then do some (.jumpPop .onNil (← a))
  else if op = Op.jumpBackward then do some (.jumpBack (← a))
  else if op = Op.jump2 then do some (.jump ((← a) + (← b) <<< 8))
  else if op = Op.jump2OnTrueTopNil then do some (.jumpTop .onTrue ((← a) + (← b) <<< 8))
  else if op = Op.jump2OnFalseTopNil then do some (.jumpTop .onFalse ((← a) + (← b) <<< 8))
  else if op = Op.jump2OnTruePop then do some (.jumpPop .onTrue ((← a) + (← b) <<< 8))
  else if op = Op.jump2OnFalsePop then do some (.jumpPop .onFalse ((← a) + (← b) <<< 8))
  else if op = Op.jump2OnNotNilTopTop then do some (.jumpTop .onNotNil ((← a) + (← b) <<< 8))
  else if op = Op.jump2OnNilTopTop then do some (.jumpTop .onNil ((← a) + (← b) <<< 8))
  else if op = Op.jump2OnNotNilPop then do some (.jumpPop .onNotNil ((← a) + (← b) <<< 8))
  else if op = Op.jump2OnNilPop then do some (.jumpPop .onNil ((← a) + (← b) <<< 8))
  else if op = Op.jump2Backward then do some (.jumpBack ((← a) + (← b) <<< 8))
  else if op = Op.pushLocal then do some (.ins (.pushVar false (← a) (← b)) 3)
  else if op = Op.pushArgument then do some (.ins (.pushVar true (← a) (← b)) 3)
  else if op = Op.popLocal then do some (.ins (.popVar false (← a) (← b)) 3)
  else if op = Op.popArgument then do some (.ins (.popVar true (← a) (← b)) 3)
  else none

/-- The instruction at the start of a byte sequence. -/
def decode (lits : List (Lit M)) : List Nat → Option (Dec M)
  | [] => none
  | op :: rest => decodeOp lits op rest[0]? rest[1]?

/-! ## What an instruction does -/

/-- What happens with the value of an action: pushed, dropped, or answered by the method. -/
inductive Next where
  | push (s : List Val)
  | drop (s : List Val)
  | ret
  deriving DecidableEq, Repr

/-- The effect of an instruction on a stack (top first). -/
inductive Eff (M : Type) where
  | pure (s : List Val)
  | act (a : Act M) (n : Next)
  | ret (v : Val)
  | underflow
  deriving DecidableEq, Repr

/-- The bodies of the branches of `interpret`, instruction by instruction.  Reading below the bottom of the stack would
read `stack[-1]` in Python; it is `underflow` here. -/
def Ins.eff (i : Ins M) (s : List Val) : Eff M :=
  match i with
  | .dup => match s with | v :: s => .pure (v :: v :: s) | [] => .underflow
  | .pop => match s with | _ :: s => .pure s | [] => .underflow
  | .pushVar a i l => .act (.rdVar a i l) (.push s)
  | .popVar a i l => match s with | v :: s => .act (.wrVar a i l v) (.drop s) | [] => .underflow
  | .pushFld i l => .act (.rdFld i l) (.push s)
  | .popFld i l => match s with | v :: s => .act (.wrFld i l v) (.drop s) | [] => .underflow
  | .incFld i l => .act (.incFld i l) (.drop s)
  | .incFldPush i l => .act (.incFld i l) (.push s)
  | .pushBlock c m => .act (.mkBlock c m) (.push s)
  | .pushConst v => .pure (v :: s)
  | .pushGlobal g => .act (.glob g) (.push s)
  | .send sel n => if n ≤ s.length then .act (.send sel (s.take n).reverse) (.push (s.drop n)) else .underflow
  | .superSend sel n => if n ≤ s.length then .act (.superSend sel (s.take n).reverse) (.push (s.drop n)) else .underflow
  | .retLocal => match s with | v :: _ => .ret v | [] => .underflow
  | .retNonLocal l => match s with | v :: _ => .act (.nlr l v) .ret | [] => .underflow
  | .retSelf => .act .self .ret
  | .retFld i => .act (.rdFld i 0) .ret
  | .inc => match s with | v :: s => .act (.inc v) (.push s) | [] => .underflow
  | .dec => match s with | v :: s => .act (.dec v) (.push s) | [] => .underflow
end Decode

/-! ## The interpreter loop -/

/-- How an execution can go wrong inside the interpreter itself. -/
inductive Crash where
  /-- a write above the end of `stack` (`IndexError`) -/
  | overflow
  /-- a read below the bottom of `stack` -/
  | underflow
  /-- no instruction at the current index, or an invalid one -/
  | badCode
  deriving DecidableEq, Repr

/-- State of an activation. -/
inductive Cfg (W E : Type) where
  | run (pc : Nat) (s : List Val) (w : W)
  | done (v : Val) (w : W)
  | raised (e : E) (w : W)
  | crash (c : Crash) (w : W)

/-- A method as the interpreter sees it: literals, bytes, and the size of the stack it allocates. -/
structure Code (M : Type) where
  lits : List (Lit M)
  bytes : List Nat
  max : Nat

section Run
variable {M W E : Type}

/-- Continue at `pc` with stack `s`, unless the stack array is too small for it. -/
def enter (max : Nat) (pc : Nat) (s : List Val) (w : W) : Cfg W E :=
  if s.length ≤ max then .run pc s w else .crash .overflow w

/-- What is done with the value of an action. -/
def Next.apply (max : Nat) (pc : Nat) (n : Next) (v : Val) (w : W) : Cfg W E :=
  match n with
  | .push s => enter max pc (v :: s) w
  | .drop s => enter max pc s w
  | .ret => .done v w

/-- The jump instructions (`interpreter.py:556-760`). -/
def jumpTo (max : Nat) (pc : Nat) (s : List Val) (w : W) : Dec M → Cfg W E
  | .ins _ _ => .crash .badCode w
  | .jump off => enter max (pc + off) s w
  | .jumpTop c off =>
    match s with
    | [] => .crash .underflow w
    | v :: s => if c.holds v then enter max (pc + off) (c.top v :: s) w else enter max (pc + 3) s w
  | .jumpPop c off =>
    match s with
    | [] => .crash .underflow w
    | v :: s => if c.holds v then enter max (pc + off) s w else enter max (pc + 3) s w
  | .jumpBack off => if off ≤ pc then enter max (pc - off) s w else .crash .badCode w

/-- One iteration of the `while True` loop of `interpret` (132-797). -/
inductive Step (A : World M W E) (C : Code M) : Cfg W E → Cfg W E → Prop where
  | bad (pc : Nat) (s : List Val) (w : W) (h : decode C.lits (C.bytes.drop pc) = none) :
      Step A C (.run pc s w) (.crash .badCode w)
  | underflow (pc : Nat) (s : List Val) (w : W) (i : Ins M) (len : Nat)
      (h : decode C.lits (C.bytes.drop pc) = some (.ins i len)) (he : i.eff s = .underflow) :
      Step A C (.run pc s w) (.crash .underflow w)
  | pure (pc : Nat) (s s' : List Val) (w : W) (i : Ins M) (len : Nat)
      (h : decode C.lits (C.bytes.drop pc) = some (.ins i len)) (he : i.eff s = .pure s') :
      Step A C (.run pc s w) (enter C.max (pc + len) s' w)
  | ret (pc : Nat) (s : List Val) (w : W) (i : Ins M) (len : Nat) (v : Val)
      (h : decode C.lits (C.bytes.drop pc) = some (.ins i len)) (he : i.eff s = .ret v) :
      Step A C (.run pc s w) (.done v w)
  | act (pc : Nat) (s : List Val) (w w' : W) (i : Ins M) (len : Nat) (a : Act M) (n : Next) (v : Val)
      (h : decode C.lits (C.bytes.drop pc) = some (.ins i len)) (he : i.eff s = .act a n) (ha : A a w (.val v) w') :
      Step A C (.run pc s w) (n.apply C.max (pc + len) v w')
  | raise (pc : Nat) (s : List Val) (w w' : W) (i : Ins M) (len : Nat) (a : Act M) (n : Next) (e : E)
      (h : decode C.lits (C.bytes.drop pc) = some (.ins i len)) (he : i.eff s = .act a n) (ha : A a w (.exc e) w') :
      Step A C (.run pc s w) (.raised e w')
  | jump (pc : Nat) (s : List Val) (w : W) (d : Dec M)
      (h : decode C.lits (C.bytes.drop pc) = some d) (hd : ∀ i len, d ≠ .ins i len) :
      Step A C (.run pc s w) (jumpTo C.max pc s w d)

/-- `n` iterations. -/
inductive Steps (A : World M W E) (C : Code M) : Nat → Cfg W E → Cfg W E → Prop where
  | refl (c : Cfg W E) : Steps A C 0 c c
  | step (n : Nat) (c d e : Cfg W E) (h : Step A C c d) (hs : Steps A C n d e) : Steps A C (n + 1) c e

/-- The configuration in which `interpret` begins: `current_bc_idx = 0`, an empty stack. -/
def Code.start (w : W) : Cfg W E := .run 0 [] w
end Run

end PySOM.BC

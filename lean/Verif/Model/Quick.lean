import Verif.Model.Bytecode
/-!
# Model of bytecodes that rewrite themselves

While a method runs, the interpreter replaces `push_local`, `push_argument`, `pop_local`, `pop_argument` by forms with the slot
of the variable (`src/som/vmobjects/method_bc.py:173-197`, `src/som/compiler/ast/variable.py:67-106`), and `super_send` by forms that
take the method from the inline cache (`src/som/interpreter/bc/interpreter.py:39-69, 755-783`).  The bytes belong to the method, so all
activations of the method, running and future ones, see the change.

The machine below runs a whole program: any number of methods, each with its own bytes and inline caches, and a stack of
activations.  What an instruction does outside of the interpreter loop is given by *scripts*: a script ends with an outcome or
runs a method and continues depending on what it answers.  Which scripts there are for an action in a state is an arbitrary
relation.
-/
set_option autoImplicit false
namespace PySOM.Quick
open PySOM PySOM.BC

/-! ## Actions, scripts -/

/-- What instructions ask of the rest of the system.  Slots are those of the frame or of the context (`inner`) of the current
activation, or, for a level above 0, of the context of an enclosing activation (`interpreter.py:150-196, 283-345`). -/
inductive QAct (M I : Type) where
  | rdFrame (i : Nat)
  | wrFrame (i : Nat) (v : Val)
  | rdInner (i lvl : Nat)
  | wrInner (i lvl : Nat) (v : Val)
  | invoke (inv : I) (args : List Val)
  | other (a : Act M)
  deriving DecidableEq, Repr

/-- What an action does: it ends with an outcome and a state, or activates method `m` in state `w` and goes on with its result. -/
inductive Script (W E : Type) where
  | fin (r : Res E) (w : W)
  | call (m : Nat) (w : W) (k : Res E → W → Script W E)

/-- The possible scripts of an action in a state. -/
abbrev Behaviour (M I W E : Type) := QAct M I → W → Script W E → Prop

/-- What one iteration of the interpreter loop leads to: another place in the code, the answer of the method, an action (what
is done with its value, and where to continue), a Python exception, or a crash of the loop. -/
inductive LOut (M I : Type) where
  | goto (pc : Nat) (s : List Val)
  | ret (v : Val)
  | act (a : QAct M I) (n : Next) (pc : Nat)
  | fail (e : Err)
  | crash (c : Crash)
  deriving DecidableEq, Repr

/-! ## Methods -/

/-- A variable at run time: `is_accessed_out_of_context()` and `access_idx` (`variable.py:15-50`). -/
structure Var where
  captured : Bool
  idx : Nat
  deriving DecidableEq, Repr

/-- `LexicalScope` (`lexical_scope.py:4-13`): arguments and locals. -/
structure LScope where
  args : List Var
  locals : List Var
  deriving DecidableEq, Repr

/-- `get_argument`, `get_local` (`lexical_scope.py:15-25`) on the chain of a scope and those around it.  `None.get_local` is an
`AttributeError`, an index beyond the list an `IndexError`. -/
def getVar : List LScope → Bool → Nat → Nat → Except Err Var
  | [], _, _, _ => .error .attribute
  | _ :: rest, isArg, idx, lvl + 1 => getVar rest isArg idx lvl
  | sc :: _, isArg, idx, 0 =>
    match (if isArg then sc.args else sc.locals)[idx]? with
    | some v => .ok v
    | none => .error .index

/-- The fixed part of a method: its code as compiled, the lexical scopes, and `get_holder().get_super_class().lookup_invokable`
(`interpreter.py:42-43`; a class never changes its superclass, and methods are only added before it is used). -/
structure Meth (M I : Type) where
  code : Code M
  scopes : List LScope
  look : Sel → Option I

/-- The part of a method that changes: `_bytecodes`, and `_inline_cache` as far as super sends use it. -/
structure Dyn (I : Type) where
  bytes : List Nat
  cache : Nat → Option I

section
variable {M I : Type}

/-- A method as it comes from the compiler. -/
def Meth.fresh (me : Meth M I) : Dyn I := ⟨me.code.bytes, fun _ => none⟩

/-! ## Quick forms -/

/-- `get_push_bytecode` (`variable.py:70-88`). -/
def pushOp (v : Var) (lvl : Nat) : Nat :=
  if v.captured then
    if lvl = 0 ∧ v.idx = 1 then Op.pushInner0
    else if lvl = 0 ∧ v.idx = 2 then Op.pushInner1
    else if lvl = 0 ∧ v.idx = 3 then Op.pushInner2
    else Op.pushInner
  else
    if lvl = 0 ∧ v.idx = 1 then Op.pushFrame0
    else if lvl = 0 ∧ v.idx = 2 then Op.pushFrame1
    else if lvl = 0 ∧ v.idx = 3 then Op.pushFrame2
    else Op.pushFrame

/-- `get_pop_bytecode` (`variable.py:90-108`). -/
def popOp (v : Var) (lvl : Nat) : Nat :=
  if v.captured then
    if lvl = 0 ∧ v.idx = 1 then Op.popInner0
    else if lvl = 0 ∧ v.idx = 2 then Op.popInner1
    else if lvl = 0 ∧ v.idx = 3 then Op.popInner2
    else Op.popInner
  else
    if lvl = 0 ∧ v.idx = 1 then Op.popFrame0
    else if lvl = 0 ∧ v.idx = 2 then Op.popFrame1
    else if lvl = 0 ∧ v.idx = 3 then Op.popFrame2
    else Op.popFrame

/-- The opcode `_do_super_send` installs (`interpreter.py:53-60`). -/
def superOp (numArgs : Nat) : Nat :=
  if numArgs = 1 then Op.qSuperSend1
  else if numArgs = 2 then Op.qSuperSend2
  else if numArgs = 3 then Op.qSuperSend3
  else Op.qSuperSendN

/-- An outcome of the jump instructions of `Verif/Model/Bytecode.lean`. -/
def ofCfg : Cfg Unit Unit → LOut M I
  | .run pc s _ => .goto pc s
  | .crash c _ => .crash c
  | .done _ _ => .crash .badCode
  | .raised _ _ => .crash .badCode

/-- Continue at `pc` with stack `s`, unless the stack array is too small for it. -/
def move (max pc : Nat) (s : List Val) : LOut M I := if s.length ≤ max then .goto pc s else .crash .overflow

/-- The branches of `interpret` (138-797); `res` says what its actions are. -/
def outOf (res : Act M → Except Err (QAct M I)) (max pc : Nat) (s : List Val) : Dec M → LOut M I
  | .ins i len =>
    match i.eff s with
    | .underflow => .crash .underflow
    | .pure s' => move max (pc + len) s'
    | .ret v => .ret v
    | .act a n => match res a with
      | .ok q => .act q n (pc + len)
      | .error e => .fail e
  | d => ofCfg (jumpTo max pc s () d)

/-- `push_frame*`, `push_inner*` (`interpreter.py:148-196`): 3 bytes. -/
def readOut (pc : Nat) (s : List Val) (a : QAct M I) : LOut M I := .act a (.push s) (pc + 3)

/-- `pop_frame*`, `pop_inner*` (`interpreter.py:283-345`): 3 bytes. -/
def writeOut (pc : Nat) (s : List Val) (a : Val → QAct M I) : LOut M I :=
  match s with
  | [] => .crash .underflow
  | v :: s => .act (a v) (.drop s) (pc + 3)

/-- Invoke a method with the `n` values on top of the stack. -/
def invokeOut (pc : Nat) (s : List Val) (inv : I) (n : Nat) : LOut M I :=
  if n ≤ s.length then .act (.invoke inv (s.take n).reverse) (.push (s.drop n)) (pc + 2) else .crash .underflow

/-- A reading or writing instruction with its operand bytes, which must exist. -/
def with1 (a : Option Nat) (f : Nat → LOut M I) : LOut M I :=
  match a with
  | some i => f i
  | none => .crash .badCode

/-- `q_super_send_1`, `_2`, `_3` (`interpreter.py:755-777`): through the inline cache (`dispatch_1` etc. of
`CachedDispatchNode`); an empty cache would be an `AttributeError`. -/
def superQuick (c : Option I) (pc : Nat) (s : List Val) (n : I → Nat) : LOut M I :=
  match c with
  | some inv => invokeOut pc s inv (n inv)
  | none => .fail .attribute

/-- `patch_variable_access` (`method_bc.py:173-197`): first the opcode is replaced, then the slot is checked, then written into
the second byte.  After it the same instruction is fetched again (`interpreter.py:785-796`). -/
def patchVar (me : Meth M I) (d : Dyn I) (pc : Nat) (s : List Val) (isArg isPush : Bool) : Dyn I × LOut M I :=
  match d.bytes[pc + 1]?, d.bytes[pc + 2]? with
  | some idx, some lvl =>
    match getVar me.scopes isArg idx lvl with
    | .error e => (d, .fail e)
    | .ok v =>
      let d1 := { d with bytes := d.bytes.set pc (if isPush then pushOp v lvl else popOp v lvl) }
      if 1 ≤ v.idx ∧ v.idx ≤ 255 then ({ d1 with bytes := d1.bytes.set (pc + 1) v.idx }, .goto pc s)
      else (d1, .fail .assertion)
  | _, _ => (d, .crash .badCode)

/-- `_do_super_send` (`interpreter.py:39-69`): look the method up in the superclass of the holder; `None` has no
`get_number_of_signature_arguments`, so a failed lookup is an `AttributeError`; otherwise fill the cache, replace the opcode, and
invoke. -/
def superSlow (nargs : I → Nat) (me : Meth M I) (d : Dyn I) (pc : Nat) (s : List Val) : Dyn I × LOut M I :=
  match d.bytes[pc + 1]?.bind (constSym me.code.lits) with
  | none => (d, .crash .badCode)
  | some sel =>
    match me.look sel with
    | none => (d, .fail .attribute)
    | some inv =>
      ({ bytes := d.bytes.set pc (superOp (nargs inv)), cache := fun p => if p = pc then some inv else d.cache p },
        invokeOut pc s inv (nargs inv))

/-- One iteration of the loop of `interpret` (132-797), with all instructions: the state of the method afterwards and what happens. -/
def qlocal (nargs : I → Nat) (me : Meth M I) (d : Dyn I) (pc : Nat) (s : List Val) : Dyn I × LOut M I :=
  match d.bytes[pc]? with
  | none => (d, .crash .badCode)
  | some op =>
    let a := d.bytes[pc + 1]?
    let b := d.bytes[pc + 2]?
    if op = Op.pushFrame then (d, with1 a fun i => readOut pc s (.rdFrame i))
    else if op = Op.pushFrame0 then (d, readOut pc s (.rdFrame (1 + 0)))
    else if op = Op.pushFrame1 then (d, readOut pc s (.rdFrame (1 + 1)))
    else if op = Op.pushFrame2 then (d, readOut pc s (.rdFrame (1 + 2)))
    else if op = Op.pushInner then (d, with1 a fun i => with1 b fun l => readOut pc s (.rdInner i l))
    else if op = Op.pushInner0 then (d, readOut pc s (.rdInner (1 + 0) 0))
    else if op = Op.pushInner1 then (d, readOut pc s (.rdInner (1 + 1) 0))
    else if op = Op.pushInner2 then (d, readOut pc s (.rdInner (1 + 2) 0))
    else if op = Op.popFrame then (d, with1 a fun i => writeOut pc s (.wrFrame i))
    else if op = Op.popFrame0 then (d, writeOut pc s (.wrFrame (1 + 0)))
    else if op = Op.popFrame1 then (d, writeOut pc s (.wrFrame (1 + 1)))
    else if op = Op.popFrame2 then (d, writeOut pc s (.wrFrame (1 + 2)))
    else if op = Op.popInner then (d, with1 a fun i => with1 b fun l => writeOut pc s (.wrInner i l))
    else if op = Op.popInner0 then (d, writeOut pc s (.wrInner (1 + 0) 0))
    else if op = Op.popInner1 then (d, writeOut pc s (.wrInner (1 + 1) 0))
    else if op = Op.popInner2 then (d, writeOut pc s (.wrInner (1 + 2) 0))
    else if op = Op.qSuperSend1 then (d, superQuick (d.cache pc) pc s fun _ => 1)
    else if op = Op.qSuperSend2 then (d, superQuick (d.cache pc) pc s fun _ => 2)
    else if op = Op.qSuperSend3 then (d, superQuick (d.cache pc) pc s fun _ => 3)
    else if op = Op.qSuperSendN then (d, superQuick (d.cache pc) pc s nargs)
    else if op = Op.superSend then superSlow nargs me d pc s
    else if op = Op.pushLocal then patchVar me d pc s false true
    else if op = Op.pushArgument then patchVar me d pc s true true
    else if op = Op.popLocal then patchVar me d pc s false false
    else if op = Op.popArgument then patchVar me d pc s true false
    else match decodeOp me.code.lits op a b with
      | none => (d, .crash .badCode)
      | some i => (d, outOf (fun a => .ok (.other a)) me.code.max pc s i)
end

/-! ## The machine -/
section Machine
variable {M I W E T : Type}

/-- An activation waiting for the result of a method it called within an action: where it continues, what it does with the value of
the action, and the rest of the action. -/
structure Kont (W E : Type) where
  m : Nat
  pc : Nat
  n : Next
  k : Res E → W → Script W E

/-- What happens at present: an activation runs, an action is performed for an activation, an activation has ended, or the
interpreter crashed. -/
inductive Ctl (W E : Type) where
  | run (m pc : Nat) (s : List Val) (w : W)
  | act (t : Script W E) (m pc : Nat) (n : Next)
  | out (r : Res E) (w : W)
  | crash (c : Crash) (w : W)

/-- The activation at work and those waiting below it. -/
structure St (W E : Type) where
  ctl : Ctl W E
  stack : List (Kont W E)

/-- What the loop does with the value of an action. -/
def resume (max : Nat) (m pc : Nat) (n : Next) (v : Val) (w : W) : Ctl W E :=
  match n with
  | .push s => if (v :: s).length ≤ max then .run m pc (v :: s) w else .crash .overflow w
  | .drop s => if s.length ≤ max then .run m pc s w else .crash .overflow w
  | .ret => .out (.val v) w

/-- Steps of the machine.  `L` is the interpreter loop: from the state of the code, the method, the instruction index and the
operand stack to the new state of the code and an outcome.  `max` are the stack sizes, `py` embeds Python's exceptions. -/
inductive Step (L : T → Nat → Nat → List Val → T × LOut M I) (B : Behaviour M I W E) (max : Nat → Nat) (py : Err → E) :
    T × St W E → T × St W E → Prop where
  | goto (S S' : T) (m pc : Nat) (s : List Val) (w : W) (st : List (Kont W E)) (pc' : Nat) (s' : List Val)
      (h : L S m pc s = (S', .goto pc' s')) : Step L B max py (S, ⟨.run m pc s w, st⟩) (S', ⟨.run m pc' s' w, st⟩)
  | ret (S S' : T) (m pc : Nat) (s : List Val) (w : W) (st : List (Kont W E)) (v : Val)
      (h : L S m pc s = (S', .ret v)) : Step L B max py (S, ⟨.run m pc s w, st⟩) (S', ⟨.out (.val v) w, st⟩)
  | fail (S S' : T) (m pc : Nat) (s : List Val) (w : W) (st : List (Kont W E)) (e : Err)
      (h : L S m pc s = (S', .fail e)) : Step L B max py (S, ⟨.run m pc s w, st⟩) (S', ⟨.out (.exc (py e)) w, st⟩)
  | crash (S S' : T) (m pc : Nat) (s : List Val) (w : W) (st : List (Kont W E)) (c : Crash)
      (h : L S m pc s = (S', .crash c)) : Step L B max py (S, ⟨.run m pc s w, st⟩) (S', ⟨.crash c w, st⟩)
  | act (S S' : T) (m pc : Nat) (s : List Val) (w : W) (st : List (Kont W E)) (a : QAct M I) (n : Next) (pc' : Nat) (t : Script W E)
      (h : L S m pc s = (S', .act a n pc')) (hb : B a w t) : Step L B max py (S, ⟨.run m pc s w, st⟩) (S', ⟨.act t m pc' n, st⟩)
  | fin (S : T) (m pc : Nat) (n : Next) (v : Val) (w : W) (st : List (Kont W E)) :
      Step L B max py (S, ⟨.act (.fin (.val v) w) m pc n, st⟩) (S, ⟨resume (max m) m pc n v w, st⟩)
  | raise (S : T) (m pc : Nat) (n : Next) (e : E) (w : W) (st : List (Kont W E)) :
      Step L B max py (S, ⟨.act (.fin (.exc e) w) m pc n, st⟩) (S, ⟨.out (.exc e) w, st⟩)
  | call (S : T) (m pc : Nat) (n : Next) (m' : Nat) (w : W) (k : Res E → W → Script W E) (st : List (Kont W E)) :
      Step L B max py (S, ⟨.act (.call m' w k) m pc n, st⟩) (S, ⟨.run m' 0 [] w, ⟨m, pc, n, k⟩ :: st⟩)
  | back (S : T) (m pc : Nat) (n : Next) (r : Res E) (w : W) (k : Res E → W → Script W E) (st : List (Kont W E)) :
      Step L B max py (S, ⟨.out r w, ⟨m, pc, n, k⟩ :: st⟩) (S, ⟨.act (k r w) m pc n, st⟩)

/-- Any number of steps. -/
inductive Steps (L : T → Nat → Nat → List Val → T × LOut M I) (B : Behaviour M I W E) (max : Nat → Nat) (py : Err → E) :
    Nat → T × St W E → T × St W E → Prop where
  | refl (c : T × St W E) : Steps L B max py 0 c c
  | step (n : Nat) (c d e : T × St W E) (h : Step L B max py c d) (hs : Steps L B max py n d e) : Steps L B max py (n + 1) c e

/-- The interpreter: the state of the code is the bytes and caches of all methods. -/
def loop (nargs : I → Nat) (ms : Nat → Meth M I) (S : Nat → Dyn I) (m pc : Nat) (s : List Val) : (Nat → Dyn I) × LOut M I :=
  let r := qlocal nargs (ms m) (S m) pc s
  (fun i => if i = m then r.1 else S i, r.2)
end Machine

end PySOM.Quick

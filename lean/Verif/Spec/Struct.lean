import Verif.Model.Bytecode
/-!
# Structured code

Code without jumps: sequences, conditionals and loops of instructions, with its own evaluation rules.  The compiler's output is
an encoding of such code (`Enc`).  These rules say what the code means independently of bytes, offsets and the program counter.
-/
set_option autoImplicit false
namespace PySOM.BC

/-- Structured code. -/
inductive SC (M : Type) where
  | nop
  | ins (i : Ins M)
  | seq (a b : SC M)
  /-- `jump_on_c_top` over `body` -/
  | thenB (c : JCond) (body : SC M)
  /-- `jump_on_c_pop` to `b`, `a`, jump over `b` -/
  | ifElse (c : JCond) (a b : SC M)
  /-- `cond`, `jump_on_c_pop` to the end, `body`, jump back -/
  | loop (c : JCond) (cond body : SC M)
  deriving Repr

section
variable {M W E : Type}

/-- Outcome of a piece of code: it ends normally, the method answers, or an exception leaves the method. -/
inductive Out (W E : Type) where
  | ok (s : List Val) (w : W)
  | ret (v : Val) (w : W)
  | exc (e : E) (w : W)

/-- Outcome of an instruction whose action answered `v`. -/
def Next.out (n : Next) (v : Val) (w : W) : Out W E :=
  match n with
  | .push s => .ok (v :: s) w
  | .drop s => .ok s w
  | .ret => .ret v w

/-- Outcomes of a single instruction. -/
inductive InsEval (A : World M W E) (i : Ins M) (s : List Val) (w : W) : Out W E → Prop where
  | pure (s' : List Val) (h : i.eff s = .pure s') : InsEval A i s w (.ok s' w)
  | ret (v : Val) (h : i.eff s = .ret v) : InsEval A i s w (.ret v w)
  | act (a : Act M) (n : Next) (v : Val) (w' : W) (h : i.eff s = .act a n) (ha : A a w (.val v) w') : InsEval A i s w (n.out v w')
  | raise (a : Act M) (n : Next) (e : E) (w' : W) (h : i.eff s = .act a n) (ha : A a w (.exc e) w') : InsEval A i s w (.exc e w')

/-- The end of a method or an exception. -/
def Out.stops : Out W E → Prop
  | .ok _ _ => False
  | _ => True

/-- Evaluation of structured code. -/
inductive SEval (A : World M W E) : SC M → List Val → W → Out W E → Prop where
  | nop (s : List Val) (w : W) : SEval A .nop s w (.ok s w)
  | ins (i : Ins M) (s : List Val) (w : W) (o : Out W E) (h : InsEval A i s w o) : SEval A (.ins i) s w o
  | seq (a b : SC M) (s s' : List Val) (w w' : W) (o : Out W E) (ha : SEval A a s w (.ok s' w')) (hb : SEval A b s' w' o) :
      SEval A (.seq a b) s w o
  | seqStop (a b : SC M) (s : List Val) (w : W) (o : Out W E) (ho : o.stops) (ha : SEval A a s w o) : SEval A (.seq a b) s w o
  | thenJump (c : JCond) (body : SC M) (v : Val) (s : List Val) (w : W) (hc : c.holds v = true) :
      SEval A (.thenB c body) (v :: s) w (.ok (c.top v :: s) w)
  | thenBody (c : JCond) (body : SC M) (v : Val) (s : List Val) (w : W) (o : Out W E) (hc : c.holds v = false)
      (hb : SEval A body s w o) : SEval A (.thenB c body) (v :: s) w o
  | ifFirst (c : JCond) (a b : SC M) (v : Val) (s : List Val) (w : W) (o : Out W E) (hc : c.holds v = false)
      (ha : SEval A a s w o) : SEval A (.ifElse c a b) (v :: s) w o
  | ifSecond (c : JCond) (a b : SC M) (v : Val) (s : List Val) (w : W) (o : Out W E) (hc : c.holds v = true)
      (hb : SEval A b s w o) : SEval A (.ifElse c a b) (v :: s) w o
  | loopExit (c : JCond) (cond body : SC M) (v : Val) (s s' : List Val) (w w' : W) (hcond : SEval A cond s w (.ok (v :: s') w'))
      (hc : c.holds v = true) : SEval A (.loop c cond body) s w (.ok s' w')
  | loopCondStop (c : JCond) (cond body : SC M) (s : List Val) (w : W) (o : Out W E) (ho : o.stops) (hcond : SEval A cond s w o) :
      SEval A (.loop c cond body) s w o
  | loopBodyStop (c : JCond) (cond body : SC M) (v : Val) (s s' : List Val) (w w' : W) (o : Out W E) (ho : o.stops)
      (hcond : SEval A cond s w (.ok (v :: s') w')) (hc : c.holds v = false) (hbody : SEval A body s' w' o) :
      SEval A (.loop c cond body) s w o
  | loopNext (c : JCond) (cond body : SC M) (v : Val) (s s' s'' : List Val) (w w' w'' : W) (o : Out W E)
      (hcond : SEval A cond s w (.ok (v :: s') w')) (hc : c.holds v = false) (hbody : SEval A body s' w' (.ok s'' w''))
      (hrest : SEval A (.loop c cond body) s'' w'' o) : SEval A (.loop c cond body) s w o

/-! ## Stack depth -/

/-- Depth after an instruction executed at depth `d`; `none` if it would read below the bottom. -/
def Ins.ty : Ins M → Nat → Option Nat
  | .dup, d => if 1 ≤ d then some (d + 1) else none
  | .pop, d => if 1 ≤ d then some (d - 1) else none
  | .pushVar .., d => some (d + 1)
  | .popVar .., d => if 1 ≤ d then some (d - 1) else none
  | .pushFld .., d => some (d + 1)
  | .popFld .., d => if 1 ≤ d then some (d - 1) else none
  | .incFld .., d => some d
  | .incFldPush .., d => some (d + 1)
  | .pushBlock .., d => some (d + 1)
  | .pushConst _, d => some (d + 1)
  | .pushGlobal _, d => some (d + 1)
  | .send _ n, d => if n ≤ d then some (d - n + 1) else none
  | .superSend _ n, d => if n ≤ d then some (d - n + 1) else none
  | .retLocal, d => if 1 ≤ d then some d else none
  | .retNonLocal _, d => if 1 ≤ d then some d else none
  | .retSelf, d => some d
  | .retFld _, d => some d
  | .inc, d => if 1 ≤ d then some d else none
  | .dec, d => if 1 ≤ d then some d else none

/-- Depth after a piece of code; `none` if some path reads below the bottom or if paths disagree. -/
def SC.ty : SC M → Nat → Option Nat
  | .nop, d => some d
  | .ins i, d => i.ty d
  | .seq a b, d => (a.ty d).bind b.ty
  | .thenB _ body, d => if 1 ≤ d ∧ body.ty (d - 1) = some d then some d else none
  | .ifElse _ a b, d => if 1 ≤ d ∧ a.ty (d - 1) = b.ty (d - 1) then a.ty (d - 1) else none
  | .loop _ cond body, d => if cond.ty d = some (d + 1) ∧ body.ty d = some d then some d else none

/-- The largest depth reached. -/
def SC.maxd : SC M → Nat → Nat
  | .nop, d => d
  | .ins i, d => max d ((i.ty d).getD 0)
  | .seq a b, d => max (a.maxd d) (match a.ty d with | some d' => b.maxd d' | none => 0)
  | .thenB _ body, d => max d (body.maxd (d - 1))
  | .ifElse _ a b, d => max d (max (a.maxd (d - 1)) (b.maxd (d - 1)))
  | .loop _ cond body, d => max (cond.maxd d) (body.maxd d)

/-- The code ends with a return on every path. -/
def SC.returns : SC M → Bool
  | .ins .retLocal => true
  | .ins (.retNonLocal _) => true
  | .ins .retSelf => true
  | .ins (.retFld _) => true
  | .seq a b => a.returns || b.returns
  | _ => false

/-- The last instruction is a return (and no jump skips it). -/
def SC.endsRet : SC M → Bool
  | .ins .retLocal => true
  | .ins (.retNonLocal _) => true
  | .ins .retSelf => true
  | .ins (.retFld _) => true
  | .seq _ b => b.endsRet
  | _ => false

/-! ## Bytes -/

/-- `bs` is one instruction, decoded as `d`, whatever follows. -/
def Is (lits : List (Lit M)) (d : Dec M) (bs : List Nat) : Prop := ∀ rest, decode lits (bs ++ rest) = some d

/-- The distance of a jump. -/
def Dec.dist : Dec M → Nat
  | .ins _ _ => 0
  | .jump o => o
  | .jumpTop _ o => o
  | .jumpPop _ o => o
  | .jumpBack o => o

/-- A three-byte jump whose distance is in the last two bytes, low byte first, also if it is a jump whose distance is its first operand. -/
structure IsJump (d : Dec M) (bs : List Nat) : Prop where
  len : bs.length = 3
  is : ∀ lits, Is lits d bs
  dist : ∃ op a b, bs = [op, a, b] ∧ d.dist = a + b <<< 8

/-- `bs` is an encoding of structured code: instructions one after the other, each jump going exactly to the end of the
part it skips, or to the beginning of its loop. -/
inductive Enc (lits : List (Lit M)) : SC M → List Nat → Prop where
  | nop : Enc lits .nop []
  | ins (i : Ins M) (bs : List Nat) (h : Is lits (.ins i bs.length) bs) : Enc lits (.ins i) bs
  | seq (a b : SC M) (ba bb : List Nat) (ha : Enc lits a ba) (hb : Enc lits b bb) : Enc lits (.seq a b) (ba ++ bb)
  | thenB (c : JCond) (body : SC M) (j bb : List Nat) (hj : IsJump (M := M) (.jumpTop c (3 + bb.length)) j) (hb : Enc lits body bb) :
      Enc lits (.thenB c body) (j ++ bb)
  | ifElse (c : JCond) (a b : SC M) (j ba k bb : List Nat) (hj : IsJump (M := M) (.jumpPop c (3 + ba.length + 3)) j)
      (ha : Enc lits a ba) (hk : IsJump (M := M) (.jump (3 + bb.length)) k) (hb : Enc lits b bb) :
      Enc lits (.ifElse c a b) (j ++ (ba ++ (k ++ bb)))
  | loop (c : JCond) (cond body : SC M) (bc j bb k : List Nat) (hc : Enc lits cond bc)
      (hj : IsJump (M := M) (.jumpPop c (3 + bb.length + 3)) j) (hb : Enc lits body bb)
      (hk : IsJump (M := M) (.jumpBack (bc.length + 3 + bb.length)) k) :
      Enc lits (.loop c cond body) (bc ++ (j ++ (bb ++ k)))
end

end PySOM.BC

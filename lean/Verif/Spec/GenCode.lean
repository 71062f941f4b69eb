import Verif.Model.Gen
import Verif.Spec.Struct
/-!
# The structured code of a method

A pure description of the code the generator should produce for a syntax tree, without bytes, literal indexes, offsets, depth
counters or the buffer of recent bytecodes.  What is threaded through is the state of `_is_currently_inlining_a_block`, which
decides whether a peephole optimisation is attempted, and what inlining does to the variables of the method.
-/
set_option autoImplicit false
namespace PySOM.BC
open PySOM

section
variable {M X : Type}

/-- How blocks are inlined: the function, the code it should add, what it does to the variables, and for which methods. -/
structure Inliner (M X : Type) where
  run : Inline M X
  code : M → Nat → X → SC M
  env : M → Nat → X → X
  /-- the methods of blocks that may occur at a context level -/
  good : Nat → M → Prop

/-- The instruction that reads a global. -/
def globIns (n : Sel) : Ins M :=
  if n = symNil then .pushConst .nil
  else if n = symTrue then .pushConst .tru
  else if n = symFalse then .pushConst .fls
  else .pushGlobal n

mutual
/-- Code of a literal. -/
def litSC : LitT → SC M
  | .val v => .ins (.pushConst v)
  | .arr es => .seq (.ins (.pushGlobal symArray)) (.seq (.ins (.pushConst (.int es.length))) (.seq (.ins (.send symNew 2)) (litsSC es 1)))
/-- Code that fills a literal array. -/
def litsSC : LitTs → Nat → SC M
  | .nil, _ => .nop
  | .cons e es, i => .seq (.seq (.ins (.pushConst (.int i))) (.seq (litSC e) (.ins (.send symAtPut 3)))) (litsSC es (i + 1))
end

/-- Instruction that stores into a variable. -/
def Tgt.popIns (lvl : Nat) : Tgt → Ins M
  | .var _ a i l => .popVar a i l
  | .fld _ i => .popFld i lvl

def dupsSC : Nat → SC M
  | 0 => .nop
  | n + 1 => .seq (.ins .dup) (dupsSC n)

def popsSC (lvl : Nat) : List Tgt → SC M
  | [] => .nop
  | t :: ts => .seq (.ins (t.popIns lvl)) (popsSC lvl ts)

/-- `f := f + 1` -/
def fusable : Tgt → List Tgt → Ex M → Option Nat
  | .fld _ i, [], .inc (.fld _ j) => if i = j then some i else none
  | _, _, _ => none

/-- A send that is compiled to inlined blocks. -/
inductive Inlined (M : Type) where
  | thenBranch (c : JCond) (m : M)
  | thenElse (c : JCond) (m1 m2 : M)
  | while (isTrue : Bool) (m1 m2 : M)
  | andOr (isOr : Bool) (m : M)

/-- A special selector whose blocks are all literal blocks. -/
def inlined? (sel : Sel) (r : Ex M) (as : Exs M) : Option (Inlined M) :=
  match special? sel, r, as with
  | some (.thenBranch c), _, .cons (.blk _ m) .nil => some (.thenBranch c m)
  | some (.thenElse c), _, .cons (.blk _ m1) (.cons (.blk _ m2) .nil) => some (.thenElse c m1 m2)
  | some (.while b), .blk _ m1, .cons (.blk _ m2) .nil => some (.while b m1 m2)
  | some (.andOr b), _, .cons (.blk _ m) .nil => some (.andOr b m)
  | _, _, _ => none

/-- Code and state after it. -/
abbrev Gen (M X : Type) := SC M × (Bool × X)

/-- An assignment: `ce` is the code of the value. -/
def genAsg (lvl : Nat) (t : Tgt) (ts : List Tgt) (e : Ex M) (ce : Gen M X) : Gen M X :=
  match fusable t ts e, ce.2.1 with
  | some i, false => (.ins (.incFldPush i lvl), ce.2)
  | _, _ => (.seq ce.1 (.seq (dupsSC (ts.length + 1)) (popsSC lvl (t :: ts))), ce.2)

/-- A send: `cr` is the code of the receiver, `cas` that of the arguments. -/
def genSend (I : Inliner M X) (lvl : Nat) (sel : Sel) (inl : Option (Inlined M)) (cr cas : Gen M X) : Gen M X :=
  match inl with
  | some (.thenBranch c m) => (.seq cr.1 (.thenB c (I.code m lvl cr.2.2)), (true, I.env m lvl cr.2.2))
  | some (.thenElse c m1 m2) =>
    (.seq cr.1 (.ifElse c (I.code m1 lvl cr.2.2) (I.code m2 lvl (I.env m1 lvl cr.2.2))), (false, I.env m2 lvl (I.env m1 lvl cr.2.2)))
  | some (.while b m1 m2) =>
    (.seq (.loop (if b then .onFalse else .onTrue) (I.code m1 lvl cr.2.2) (.seq (I.code m2 lvl (I.env m1 lvl cr.2.2)) (.ins .pop))) (.ins (.pushConst .nil)),
     (false, I.env m2 lvl (I.env m1 lvl cr.2.2)))
  | some (.andOr b m) =>
    (.seq cr.1 (.ifElse (if b then .onTrue else .onFalse) (I.code m lvl cr.2.2) (.ins (.pushConst (if b then .tru else .fls)))),
     (false, I.env m lvl cr.2.2))
  | none => (.seq cr.1 (.seq cas.1 (.ins (.send sel (Sym.numberOfSignatureArguments sel)))), cas.2)

mutual
/-- Code of an expression. -/
def genEx (I : Inliner M X) (lvl : Nat) : Ex M → Bool × X → Gen M X
  | .lit l, st => (litSC l, st)
  | .glob n, st => (.ins (globIns n), st)
  | .var a i l, st => (.ins (.pushVar a i l), st)
  | .fld _ i, st => (.ins (.pushFld i lvl), st)
  | .blk c m, st => (.ins (.pushBlock c m), st)
  | .asg t ts e, st => genAsg lvl t ts e (genEx I lvl e st)
  | .inc e, st => (.seq (genEx I lvl e st).1 (.ins .inc), (genEx I lvl e st).2)
  | .dec e, st => (.seq (genEx I lvl e st).1 (.ins .dec), (genEx I lvl e st).2)
  | .send sel r as, st => genSend I lvl sel (inlined? sel r as) (genEx I lvl r st) (genExs I lvl as (genEx I lvl r st).2)
  | .superSend sel r as, st =>
    (.seq (genEx I lvl r st).1 (.seq (genExs I lvl as (genEx I lvl r st).2).1 (.ins (.superSend sel (Sym.numberOfSignatureArguments sel)))),
     (genExs I lvl as (genEx I lvl r st).2).2)
/-- Code of arguments. -/
def genExs (I : Inliner M X) (lvl : Nat) : Exs M → Bool × X → Gen M X
  | .nil, st => (.nop, st)
  | .cons e es, st => (.seq (genEx I lvl e st).1 (genExs I lvl es (genEx I lvl e st).2).1, (genExs I lvl es (genEx I lvl e st).2).2)
end

/-- Code of an assignment whose value is not used: without the `dup`. -/
def genAsgEff (lvl : Nat) (t : Tgt) (e : Ex M) (ce : Gen M X) : SC M :=
  match fusable t [] e with
  | some i => .ins (.incFld i lvl)
  | none => .seq ce.1 (.ins (t.popIns lvl))

/-- Code of an expression whose value is not used, where the optimisation is done: only assignments to one variable. -/
def effOnly (I : Inliner M X) (lvl : Nat) (e : Ex M) (st : Bool × X) : Option (SC M) :=
  match e with
  | .asg t [] e' => if (genEx I lvl e st).2.1 = false then some (genAsgEff lvl t e' (genEx I lvl e' st)) else none
  | _ => none

/-- Code of a statement. -/
def genStmt (I : Inliner M X) (lvl : Nat) (e : Ex M) (st : Bool × X) : Gen M X :=
  (match effOnly I lvl e st with
    | some c => c
    | none => .seq (genEx I lvl e st).1 (.ins .pop),
   (genEx I lvl e st).2)

/-- `^ e` in a method. -/
def genReturn (I : Inliner M X) (lvl : Nat) (e : Ex M) (st : Bool × X) : SC M :=
  match e with
  | .fld _ i => if st.1 = false ∧ lvl = 0 ∧ i ≤ 2 then .ins (.retFld i) else .seq (genEx I lvl e st).1 (.ins .retLocal)
  | _ => .seq (genEx I lvl e st).1 (.ins .retLocal)

/-- Code of a body. -/
def genBody (I : Inliner M X) (isBlock : Bool) (lvl : Nat) : Body M → Bool × X → SC M
  | .done, _ => if isBlock then .seq (.ins (.pushConst .nil)) (.ins .retLocal) else .ins .retSelf
  | .last e, st =>
    if isBlock then .seq (genEx I lvl e st).1 (.ins .retLocal)
    else .seq (match effOnly I lvl e st with | some c => c | none => (genEx I lvl e st).1) (.ins .retSelf)
  | .stmt e .done, st =>
    if isBlock then .seq (genEx I lvl e st).1 (.ins .retLocal)
    else .seq (genStmt I lvl e st).1 (.ins .retSelf)
  | .stmt e rest, st => .seq (genStmt I lvl e st).1 (genBody I isBlock lvl rest (genStmt I lvl e st).2)
  | .exit e, st => if isBlock then .seq (genEx I lvl e st).1 (.ins (.retNonLocal lvl)) else genReturn I lvl e st
  | .exitSelf, _ => .ins .retSelf

/-! ## Well-formed syntax trees -/

mutual
/-- The symbol `#ArraySizeLiteralPlaceholder` does not occur. -/
def LitT.noPh : LitT → Bool
  | .val v => decide (v ≠ .sym symPlaceholder)
  | .arr es => es.noPh
def LitTs.noPh : LitTs → Bool
  | .nil => true
  | .cons e es => e.noPh && es.noPh
end

/-- The symbol may be used outside of literal arrays. -/
def LitT.ok : LitT → Bool
  | .val _ => true
  | .arr es => es.noPh

def Exs.length : Exs M → Nat
  | .nil => 0
  | .cons _ es => es.length + 1

mutual
/-- Messages have as many arguments as their selectors say, no literal array contains the symbol `#ArraySizeLiteralPlaceholder`, and the
methods of the blocks are as they should be. -/
def Ex.wf (P : M → Prop) : Ex M → Prop
  | .lit l => l.ok = true
  | .blk _ m => P m
  | .asg _ _ e => e.wf P
  | .inc e => e.wf P
  | .dec e => e.wf P
  | .send sel r as => r.wf P ∧ as.wf P ∧ Sym.numberOfSignatureArguments sel = as.length + 1
  | .superSend sel r as => r.wf P ∧ as.wf P ∧ Sym.numberOfSignatureArguments sel = as.length + 1
  | _ => True
def Exs.wf (P : M → Prop) : Exs M → Prop
  | .nil => True
  | .cons e es => e.wf P ∧ es.wf P
end

def Body.wf (P : M → Prop) : Body M → Prop
  | .done => True
  | .last e => e.wf P
  | .stmt e rest => e.wf P ∧ rest.wf P
  | .exit e => e.wf P
  | .exitSelf => True

/-- `^ self` is read as such only in methods (`parser.py:92-96`). -/
def Body.fits (isBlock : Bool) : Body M → Prop
  | .stmt _ rest => rest.fits isBlock
  | .exitSelf => isBlock = false
  | _ => True
end
end PySOM.BC

import Verif.Spec.GenCode
/-!
# Code without peephole optimisations

What the generator would produce without its three rewritings: every assignment duplicates the value and stores the copy, every
unused value is removed with `pop`, a field is returned by pushing and returning it, and a field is incremented by reading,
incrementing and storing it.
-/
set_option autoImplicit false
namespace PySOM.BC
namespace Plain
open PySOM

section
variable {M X : Type}

/-- A send. -/
def send (I : Inliner M X) (lvl : Nat) (sel : Sel) (inl : Option (Inlined M)) (cr cas : SC M × X) : SC M × X :=
  match inl with
  | some (.thenBranch c m) => (.seq cr.1 (.thenB c (I.code m lvl cr.2)), I.env m lvl cr.2)
  | some (.thenElse c m1 m2) =>
    (.seq cr.1 (.ifElse c (I.code m1 lvl cr.2) (I.code m2 lvl (I.env m1 lvl cr.2))), I.env m2 lvl (I.env m1 lvl cr.2))
  | some (.while b m1 m2) =>
    (.seq (.loop (if b then .onFalse else .onTrue) (I.code m1 lvl cr.2) (.seq (I.code m2 lvl (I.env m1 lvl cr.2)) (.ins .pop))) (.ins (.pushConst .nil)),
     I.env m2 lvl (I.env m1 lvl cr.2))
  | some (.andOr b m) =>
    (.seq cr.1 (.ifElse (if b then .onTrue else .onFalse) (I.code m lvl cr.2) (.ins (.pushConst (if b then .tru else .fls)))), I.env m lvl cr.2)
  | none => (.seq cr.1 (.seq cas.1 (.ins (.send sel (Sym.numberOfSignatureArguments sel)))), cas.2)

mutual
/-- Code of an expression. -/
def ex (I : Inliner M X) (lvl : Nat) : Ex M → X → SC M × X
  | .lit l, x => (litSC l, x)
  | .glob n, x => (.ins (globIns n), x)
  | .var a i l, x => (.ins (.pushVar a i l), x)
  | .fld _ i, x => (.ins (.pushFld i lvl), x)
  | .blk c m, x => (.ins (.pushBlock c m), x)
  | .asg t ts e, x => (.seq (ex I lvl e x).1 (.seq (dupsSC (ts.length + 1)) (popsSC lvl (t :: ts))), (ex I lvl e x).2)
  | .inc e, x => (.seq (ex I lvl e x).1 (.ins .inc), (ex I lvl e x).2)
  | .dec e, x => (.seq (ex I lvl e x).1 (.ins .dec), (ex I lvl e x).2)
  | .send sel r as, x => send I lvl sel (inlined? sel r as) (ex I lvl r x) (exs I lvl as (ex I lvl r x).2)
  | .superSend sel r as, x =>
    (.seq (ex I lvl r x).1 (.seq (exs I lvl as (ex I lvl r x).2).1 (.ins (.superSend sel (Sym.numberOfSignatureArguments sel)))),
     (exs I lvl as (ex I lvl r x).2).2)
/-- Code of arguments. -/
def exs (I : Inliner M X) (lvl : Nat) : Exs M → X → SC M × X
  | .nil, x => (.nop, x)
  | .cons e es, x => (.seq (ex I lvl e x).1 (exs I lvl es (ex I lvl e x).2).1, (exs I lvl es (ex I lvl e x).2).2)
end

/-- Code of a body. -/
def body (I : Inliner M X) (isBlock : Bool) (lvl : Nat) : Body M → X → SC M
  | .done, _ => if isBlock then .seq (.ins (.pushConst .nil)) (.ins .retLocal) else .ins .retSelf
  | .last e, x => .seq (ex I lvl e x).1 (.ins (if isBlock then .retLocal else .retSelf))
  | .stmt e .done, x =>
    if isBlock then .seq (ex I lvl e x).1 (.ins .retLocal) else .seq (ex I lvl e x).1 (.seq (.ins .pop) (.ins .retSelf))
  | .stmt e rest, x => .seq (ex I lvl e x).1 (.seq (.ins .pop) (body I isBlock lvl rest (ex I lvl e x).2))
  | .exit e, x => .seq (ex I lvl e x).1 (.ins (if isBlock then .retNonLocal lvl else .retLocal))
  | .exitSelf, _ => .ins .retSelf
end
end Plain
end PySOM.BC

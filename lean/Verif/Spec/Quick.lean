import Verif.Model.Quick
/-!
# Specification: an interpreter that never rewrites anything

Every variable access looks the variable up in the lexical scopes, every super send looks the method up, each time anew.
-/
set_option autoImplicit false
namespace PySOM.Quick.Spec
open PySOM PySOM.BC PySOM.Quick

section
variable {M I : Type}

/-- Where a variable is: in a context, the one of the scope `lvl` levels out, or in the frame of the activation it belongs to,
which can only be the current one. -/
def slot (me : Meth M I) (isArg : Bool) (idx lvl : Nat) (inner : Nat → QAct M I) (frame : Nat → QAct M I) : Except Err (QAct M I) :=
  match getVar me.scopes isArg idx lvl with
  | .error e => .error e
  | .ok v => if v.captured then .ok (inner v.idx) else if lvl = 0 then .ok (frame v.idx) else .error .other

/-- The meaning of an action with names. -/
def meaning (me : Meth M I) : Act M → Except Err (QAct M I)
  | .rdVar isArg idx lvl => slot me isArg idx lvl (fun i => .rdInner i lvl) (fun i => .rdFrame i)
  | .wrVar isArg idx lvl v => slot me isArg idx lvl (fun i => .wrInner i lvl v) (fun i => .wrFrame i v)
  | a => .ok (.other a)

/-- One iteration over the code as compiled.  A super send looks the method up; if there is none, that is an `AttributeError`. -/
def plain (me : Meth M I) (pc : Nat) (s : List Val) : LOut M I :=
  match decode me.code.lits (me.code.bytes.drop pc) with
  | none => .crash .badCode
  | some (.ins (.superSend sel n) _) =>
    match me.look sel with
    | some inv => invokeOut pc s inv n
    | none => .fail .attribute
  | some d => outOf (meaning me) me.code.max pc s d

/-- The interpreter loop of the specification: the code has no state. -/
def loop (ms : Nat → Meth M I) (_ : Unit) (m pc : Nat) (s : List Val) : Unit × LOut M I := ((), plain (ms m) pc s)
end
end PySOM.Quick.Spec

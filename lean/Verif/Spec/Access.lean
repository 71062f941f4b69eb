import Verif.Spec.Compiled
/-!
# Which variables code accesses

Accesses of variables and fields, in the order of the code, with the declared variable each denotes: the scopes from the inside out say
which variables are declared.  The same for source and for compiled code.
-/
set_option autoImplicit false
namespace PySOM.BC
open PySOM

/-- The arguments and local variables a method or block declares.  The first argument of a block is the block itself, which has no name. -/
structure Scope where
  args : List (Option Nat)
  locals : List Nat

/-- The scope of a block with the given arguments and local variables. -/
def Scope.block : List Nat → List Nat → Scope
  | [], locals => ⟨[], locals⟩
  | _ :: as, locals => ⟨none :: as.map some, locals⟩

/-- The variable that an index and a level denote. -/
def denotes (chain : List Scope) (isArg : Bool) (i l : Nat) : Option Nat :=
  match chain[l]? with
  | none => none
  | some s => if isArg then s.args[i]?.join else s.locals[i]?

/-- An access of a variable, or of a field of the receiver, which is the first argument of the method. -/
inductive Access where
  | read (v : Option Nat)
  | write (v : Option Nat)
  | readFld (i : Nat) (self : Option Nat)
  | writeFld (i : Nat) (self : Option Nat)
  deriving DecidableEq

/-- It denotes something. -/
def Access.known : Access → Prop
  | .read v => v.isSome
  | .write v => v.isSome
  | .readFld _ s => s.isSome
  | .writeFld _ s => s.isSome

/-- All denote something. -/
def Known (as : List Access) : Prop := ∀ a ∈ as, a.known

/-! ## Compiled code -/

/-- Accesses of a trivial method. -/
def Triv.acc (chain : List Scope) : Triv Meth → List Access
  | .fldRead i l => [.readFld i (denotes (⟨[none], []⟩ :: chain) true 0 l)]
  | _ => []

mutual
/-- Accesses of a block and of the blocks in it. -/
def Meth.acc : Meth → List Scope → List Access
  | .bc _ _ _ _ args locals _ code, chain => code.acc (Scope.block args locals :: chain)
  | .triv _ t, chain => t.acc chain
/-- Accesses of code and of the blocks it creates. -/
def SC.acc : SC Meth → List Scope → List Access
  | .nop, _ => []
  | .ins i, chain => i.acc chain
  | .seq a b, chain => a.acc chain ++ b.acc chain
  | .thenB _ b, chain => b.acc chain
  | .ifElse _ a b, chain => a.acc chain ++ b.acc chain
  | .loop _ a b, chain => a.acc chain ++ b.acc chain
/-- A block without context sees only its own variables. -/
def Ins.acc : Ins Meth → List Scope → List Access
  | .pushVar a i l, chain => [.read (denotes chain a i l)]
  | .popVar a i l, chain => [.write (denotes chain a i l)]
  | .pushFld i l, chain => [.readFld i (denotes chain true 0 l)]
  | .popFld i l, chain => [.writeFld i (denotes chain true 0 l)]
  | .incFld i l, chain => [.readFld i (denotes chain true 0 l), .writeFld i (denotes chain true 0 l)]
  | .incFldPush i l, chain => [.readFld i (denotes chain true 0 l), .writeFld i (denotes chain true 0 l)]
  | .retFld i, chain => [.readFld i (denotes chain true 0 0)]
  | .pushBlock true m, chain => m.acc chain
  | .pushBlock false m, _ => m.acc []
  | _, _ => []
end

/-! ## Source -/

/-- The access of an assignment. -/
def Tgt.acc (lvl : Nat) (chain : List Scope) : Tgt → Access
  | .var _ a i l => .write (denotes chain a i l)
  | .fld _ i => .writeFld i (denotes chain true 0 lvl)

mutual
/-- Accesses of an expression at level `lvl`, from left to right. -/
def Ex.acc (lvl : Nat) (chain : List Scope) : Ex Meth → List Access
  | .var a i l => [.read (denotes chain a i l)]
  | .fld _ i => [.readFld i (denotes chain true 0 lvl)]
  | .blk true m => m.acc chain
  | .blk false m => m.acc []
  | .asg t ts e => e.acc lvl chain ++ (t :: ts).map (Tgt.acc lvl chain)
  | .inc e => e.acc lvl chain
  | .dec e => e.acc lvl chain
  | .send _ r as => r.acc lvl chain ++ as.acc lvl chain
  | .superSend _ r as => r.acc lvl chain ++ as.acc lvl chain
  | _ => []
def Exs.acc (lvl : Nat) (chain : List Scope) : Exs Meth → List Access
  | .nil => []
  | .cons e es => e.acc lvl chain ++ es.acc lvl chain
end

def Body.acc (lvl : Nat) (chain : List Scope) : Body Meth → List Access
  | .done => []
  | .last e => e.acc lvl chain
  | .stmt e rest => e.acc lvl chain ++ rest.acc lvl chain
  | .exit e => e.acc lvl chain
  | .exitSelf => []

end PySOM.BC

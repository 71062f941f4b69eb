import Verif.Model.Program
import Verif.Spec.Access
/-!
# Sources of methods

What a source must be like, and which variables it accesses.
-/
set_option autoImplicit false
namespace PySOM.BC
open PySOM

mutual
/-- Messages have as many arguments as their selectors say, no literal array contains `#ArraySizeLiteralPlaceholder`, and `^ self` is
special only in methods. -/
def Ex.Wf : Ex SBlock → Prop
  | .lit l => l.ok = true
  | .blk _ s => s.Wf
  | .asg _ _ e => e.Wf
  | .inc e => e.Wf
  | .dec e => e.Wf
  | .send sel r as => r.Wf ∧ as.Wf ∧ Sym.numberOfSignatureArguments sel = as.length + 1
  | .superSend sel r as => r.Wf ∧ as.Wf ∧ Sym.numberOfSignatureArguments sel = as.length + 1
  | _ => True
def Exs.Wf : Exs SBlock → Prop
  | .nil => True
  | .cons e es => e.Wf ∧ es.Wf
def Body.Wf : Body SBlock → Prop
  | .done => True
  | .last e => e.Wf
  | .stmt e rest => e.Wf ∧ rest.Wf
  | .exit e => e.Wf
  | .exitSelf => True
def SBlock.Wf : SBlock → Prop
  | .mk _ _ _ b => b.Wf ∧ b.fits true
end

mutual
/-- The identities of the blocks. -/
def Ex.sids : Ex SBlock → List Nat
  | .blk _ s => s.sids
  | .asg _ _ e => e.sids
  | .inc e => e.sids
  | .dec e => e.sids
  | .send _ r as => r.sids ++ as.sids
  | .superSend _ r as => r.sids ++ as.sids
  | _ => []
def Exs.sids : Exs SBlock → List Nat
  | .nil => []
  | .cons e es => e.sids ++ es.sids
def Body.sids : Body SBlock → List Nat
  | .done => []
  | .last e => e.sids
  | .stmt e rest => e.sids ++ rest.sids
  | .exit e => e.sids
  | .exitSelf => []
def SBlock.sids : SBlock → List Nat
  | .mk id _ _ b => id :: b.sids
end

mutual
/-- Accesses of an expression at level `lvl`, from left to right, with the declared variable each denotes; `chain` are the scopes around it from the inside out. -/
def Ex.sacc (lvl : Nat) (chain : List Scope) : Ex SBlock → List Access
  | .var a i l => [.read (denotes chain a i l)]
  | .fld _ i => [.readFld i (denotes chain true 0 lvl)]
  | .blk _ s => s.sacc lvl chain
  | .asg t ts e => e.sacc lvl chain ++ (t :: ts).map (Tgt.acc lvl chain)
  | .inc e => e.sacc lvl chain
  | .dec e => e.sacc lvl chain
  | .send _ r as => r.sacc lvl chain ++ as.sacc lvl chain
  | .superSend _ r as => r.sacc lvl chain ++ as.sacc lvl chain
  | _ => []
def Exs.sacc (lvl : Nat) (chain : List Scope) : Exs SBlock → List Access
  | .nil => []
  | .cons e es => e.sacc lvl chain ++ es.sacc lvl chain
def Body.sacc (lvl : Nat) (chain : List Scope) : Body SBlock → List Access
  | .done => []
  | .last e => e.sacc lvl chain
  | .stmt e rest => e.sacc lvl chain ++ rest.sacc lvl chain
  | .exit e => e.sacc lvl chain
  | .exitSelf => []
/-- The accesses of a block, which has its own scope, whether or not it is inlined or has a context. -/
def SBlock.sacc (lvl : Nat) (chain : List Scope) : SBlock → List Access
  | .mk _ args env b => b.sacc (lvl + 1) (Scope.block args env :: chain)
end

/-- A method of the source. -/
structure SMethod.Wf (s : SMethod) : Prop where
  body : s.body.Wf
  fits : s.body.fits false
  ids : s.body.sids.Nodup

/-- The accesses of a method and of all its blocks. -/
def SMethod.accesses (s : SMethod) : List Access := s.body.sacc 0 [⟨s.args, s.env⟩]

mutual
/-- The variables that the blocks declare. -/
def Ex.slocals : Ex SBlock → List Nat
  | .blk _ s => s.slocals
  | .asg _ _ e => e.slocals
  | .inc e => e.slocals
  | .dec e => e.slocals
  | .send _ r as => r.slocals ++ as.slocals
  | .superSend _ r as => r.slocals ++ as.slocals
  | _ => []
def Exs.slocals : Exs SBlock → List Nat
  | .nil => []
  | .cons e es => e.slocals ++ es.slocals
def Body.slocals : Body SBlock → List Nat
  | .done => []
  | .last e => e.slocals
  | .stmt e rest => e.slocals ++ rest.slocals
  | .exit e => e.slocals
  | .exitSelf => []
def SBlock.slocals : SBlock → List Nat
  | .mk _ _ env b => env ++ b.slocals
end

end PySOM.BC

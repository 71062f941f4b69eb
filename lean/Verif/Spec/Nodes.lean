import Verif.Model.Nodes
/-!
# What trees that rewrite themselves have to keep
-/
set_option autoImplicit false
namespace PySOM.Nodes
variable {α : Type}

/-- A piece of program text: what it is and its parts. -/
inductive Source (α : Type) where
  | mk (src : α) (parts : List (Source α))

/-- All of a list of options. -/
def every {β γ : Type} (f : β → Option γ) : List β → Option (List γ)
  | [] => some []
  | b :: bs => (f b).bind fun c => (every f bs).map (c :: ·)

/-- The text a node stands for, if its tree is not deeper than `d`. -/
def source (h : Heap α) : Nat → Nat → Option (Source α)
  | 0, _ => none
  | d + 1, r => (h[r]?).bind fun n => (every (source h d) n.kids).map (Source.mk n.src)

mutual
/-- The text of an expression. -/
def Expr.text : Expr α → Source α
  | .mk src _ kids => .mk src kids.text
def Exprs.text : Exprs α → List (Source α)
  | .nil => []
  | .cons e es => e.text :: es.text
end

/-- The run is possible and no node is executed while an execution of it is still going on: there is no recursion. -/
def Plain (s : State α) : List Op → Prop
  | [] => s.stack.Nodup
  | o :: os => s.stack.Nodup ∧ ∃ s', step s o = .ok s' ∧ Plain s' os

/-- How often a run replaces a node. -/
def replacements (ops : List Op) : Nat := ops.count .specialize

/-- How many nodes have a `_specialize` method. -/
def unspecialized (h : Heap α) : Nat := h.countP fun n => n.form.fresh

end PySOM.Nodes

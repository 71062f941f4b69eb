import Verif.Model.Closure
/-!
# What can be seen of a program, and which variables may be inlined
-/
set_option autoImplicit false
namespace PySOM.Clo

/-! ## What can be seen -/

/-- What can be seen of a value: of a block only its code. -/
inductive Shown where
  | atom (a : Atom)
  | obj (a : Nat)
  | block (args locals : List Var) (body : Ex)

def Value.shown : Value → Shown
  | .atom a => .atom a
  | .obj a => .obj a
  | .clo as ls b _ _ _ => .block as ls b

inductive Seen where
  | val (v : Shown)
  | ret (home : Nat) (v : Shown)
  | err (e : Err)
  | timeout

def Out.seen : Out → Seen
  | .val v => .val v.shown
  | .ret h v => .ret h v.shown
  | .err e => .err e
  | .timeout => .timeout

/-- What can be seen of a run: its outcome, all objects with their fields, and the calls of primitives in their order. -/
def seen (r : Res) : Seen × List (Nat × List Shown) × List (Sel × Atom × List Atom) :=
  (r.1.seen, r.2.objs.map (fun o => (o.1, o.2.map Value.shown)), r.2.log)

/-! ## The condition on loops -/

mutual
/-- The variables that are certainly assigned after an expression, if those of `D` are before it. -/
def Ex.after (D : List Var) : Ex → List Var
  | .atom _ => D
  | .self => D
  | .var _ => D
  | .asg x e => x :: e.after D
  | .fld _ => D
  | .fldW _ e => e.after D
  | .blk _ _ _ => D
  | .new _ => D
  | .send _ _ r as => as.after (r.after D)
  | .inl1 _ r _ _ => r.after D
  | .inl2 _ r _ _ _ _ => r.after D
  | .while _ _ _ _ _ => D
  | .seq e1 e2 => e2.after (e1.after D)
  | .ret e => e.after D
def Exs.after (D : List Var) : Exs → List Var
  | .nil => D
  | .cons e es => es.after (e.after D)
end

/-- A block that may be inlined, with the variables `ls`, in a loop or not; `F` says whether its body is fine. -/
def blockFine (lp : Bool) (sc tmp D ls : List Var) (F : Bool → List Var → List Var → List Var → Prop) : Prop :=
  if lp then F true sc (ls ++ tmp) D ∧ ∀ x ∈ ls, x ∉ D else F false (ls ++ sc) tmp D

mutual
/-- Every variable is in scope and the variables of an activation are different declarations.  The variables of blocks
that are inlined outside of loops are ordinary variables (`sc`); those of blocks inlined in a loop (`tmp`) must be assigned
before they are read (`D` are those that are) and must not be used in blocks that are not inlined. -/
def Ex.fine (lp : Bool) (sc tmp D : List Var) : Ex → Prop
  | .atom _ => True
  | .self => True
  | .var x => x ∈ sc ∨ (x ∈ tmp ∧ x ∈ D)
  | .asg x e => e.fine lp sc tmp D ∧ (x ∈ sc ∨ x ∈ tmp)
  | .fld _ => True
  | .fldW _ e => e.fine lp sc tmp D
  | .blk as ls b => b.fine false (as ++ (ls ++ sc)) [] [] ∧ (as ++ (ls ++ b.hoist)).Nodup ∧ ∀ x ∈ b.hoist, x ∉ sc
  | .new _ => True
  | .send _ _ r as => r.fine lp sc tmp D ∧ as.fine lp sc tmp (r.after D)
  | .inl1 _ r ls b => r.fine lp sc tmp D ∧ blockFine lp sc tmp (r.after D) ls (fun lp sc tmp D => b.fine lp sc tmp D)
  | .inl2 _ r ls1 b1 ls2 b2 => r.fine lp sc tmp D ∧ blockFine lp sc tmp (r.after D) ls1 (fun lp sc tmp D => b1.fine lp sc tmp D) ∧ blockFine lp sc tmp (r.after D) ls2 (fun lp sc tmp D => b2.fine lp sc tmp D)
  | .while _ lc c lb b => blockFine true sc tmp D lc (fun lp sc tmp D => c.fine lp sc tmp D) ∧ blockFine true sc tmp D lb (fun lp sc tmp D => b.fine lp sc tmp D)
  | .seq e1 e2 => e1.fine lp sc tmp D ∧ e2.fine lp sc tmp (e1.after D)
  | .ret e => e.fine lp sc tmp D
def Exs.fine (lp : Bool) (sc tmp D : List Var) : Exs → Prop
  | .nil => True
  | .cons e es => e.fine lp sc tmp D ∧ es.fine lp sc tmp (e.after D)
end

/-- The condition for a method. -/
def Meth.fine (m : Meth) : Prop := (Ex.blk m.args m.locals m.body).fine false [] [] []

/-! ## A simpler condition -/

mutual
/-- Every variable is in scope, and the variables of an activation are different declarations. -/
def Ex.scoped (sc : List Var) : Ex → Prop
  | .atom _ => True
  | .self => True
  | .var x => x ∈ sc
  | .asg x e => e.scoped sc ∧ x ∈ sc
  | .fld _ => True
  | .fldW _ e => e.scoped sc
  | .blk as ls b => b.scoped (as ++ (ls ++ sc)) ∧ (as ++ (ls ++ b.hoist)).Nodup ∧ ∀ x ∈ b.hoist, x ∉ sc
  | .new _ => True
  | .send _ _ r as => r.scoped sc ∧ as.scoped sc
  | .inl1 _ r ls b => r.scoped sc ∧ b.scoped (ls ++ sc)
  | .inl2 _ r ls1 b1 ls2 b2 => r.scoped sc ∧ b1.scoped (ls1 ++ sc) ∧ b2.scoped (ls2 ++ sc)
  | .while _ lc c lb b => c.scoped (lc ++ sc) ∧ b.scoped (lb ++ sc)
  | .seq e1 e2 => e1.scoped sc ∧ e2.scoped sc
  | .ret e => e.scoped sc
def Exs.scoped (sc : List Var) : Exs → Prop
  | .nil => True
  | .cons e es => e.scoped sc ∧ es.scoped sc
end

mutual
/-- The blocks that are inlined into a loop have no variables. -/
def Ex.bare (lp : Bool) : Ex → Prop
  | .atom _ => True
  | .self => True
  | .var _ => True
  | .asg _ e => e.bare lp
  | .fld _ => True
  | .fldW _ e => e.bare lp
  | .blk _ _ b => b.bare false
  | .new _ => True
  | .send _ _ r as => r.bare lp ∧ as.bare lp
  | .inl1 _ r ls b => r.bare lp ∧ (lp = true → ls = []) ∧ b.bare lp
  | .inl2 _ r ls1 b1 ls2 b2 => r.bare lp ∧ (lp = true → ls1 = [] ∧ ls2 = []) ∧ b1.bare lp ∧ b2.bare lp
  | .while _ lc c lb b => (lc = [] ∧ lb = []) ∧ c.bare true ∧ b.bare true
  | .seq e1 e2 => e1.bare lp ∧ e2.bare lp
  | .ret e => e.bare lp
def Exs.bare (lp : Bool) : Exs → Prop
  | .nil => True
  | .cons e es => e.bare lp ∧ es.bare lp
end

def Meth.scoped (m : Meth) : Prop := (Ex.blk m.args m.locals m.body).scoped []
def Meth.bare (m : Meth) : Prop := m.body.bare false

/-- A value that is not a block. -/
def Value.plain : Value → Prop
  | .atom _ => True
  | .obj _ => True
  | .clo .. => False

end PySOM.Clo

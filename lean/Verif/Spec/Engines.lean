import Verif.Spec.Elab
import Verif.Model.ElabAst
/-!
# Which texts both interpreters run alike

The conditions of C34 on the source (`Ex.fair`, `Body.setter`), in terms of the text: they name the constructs for which the interpreters rely on different things.
-/
set_option autoImplicit false
namespace PySOM.Elab.Spec
open PySOM PySOM.Parse PySOM.BC

/-- The literal is the integer 1. -/
def one (N : Numbers) : Tree → Prop
  | .lit (.int neg t) => ∃ i, N.int t = .ok (some i) ∧ (if neg then 0 - i else i) = 1
  | _ => False

mutual
/-- There is a block with `^` in the tree. -/
def escapes : Tree → Bool
  | .var _ => false
  | .lit _ => false
  | .send _ _ r as => escapes r || escapesL as
  | .assign _ v => escapes v
  | .block _ _ ts ex => (ex && !ts.isEmpty) || escapesL ts
def escapesL : List Tree → Bool
  | [] => false
  | t :: ts => escapes t || escapesL ts
end

mutual
/-- Where the text needs the assumptions on the system: `e + 1` (`I`), `e - 1` (`D`), `f := f + 1` (`F`), several variables assigned at once (`C`), and, in a block, a block with `^` (`N`).  There are no
literal arrays, and a block that only gives a literal or a variable does not declare variables. -/
def fairT (M : Numbers) (I D F C N : Prop) (inner : Bool) : Tree → Prop
  | .var _ => True
  | .lit (.arr _) => False
  | .lit _ => True
  | .send sup sel r as => fairT M I D F C N inner r ∧ fairL M I D F C N inner as ∧
      (sup = false → ∀ a, as = [a] → one M a → (sel = ['+'] → I)) ∧ (sup = false → sel = ['-'] → isOne as = true → D)
  | .assign xs v => xs ≠ [] ∧ fairT M I D F C N inner v ∧ (2 ≤ xs.length → C) ∧
      (∀ x a, v = .send false ['+'] (.var x) [a] → isOne [a] = true ∨ one M a → xs.getLast? = some x → F)
  | .block ps ls ts ex => fairL M I D F C N true ts ∧ (inner = true → escapes (.block ps ls ts ex) = true → N) ∧
      (ex = false → (∃ l, ts = [.lit l]) ∨ (∃ x, ts = [.var x]) → ls = [])
def fairL (M : Numbers) (I D F C N : Prop) (inner : Bool) : List Tree → Prop
  | [] => True
  | t :: ts => fairT M I D F C N inner t ∧ fairL M I D F C N inner ts
end

/-- The method is not `^ f := x`. -/
def notSetter (ts : List Tree) (ex : Bool) : Prop := ex = true → ¬ ∃ f x, ts = [.assign [f] (.var x)]

end PySOM.Elab.Spec

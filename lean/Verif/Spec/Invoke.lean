import Verif.Model.Invoke
/-!
# What sending a message is to do

Independent of entry points: what an invokable computes from the receiver and the arguments, and which invokables a send can reach.
-/
set_option autoImplicit false
namespace PySOM.Inv.Spec
open PySOM.Inv
variable {V : Type}

/-- What the code of an invokable gives for the receiver `r` and the arguments `as`, if it takes that many.  Code that works on the stack directly (`generic`) is described by its function of
receiver and arguments. -/
def value : Body V → V → List V → Option V
  | .generic f _, r, as => some (f r as)
  | .unary f, r, [] => some (f r)
  | .binary f, r, [a] => some (f r a)
  | .ternary f, r, [a, b] => some (f r a b)
  | .method f, r, as => some (f (r :: as))
  | .reader f, r, _ => some (f r)
  | .setter i f, r, as => match i with | 0 => none | j + 1 => as[j]?.map (f r)
  | _, _, _ => none

/-- The sends, by the number of receiver and arguments, that reach an invokable. -/
def Fits (e : Engine) : Kind → Nat → Prop
  | .generic, k => 4 ≤ k
  | .unary, k => k = 1
  | .binary, k => k = 2
  | .ternary, k => k = 3
  | .method, _ => True
  | .reader, k => e = .bc ∨ k ≤ 3
  | .setter, k => k = 2 ∨ k = 3

instance (e : Engine) (k : Kind) (n : Nat) : Decidable (Fits e k n) := by cases k <;> unfold Fits <;> infer_instance

/-- The invokable has code for `k` signature arguments: a setter stores one of its arguments; code on the stack takes the receiver and the arguments, and leaves its result. -/
def Sound (b : Body V) (k : Nat) : Prop :=
  match b with
  | .setter i _ => 1 ≤ i ∧ i < k
  | .generic f g => ∀ r as below, as.length + 1 = k → g (as.reverse ++ r :: below) = f r as :: below
  | _ => True

/-- The primitives that no send reaches. -/
def unreachable : Engine → List (String × String)
  | .ast => [("Block", "restart"), ("Method", "invokeOn:with:"), ("Primitive", "invokeOn:with:")]
  | .bc => [("Block", "restart")]

end PySOM.Inv.Spec

import Verif.Model.Literal
import Verif.Lemmas.ArrayHeap
/-!
# What a literal array is

Arrays are lists (`Arr.Spec.Arrays`): the content of every array, by reference.
-/
set_option autoImplicit false
namespace PySOM.BC
open PySOM

section
variable {M V E : Type} (conv : Val → Arr.Val) (ref : Nat → Val)

mutual
/-- `v` is the literal; `S` are the arrays of which it consists. -/
def IsLit (arrays : Arr.Spec.Arrays) : LitT → Val → List Nat → Prop
  | .val u, v, S => v = u ∧ S = []
  | .arr es, v, S => ∃ a xs S', v = ref a ∧ S = a :: S' ∧ arrays[a]? = some xs ∧ AreLits arrays es xs S'
/-- The elements are the literals, one by one. -/
def AreLits (arrays : Arr.Spec.Arrays) : LitTs → List Arr.Val → List Nat → Prop
  | .nil, xs, S => xs = [] ∧ S = []
  | .cons e es, xs, S => ∃ v rest S1 S2, xs = conv v :: rest ∧ S = S1 ++ S2 ∧ IsLit arrays e v S1 ∧ AreLits arrays es rest S2
end

/-- `v` is the literal, made of new arrays which are all different; all arrays there were before are as before. -/
structure FreshLit (before after : Arr.Spec.Arrays) (l : LitT) (v : Val) (S : List Nat) : Prop where
  is : IsLit conv ref after l v S
  nodup : S.Nodup
  fresh : ∀ a ∈ S, before.length ≤ a
  same : ∀ a : Nat, a < before.length → after[a]? = before[a]?

mutual
/-- Literal arrays contain neither nil nor true nor false: there is no syntax for it (`_literal`, `bc/parser.py:339-350`; these names are
identifiers). -/
def LitT.plain : LitT → Prop
  | .val v => (conv v).isSom = true ∧ conv v ≠ .nil
  | .arr es => es.plain
def LitTs.plain : LitTs → Prop
  | .nil => True
  | .cons e es => e.plain ∧ es.plain
end

/-- The global `Array` is the class `cls`, and `new:` of that class and `at:put:` of an array are the primitives
(`primitives/array_primitives.py:20-22`, `35-36`); the state consists of the arrays and the rest, which they do not touch. -/
structure HasArrays (A : World M (Arr.Heap × V) E) (err : Err → E) (cls : Val) : Prop where
  glob : ∀ w r w', A (.glob symArray) w r w' ↔ r = .val cls ∧ w' = w
  new : ∀ (n : Int) w r w', A (.send symNew [cls, .int n]) w r w' ↔
    ∃ a, (w.1.step (.new n)).2 = .array a ∧ r = .val (ref a) ∧ w' = ((w.1.step (.new n)).1, w.2)
  put : ∀ (a : Nat) (i : Int) v w r w', A (.send symAtPut [ref a, .int i, v]) w r w' ↔
    w' = ((w.1.step (.put a i (conv v))).1, w.2) ∧
    ((w.1.step (.put a i (conv v))).2 = .unit ∧ r = .val (ref a) ∨ ∃ e, (w.1.step (.put a i (conv v))).2 = .error e ∧ r = .exc (err e))
  som : ∀ a, (conv (ref a)).isSom = true

end
end PySOM.BC

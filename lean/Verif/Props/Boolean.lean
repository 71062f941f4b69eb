import Verif.Model.Boolean
/-!
# C49: booleans and identity
-/
set_option autoImplicit false
namespace PySOM.Boolean
open PySOM

namespace Spec
/-- The object of a truth value. -/
def ofBool : Bool → Obj
  | true => .tru
  | false => .fls

/-- What it means that a message with argument `x` has the value of `x`: a block is evaluated, anything else is the answer itself. -/
inductive Value : Arg → Out → Prop where
  | block (a : Nat) : Value (.block a) (.eval a)
  | obj (o : Obj) : Value (.obj o) (.answer o)

/-- The possible answers, given what the blocks answer. -/
def run (blocks : Nat → Obj) : Out → Obj
  | .answer o => o
  | .eval a => blocks a
end Spec

theorem value_iff' (x : Arg) (o : Out) : o = valueOf x ↔ Spec.Value x o := by
  constructor
  · intro h
    subst h
    cases x
    · exact .block _
    · exact .obj _
  · intro h
    cases h <;> rfl

theorem value_iff (x : Arg) (o : Out) : valueOf x = o ↔ Spec.Value x o := by
  constructor
  · intro h
    subst h
    cases x
    · exact .block _
    · exact .obj _
  · intro h
    cases h <;> rfl

/-- **C49**: `not` negates; `and:`/`&&` answer `false` for `false` without evaluating anything and the value of the argument otherwise;
`or:`/`||` answer `true` for `true` without evaluating anything and the value of the argument otherwise; `ifTrue:ifFalse:` has the value of
the chosen argument, and the other one is not evaluated. -/
theorem C49_booleans (b : Bool) (x y : Arg) (o : Out) :
    (prim b "not" [] = some o ↔ o = .answer (Spec.ofBool (!b))) ∧
    (∀ sel, sel = "and:" ∨ sel = "&&" → (prim b sel [x] = some o ↔ (b = true ∧ Spec.Value x o) ∨ (b = false ∧ o = .answer .fls))) ∧
    (∀ sel, sel = "or:" ∨ sel = "||" → (prim b sel [x] = some o ↔ (b = true ∧ o = .answer .tru) ∨ (b = false ∧ Spec.Value x o))) ∧
    (prim b "ifTrue:ifFalse:" [x, y] = some o ↔ Spec.Value (if b then x else y) o) ∧
    (prim b "ifFalse:" [x] = some o ↔ (b = true ∧ o = .answer .nil) ∨ (b = false ∧ Spec.Value x o)) ∧
    (prim true "ifTrue:" [x] = some o ↔ Spec.Value x o) ∧ prim false "ifTrue:" [x] = none := by
  refine ⟨?_, ?_, ?_, ?_, ?_, ?_, rfl⟩
  · cases b <;> simp [prim, truePrim, falsePrim, Spec.ofBool, eq_comm]
  · rintro sel (rfl | rfl) <;> cases b <;> simp [prim, truePrim, falsePrim, value_iff', eq_comm]
  · rintro sel (rfl | rfl) <;> cases b <;> simp [prim, truePrim, falsePrim, value_iff', eq_comm]
  · cases b <;> simp [prim, truePrim, falsePrim, value_iff]
  · cases b <;> simp [prim, truePrim, falsePrim, value_iff', eq_comm]
  · simp [prim, truePrim, value_iff]

/-- **C49**: with arguments that are booleans, or blocks that answer booleans, the messages are the truth functions. -/
theorem C49_truth_tables (blocks : Nat → Obj) (b c : Bool) (x : Arg) (hx : Spec.run blocks (valueOf x) = Spec.ofBool c) :
    (prim b "not" []).map (Spec.run blocks) = some (Spec.ofBool (!b)) ∧
    (prim b "and:" [x]).map (Spec.run blocks) = some (Spec.ofBool (b && c)) ∧
    (prim b "&&" [x]).map (Spec.run blocks) = some (Spec.ofBool (b && c)) ∧
    (prim b "or:" [x]).map (Spec.run blocks) = some (Spec.ofBool (b || c)) ∧
    (prim b "||" [x]).map (Spec.run blocks) = some (Spec.ofBool (b || c)) := by
  cases b <;> simp [prim, truePrim, falsePrim, hx] <;> exact ⟨rfl, rfl⟩

example : (prim true "and:" [.block 7]).map (Spec.run fun a => if a = 7 then .fls else .nil) = some .fls := rfl
example : prim false "and:" [.block 7] = some (.answer .fls) ∧ prim true "ifTrue:ifFalse:" [.block 7, .block 8] = some (.eval 7) := ⟨rfl, rfl⟩

/-- **C49**: `==` of `Object` is identity: `true` exactly for the same object, reflexive, symmetric and transitive. -/
theorem C49_identity (a b c : Obj) :
    (identical a b = .tru ↔ a = b) ∧ (identical a b = .fls ↔ a ≠ b) ∧ identical a a = .tru ∧ identical a b = identical b a ∧
    (identical a b = .tru → identical b c = .tru → identical a c = .tru) := by
  unfold identical
  refine ⟨by split <;> simp_all, by split <;> simp_all, by simp, by by_cases h : a = b <;> simp [h, eq_comm], fun h1 h2 => ?_⟩
  split at h1
  · split at h2
    · simp_all
    · cases h2
  · cases h1

example : identical (.other 3) (.other 3) = .tru ∧ identical (.other 3) (.other 4) = .fls ∧ identical .nil .nil = .tru := by decide
end PySOM.Boolean

import Verif.Model.Reflect
/-!
# Specification: classes as programs are to see them

A class is the list of the names of its fields, those of the superclass first, and the list of its methods; only loading adds classes, and nothing changes them.
-/
set_option autoImplicit false
namespace PySOM.Reflect

/-- Names of fields and methods. -/
abbrev View := List (List Name × List Nat)

/-- The names of the fields that a new class has. -/
def View.names (v : View) (sup : Option Nat) : List Name := match sup with
  | some s => (v[s]?.map (·.1)).getD []
  | none => []

/-- What an operation does to the classes. -/
def View.after (v : View) : Op → View
  | .load sup ds ms => v ++ [(v.names sup ++ ds, ms)]
  | _ => v

/-- The world shows these classes. -/
structure Shows (w : World) (v : View) : Prop where
  count : w.classes.length = v.length
  names : ∀ (c : Nat) (x : List Name × List Nat), v[c]? = some x → ∃ a, w.fields c = some a ∧ w.arrays[a]? = some (x.1.map .sym)
  methods : ∀ (c : Nat) (x : List Name × List Nat), v[c]? = some x → ∃ y, w.classes[c]? = some y ∧ y.methods = x.2

/-- The operation does not store into an array that `fields` answers. -/
def Harmless (w : World) : Op → Prop
  | .put a _ _ => ∀ c, w.fields c ≠ some a
  | _ => True

/-- None of the operations does. -/
def AllHarmless : World → List Op → Prop
  | _, [] => True
  | w, op :: ops => Harmless w op ∧ AllHarmless (step w op).2 ops

end PySOM.Reflect

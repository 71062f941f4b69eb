import Verif.Model.Prims
/-!
# What lasts

What a program can rely on about an object that it once had, whatever runs in between.
-/
set_option autoImplicit false
namespace PySOM.Mach
open PySOM BC

section
variable {F : Type}

/-- The contents of an object can only change where a program can store something: an array stays an array with the same length; strings, doubles, big integers and classes do not change at all. -/
def Data.Lasts : Data F → Data F → Prop
  | .arr vs, .arr vs' => vs'.length = vs.length
  | .arr _, _ => False
  | x, y => y = x

/-- An object stays what it is: an instance of the same class with as many fields; a block stays the same block, with the same context; other objects keep their class and what lasts of their contents. -/
def Obj.Lasts : Obj (Data F) → Obj (Data F) → Prop
  | .inst c fs, .inst c' fs' => c' = c ∧ fs'.length = fs.length
  | .block id ctx h, .block id' ctx' h' => id' = id ∧ ctx' = ctx ∧ h' = h
  | .data c x, .data c' x' => c' = c ∧ x.Lasts x'
  | _, _ => False

/-- From one moment to a later one: every object is still there and stays what it is, a global that has a value keeps having one, and what was written to the outputs stays written. -/
structure Lasting (old new : Mem F) : Prop where
  objs : ∀ (a : Nat) (o : Obj (Data F)), old.objs[a]? = some o → ∃ o', new.objs[a]? = some o' ∧ o.Lasts o'
  globals : ∀ g, (old.globals g).isSome → (new.globals g).isSome
  out : old.ext.out <+: new.ext.out
  err : old.ext.err <+: new.ext.err

end
end PySOM.Mach

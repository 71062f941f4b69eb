import Verif.Model.ParserClass
import Verif.Model.Universe
/-!
# Class files with their texts

`Model/Universe.lean` takes class files as already read, with numbers in the place of the bodies of methods.  Here they come from the trees that the parser makes of the texts (`Model/ParserClass.lean`).
-/
set_option autoImplicit false
namespace PySOM.Boot
open PySOM.Parse (ClassText Method)

/-- The fields and methods of one side (`parser.py:80-118`, `class_generation_context.py:51-71`); `num` numbers the bodies in the order of the text.  Methods that are declared as primitive have none. -/
def sideOf (num : Nat → Nat) (fields : List Name) (ms : List Method) : Side := ⟨fields, ms.zipIdx.map fun x => (x.1.sel, x.1.impl.map fun _ => num x.2)⟩

/-- The fields and methods of the class side; there need not be one (`parser.py:100-116`). -/
def classSide (d : ClassText) : List Name × List Method := d.cls.getD ([], [])

/-- What the universe sees of a text that was read to its end. -/
def textOf (num : Bool → Nat → Nat) (d : ClassText) : Text :=
  ⟨some (d.name, d.super), some (sideOf (num false) d.fields d.meths, sideOf (num true) (classSide d).1 (classSide d).2)⟩

end PySOM.Boot

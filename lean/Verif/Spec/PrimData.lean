import Verif.Spec.Prims
/-!
# Messages about data: what they should do
-/
set_option autoImplicit false
namespace PySOM.Mach
open PySOM BC

section
variable {ι F : Type}

/-- The value is a string or a symbol with this text. -/
def IsText (sh : Mem F) (v : Val) (s : List Char) : Prop := v = .sym s ∨ ∃ (a c : Nat), v = .obj a ∧ sh.objs[a]? = some (.data c (.str s))

/-- The value is a string, not a symbol. -/
def IsString (I : Image ι) (sh : Mem F) (v : Val) (s : List Char) : Prop := ∃ a : Nat, v = .obj a ∧ sh.objs[a]? = some (.data I.strCls (.str s))

/-- With one more object. -/
def St.plus (w : St (Data F) Printed) (o : Obj (Data F)) : St (Data F) Printed := { w with sh := { w.sh with objs := w.sh.objs ++ [o] } }

/-- With another object in a place. -/
def St.upd (w : St (Data F) Printed) (a : Nat) (o : Obj (Data F)) : St (Data F) Printed := { w with sh := { w.sh with objs := w.sh.objs.set a o } }

/-- With another value of a global. -/
def St.globally (w : St (Data F) Printed) (g : Sel) (v : Val) : St (Data F) Printed := { w with sh := { w.sh with globals := fun x => if x = g then some v else w.sh.globals x } }

/-- With more output. -/
def St.says (w : St (Data F) Printed) (s : List Char) : St (Data F) Printed := { w with sh := { w.sh with ext := { w.sh.ext with out := w.sh.ext.out ++ s } } }

end
end PySOM.Mach

import Verif.Spec.Universe
/-!
# Specification: the method that a class finds
-/
set_option autoImplicit false
namespace PySOM.Boot

/-- The class has this method, or it has none with this selector and its superclass finds it. -/
inductive Finds (u : U) (sel : Name) : Cid → Entry → Prop where
  | own (c : Cid) (e : Entry) (h : (u.at c).method sel = some e) : Finds u sel c e
  | up (c s : Cid) (e : Entry) (h : (u.at c).method sel = none) (hs : (u.at c).sup = some s) (h' : Finds u sel s e) : Finds u sel c e

end PySOM.Boot

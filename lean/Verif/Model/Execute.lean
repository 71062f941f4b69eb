import Verif.Model.ClassFiles
import Verif.Spec.Universe
/-!
# `execute_method`: calling one method of a class from Python
-/
set_option autoImplicit false
namespace PySOM.Boot

/-- What `execute_method` does: an exception of the start or of the loading, one of the two exceptions of its own, or it calls `invoke_1` of a method with a class. -/
inductive Executed where
  | fails (e : Err)
  | noClass
  | noMethod
  | noSuchKind
  | runs (method : Entry) (on : Cid)
  deriving DecidableEq, Repr

/-- `lookup_invokable` (`vmobjects/clazz.py:93-110`), without the entries that it makes for inherited methods (C17). -/
def U.find (u : U) (c : Cid) (sel : Name) : Option Entry := (u.chain c).findSome? fun d => (u.at d).method sel

/-- `execute_method` (`universe.py:113-124`).  `noSuchKind`: the global with the name of the class is an object that is no class, which is left out.  This is the first call: a second one would start the system again, over what is there. -/
def executeMethod (env : Env) (k : Nat) (n sel : Name) : Executed × U :=
  match boot env k ⟨[], []⟩ with
  | (.error e, u) => (.fails e, u)
  | (.ok s, u) =>
    match loadClass s.meta env k n u with
    | (.error e, u) => (.fails e, u)
    | (.ok .none, u) => (.noClass, u)
    | (.ok (.obj _), u) => (.noSuchKind, u)
    | (.ok (.cls c), u) =>
      match (u.at c).cls with
      | none => (.fails .attribute, u)
      | some m =>
        match u.find m sel with
        | none => (.noMethod, u)
        | some e => (.runs e c, u)

end PySOM.Boot

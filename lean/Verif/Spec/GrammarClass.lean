import Verif.Spec.Grammar
import Verif.Model.ParserClass
/-!
# The grammar of class definitions

`Name = Superclass ( | fields | methods ---- | fields | methods )`, as derivations.
-/
set_option autoImplicit false
namespace PySOM.Parse.Grammar
open PySOM.Lex PySOM.Parse

/-- Sequences of methods. -/
inductive GMethods (D : Dialect) : List Tok → List Method → Prop
  | nil : GMethods D [] []
  | cons {ts us : List Tok} {m : Method} {ms : List Method} : GMethod D ts m → GMethods D us ms → GMethods D (ts ++ us) (m :: ms)

/-- Fields and methods.  With `first`, a bar at the beginning always begins the declaration of fields, so that without fields the first method cannot be `|`. -/
inductive GSide (D : Dialect) (first : Bool) : List Tok → List Name → List Method → Prop
  | mk {fs ts : List Tok} {xs : List Name} {ms : List Method} : LocalsDecl fs xs → GMethods D ts ms →
      (first = true → fs = [] → ∀ t ∈ ts.head?, t.sym ≠ .or) → GSide D first (fs ++ ts) xs ms

/-- A name of the superclass, or nothing. -/
inductive GSuper : List Tok → Option Name → Prop
  | none : GSuper [] none
  | some {t : Tok} : t.sym = .identifier → GSuper [t] (some t.text)

/-- Nothing, or the separator and the class side. -/
inductive GClassSide (D : Dialect) (first : Bool) : List Tok → Option (List Name × List Method) → Prop
  | none : GClassSide D first [] none
  | some {p : Tok} {ts : List Tok} {xs : List Name} {ms : List Method} : p.sym = .separator → GSide D first ts xs ms → GClassSide D first (p :: ts) (some (xs, ms))

/-- Class definitions. -/
inductive GClass (D : Dialect) (first : Bool) : List Tok → ClassText → Prop
  | mk {n q o c : Tok} {ss ts us : List Tok} {sup : Option Name} {xs : List Name} {ms : List Method} {cls : Option (List Name × List Method)} :
      n.sym = .identifier → q.sym = .equal → GSuper ss sup → o.sym = .newTerm → GSide D first ts xs ms → GClassSide D first us cls → c.sym = .endTerm →
      GClass D first (n :: q :: (ss ++ o :: (ts ++ (us ++ [c])))) ⟨n.text, sup, xs, ms, cls⟩

end PySOM.Parse.Grammar

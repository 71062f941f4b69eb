import Verif.Spec.ClassFiles
import Verif.Model.Texts
import Verif.Props.Engines
/-!
# Programs given by the texts of their class files
-/
set_option autoImplicit false
namespace PySOM.Boot
open PySOM.Parse (ClassText Method)
open PySOM.Lex (Classes)
open PySOM.Elab (IsClass IsClassAst Method2 Numbers)
open PySOM.BC (Sel LitTs Val Code Meth SMethod AMethod Compiled2)

/-- The text of a class: that of the first directory of the class path with a file of this name. -/
inductive TextOf (texts : Nat → Name → Option (List Char)) (n : Name) : List Nat → Nat → List Char → Prop where
  | here (p : Nat) (ps : List Nat) (t : List Char) (h : texts p n = some t) : TextOf texts n (p :: ps) p t
  | later (q : Nat) (ps : List Nat) (p : Nat) (t : List Char) (h : texts q n = none) (h' : TextOf texts n ps p t) : TextOf texts n (q :: ps) p t

/-- The methods of one side of a class. -/
def methodsOf (onClass : Bool) (d : ClassText) : List Method := if onClass then (match d.cls with | some c => c.2 | none => []) else d.meths

/-- The fields that one side of a class declares. -/
def fieldsIn (onClass : Bool) (d : ClassText) : List Name := if onClass then (match d.cls with | some c => c.1 | none => []) else d.fields

/-- The superclass of a class: `Object` if the text names none, and none if it names `nil`. -/
def superIn (d : ClassText) : Option Name :=
  match d.super with
  | none => some "Object".toList
  | some s => if s = "nil".toList then none else some s

/-- The `j`-th method is the last one with this selector. -/
def LastAt (ms : List Method) (sel : Name) (j : Nat) (m : Method) : Prop := ms[j]? = some m ∧ m.sel = sel ∧ ∀ (k : Nat) (m' : Method), j < k → ms[k]? = some m' → m'.sel ≠ sel

/-- The files of the class path have these texts, and both parsers read them.  Where one cannot be read to its end, nothing is said about it.  `num` numbers the bodies of the methods: that of the `j`-th method on one
side of the class in the file `n` in the directory `p` is `num p n onClass j`. -/
structure Reads (K : Classes) (texts : Nat → Name → Option (List Char)) (num : Nat → Name → Bool → Nat → Nat) (env : Env) : Prop where
  none : ∀ p n, texts p n = none → env.files p n = none
  some : ∀ p n t, texts p n = some t → ∃ x, env.files p n = some x ∧ ∀ r, x.rest = some r → ∃ d, IsClass K t d ∧ IsClassAst K t d ∧ x = textOf (num p n) d

/-- The methods of the files that are read to their ends have been compiled, for both interpreters, in classes with the fields that the files say.  (All numbers stand for some method.) -/
structure Bodies (K : Classes) (M : Numbers) (D N : Prop) (known : Sel → Bool) (alloc : LitTs → Val) (k : Nat) (texts : Nat → Name → Option (List Char)) (num : Nat → Name → Bool → Nat → Nat) (env : Env)
    (src2 : Nat → SMethod) (q : Compiled2 Nat) : Prop where
  each : ∀ i, ∃ text fields m, Method2 K M True D True False N known alloc k text fields m (q.src i) (src2 i) (q.code i) (q.tree i)
  here : ∀ p n t d b j m fs, TextOf texts n env.classpath p t → IsClass K t d → env.files p n = some (textOf (num p n) d) → (methodsOf b d)[j]? = some m → m.impl.isSome = true → Fields env ⟨b, n⟩ fs →
    Method2 K M True D True False N known alloc k t fs m (q.src (num p n b j)) (src2 (num p n b j)) (q.code (num p n b j)) (q.tree (num p n b j))

end PySOM.Boot

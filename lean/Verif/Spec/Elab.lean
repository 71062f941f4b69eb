import Verif.Model.Elab
import Verif.Spec.Program
/-!
# What the names of a text mean

A name means the variable of the innermost declaration around it: in a method or block the local variables, then the parameters, then what the name means around it.  A name that is
not declared means a field, if there is one, and otherwise a global.

Variables are numbered in the order of their declarations: the receiver of the method is 0, then its parameters and local variables; a block takes one number for itself and one for its receiver,
then those for its parameters and local variables.
-/
set_option autoImplicit false
namespace PySOM.Elab.Spec
open PySOM PySOM.Parse PySOM.BC

/-- What the declared names mean, the innermost declarations first. -/
abbrev Env := List (Name × Nat)

mutual
/-- How many numbers a tree takes. -/
def decls : Tree → Nat
  | .var _ => 0
  | .lit _ => 0
  | .send _ _ r as => decls r + declsL as
  | .assign _ v => decls v
  | .block ps ls ts _ => 2 + ps.length + ls.length + declsL ts
def declsL : List Tree → Nat
  | [] => 0
  | t :: ts => decls t + declsL ts
end

/-- Reading a name. -/
def reads (fields : List Name) (Γ : Env) (x : Name) : List Access :=
  match Γ.lookup x with
  | some v => [.read (some v)]
  | none =>
    match fields.idxOf? x with
    | some i => [.readFld i (some 0)]
    | none => []

/-- Assigning to a name, which is a variable or a field. -/
def writes (fields : List Name) (Γ : Env) (x : Name) : List Access :=
  match Γ.lookup x with
  | some v => [.write (some v)]
  | none =>
    match fields.idxOf? x with
    | some i => [.writeFld i (some 0)]
    | none => []

mutual
/-- The accesses of a tree, from left to right; the declarations in it have the numbers from `n` on. -/
def uses (fields : List Name) (Γ : Env) (n : Nat) : Tree → List Access
  | .var x => reads fields Γ x
  | .lit _ => []
  | .send _ _ r as => uses fields Γ n r ++ usesL fields Γ (n + decls r) as
  | .assign xs v => uses fields Γ n v ++ xs.flatMap (writes fields Γ)
  | .block ps ls ts _ => usesL fields (ls.zipIdx (n + 2 + ps.length) ++ (ps.zipIdx (n + 2) ++ Γ)) (n + 2 + ps.length + ls.length) ts
def usesL (fields : List Name) (Γ : Env) (n : Nat) : List Tree → List Access
  | [] => []
  | t :: ts => uses fields Γ n t ++ usesL fields Γ (n + decls t) ts
end

/-- The accesses of a method. -/
def methodUses (fields params locals : List Name) (ts : List Tree) : List Access :=
  usesL fields (locals.zipIdx (params.length + 1) ++ (selfName :: params).zipIdx 0) (params.length + 1 + locals.length) ts

/-- The access is more than reading the receiver. -/
def notSelf (a : Access) : Bool := decide (a ≠ .read (some 0))

mutual
/-- Messages have as many arguments as their selectors say. -/
def arity : Tree → Prop
  | .var _ => True
  | .lit _ => True
  | .send _ sel r as => arity r ∧ arityL as ∧ Sym.numberOfSignatureArguments sel = as.length + 1
  | .assign _ v => arity v
  | .block _ _ ts _ => arityL ts
def arityL : List Tree → Prop
  | [] => True
  | t :: ts => arity t ∧ arityL ts
end

mutual
/-- The symbol `#ArraySizeLiteralPlaceholder` does not occur in the literal. -/
def noPh : Parse.Lit → Prop
  | .sym x => x ≠ symPlaceholder
  | .arr es => noPhL es
  | _ => True
def noPhL : List Parse.Lit → Prop
  | [] => True
  | e :: es => noPh e ∧ noPhL es
end

mutual
/-- The symbol `#ArraySizeLiteralPlaceholder` does not occur in literal arrays. -/
def plain : Tree → Prop
  | .var _ => True
  | .lit (.arr es) => noPhL es
  | .lit _ => True
  | .send _ _ r as => plain r ∧ plainL as
  | .assign _ v => plain v
  | .block _ _ ts _ => plainL ts
def plainL : List Tree → Prop
  | [] => True
  | t :: ts => plain t ∧ plainL ts
end

mutual
/-- All names in a tree. -/
def names : Tree → List Name
  | .var x => [x]
  | .lit _ => []
  | .send _ _ r as => names r ++ namesL as
  | .assign xs v => xs ++ names v
  | .block ps ls ts _ => ps ++ ls ++ namesL ts
def namesL : List Tree → List Name
  | [] => []
  | t :: ts => names t ++ namesL ts
end

mutual
/-- The local variables of the blocks in a tree. -/
def blockLocals : Tree → List Name
  | .var _ => []
  | .lit _ => []
  | .send _ _ r as => blockLocals r ++ blockLocalsL as
  | .assign _ v => blockLocals v
  | .block _ ls ts _ => ls ++ blockLocalsL ts
def blockLocalsL : List Tree → List Name
  | [] => []
  | t :: ts => blockLocals t ++ blockLocalsL ts
end

/-- The methods of a class, on both sides. -/
def allMethods (d : ClassText) : List Method := d.meths ++ (match d.cls with | some c => c.2 | none => [])

/-! ## Which trees are accepted -/

/-- Parameters are different from each other, and none is `self`. -/
def ParamsOk (ps : List Name) : Prop := ps.Nodup ∧ selfName ∉ ps

mutual
/-- Assignments are to declared variables or fields, and no declaration declares a name twice.  `D` are the declared names. -/
def Valid (fields D : List Name) : Tree → Prop
  | .var _ => True
  | .lit _ => True
  | .send _ _ r as => Valid fields D r ∧ ValidL fields D as
  | .assign xs v => Valid fields D v ∧ ∀ x ∈ xs, x ∈ D ∨ x ∈ fields
  | .block ps ls ts _ => ParamsOk ps ∧ ls.Nodup ∧ ValidL fields (ls ++ ps ++ D) ts
def ValidL (fields D : List Name) : List Tree → Prop
  | [] => True
  | t :: ts => Valid fields D t ∧ ValidL fields D ts
end

/-- The same for methods. -/
def ValidMethod (fields params locals : List Name) (ts : List Tree) : Prop :=
  ParamsOk params ∧ locals.Nodup ∧ ValidL fields (locals ++ (selfName :: params)) ts

end PySOM.Elab.Spec

import Verif.Spec.Elab
/-!
# A source is written as a text

What a method with resolved names must look like for a given text: the same messages, in the same order and nested the same way, with each name replaced by what it means.  A name means the innermost declaration
of it; in one scope the local variables come before the parameters; a name that is not declared is a field, and otherwise a global.  Numbers that fit, and symbols, are themselves; every other literal is an object,
and `O` says for each object which literal it is.
-/
set_option autoImplicit false
namespace PySOM.Elab.Spec
open PySOM PySOM.Parse PySOM.BC

/-- What a method or block declares.  The first parameter is the receiver. -/
structure Decl where
  params : List Name
  locals : List Name

/-- The first occurrence of the name is at `i`. -/
def At (xs : List Name) (x : Name) (i : Nat) : Prop := xs[i]? = some x ∧ ∀ j, j < i → xs[j]? ≠ some x

/-- The name is declared here. -/
def Decl.has (d : Decl) (x : Name) : Prop := x ∈ d.params ∨ x ∈ d.locals

/-- It is number `i` of the local variables, or of the parameters if `arg`. -/
def Decl.as (d : Decl) (x : Name) (arg : Bool) (i : Nat) : Prop := if arg then x ∉ d.locals ∧ At d.params x i else At d.locals x i

/-- The name means a variable that is declared `l` scopes out, and not further in. -/
def Names (ds : List Decl) (x : Name) (arg : Bool) (i l : Nat) : Prop :=
  (∃ d, ds[l]? = some d ∧ d.as x arg i) ∧ ∀ (j : Nat) (d : Decl), j < l → ds[j]? = some d → ¬ d.has x

/-- The name is not declared. -/
def Undeclared (ds : List Decl) (x : Name) : Prop := ∀ d ∈ ds, ¬ d.has x

mutual
/-- A literal. -/
inductive LitIs (N : Numbers) (O : Nat → Option Parse.Lit) : Parse.Lit → LitT → Prop where
  | int (neg : Bool) (t : Name) (i : Int) (h : N.int t = .ok (some i)) : LitIs N O (.int neg t) (.val (.int (if neg then -i else i)))
  | big (neg : Bool) (t : Name) (o : Nat) (h : N.int t = .ok none) (ho : O o = some (.int neg t)) : LitIs N O (.int neg t) (.val (.obj o))
  | dbl (neg : Bool) (t : Name) (o : Nat) (ho : O o = some (.dbl neg t)) : LitIs N O (.dbl neg t) (.val (.obj o))
  | str (t : Name) (o : Nat) (ho : O o = some (.str t)) : LitIs N O (.str t) (.val (.obj o))
  | sym (t : Name) : LitIs N O (.sym t) (.val (.sym t))
  | arr (es : List Parse.Lit) (es' : LitTs) (h : LitsAre N O es es') : LitIs N O (.arr es) (.arr es')
/-- The elements of a literal array. -/
inductive LitsAre (N : Numbers) (O : Nat → Option Parse.Lit) : List Parse.Lit → LitTs → Prop where
  | nil : LitsAre N O [] .nil
  | cons (e : Parse.Lit) (e' : LitT) (es : List Parse.Lit) (es' : LitTs) (h : LitIs N O e e') (hs : LitsAre N O es es') : LitsAre N O (e :: es) (.cons e' es')
end

/-- What is assigned to: a variable or a field. -/
inductive TgtIs (fields : List Name) (ds : List Decl) : Name → Tgt → Prop where
  | var (x : Name) (arg : Bool) (i l : Nat) (h : Names ds x arg i l) : TgtIs fields ds x (.var x arg i l)
  | fld (x : Name) (i : Nat) (h : Undeclared ds x) (hi : At fields x i) : TgtIs fields ds x (.fld x i)

inductive TgtsAre (fields : List Name) (ds : List Decl) : List Name → List Tgt → Prop where
  | nil : TgtsAre fields ds [] []
  | cons (x : Name) (t : Tgt) (xs : List Name) (ts : List Tgt) (h : TgtIs fields ds x t) (hs : TgtsAre fields ds xs ts) : TgtsAre fields ds (x :: xs) (t :: ts)

mutual
/-- An expression. -/
inductive Is (N : Numbers) (O : Nat → Option Parse.Lit) (fields : List Name) : List Decl → Tree → Ex SBlock → Prop where
  | var (ds : List Decl) (x : Name) (arg : Bool) (i l : Nat) (h : Names ds x arg i l) : Is N O fields ds (.var x) (.var arg i l)
  | fld (ds : List Decl) (x : Name) (i : Nat) (h : Undeclared ds x) (hi : At fields x i) : Is N O fields ds (.var x) (.fld x i)
  | glob (ds : List Decl) (x : Name) (h : Undeclared ds x) (hx : x ∉ fields) : Is N O fields ds (.var x) (.glob x)
  | lit (ds : List Decl) (l : Parse.Lit) (l' : LitT) (h : LitIs N O l l') : Is N O fields ds (.lit l) (.lit l')
  | send (ds : List Decl) (sel : Name) (r : Tree) (r' : Ex SBlock) (as : List Tree) (as' : Exs SBlock) (hr : Is N O fields ds r r') (ha : AreArgs N O fields ds as as') :
      Is N O fields ds (.send false sel r as) (.send sel r' as')
  | super (ds : List Decl) (sel : Name) (r : Tree) (r' : Ex SBlock) (as : List Tree) (as' : Exs SBlock) (hr : Is N O fields ds r r') (ha : AreArgs N O fields ds as as') :
      Is N O fields ds (.send true sel r as) (.superSend sel r' as')
  /-- `r + 1` -/
  | inc (ds : List Decl) (r : Tree) (r' : Ex SBlock) (hr : Is N O fields ds r r') : Is N O fields ds (.send false ['+'] r [.lit (.int false ['1'])]) (.inc r')
  /-- `r - 1` -/
  | dec (ds : List Decl) (r : Tree) (r' : Ex SBlock) (hr : Is N O fields ds r r') : Is N O fields ds (.send false ['-'] r [.lit (.int false ['1'])]) (.dec r')
  | assign (ds : List Decl) (x : Name) (xs : List Name) (t : Tgt) (ts : List Tgt) (v : Tree) (v' : Ex SBlock) (hv : Is N O fields ds v v') (ht : TgtsAre fields ds (x :: xs) (t :: ts)) :
      Is N O fields ds (.assign (x :: xs) v) (.asg t ts v')
  | value (ds : List Decl) (v : Tree) (v' : Ex SBlock) (hv : Is N O fields ds v v') : Is N O fields ds (.assign [] v) v'
  | block (ds : List Decl) (ps ls : List Name) (ts : List Tree) (ex : Bool) (id : Nat) (args env : List Nat) (b : Body SBlock) (ha : args.length = ps.length + 1) (he : env.length = ls.length)
      (hb : AreStmts N O fields true (⟨blockSelf :: ps, ls⟩ :: ds) ex ts b) : Is N O fields ds (.block ps ls ts ex) (.blk false (.mk id args env b))
/-- Arguments. -/
inductive AreArgs (N : Numbers) (O : Nat → Option Parse.Lit) (fields : List Name) : List Decl → List Tree → Exs SBlock → Prop where
  | nil (ds : List Decl) : AreArgs N O fields ds [] .nil
  | cons (ds : List Decl) (a : Tree) (a' : Ex SBlock) (as : List Tree) (as' : Exs SBlock) (h : Is N O fields ds a a') (hs : AreArgs N O fields ds as as') :
      AreArgs N O fields ds (a :: as) (.cons a' as')
/-- Statements; `ex` says that there is `^` before the last one. -/
inductive AreStmts (N : Numbers) (O : Nat → Option Parse.Lit) (fields : List Name) : Bool → List Decl → Bool → List Tree → Body SBlock → Prop where
  | none (isBlock : Bool) (ds : List Decl) (ex : Bool) : AreStmts N O fields isBlock ds ex [] .done
  | last (isBlock : Bool) (ds : List Decl) (t : Tree) (e : Ex SBlock) (h : Is N O fields ds t e) : AreStmts N O fields isBlock ds false [t] (.last e)
  | stmt (isBlock : Bool) (ds : List Decl) (ex : Bool) (t : Tree) (e : Ex SBlock) (ts : List Tree) (b : Body SBlock) (h : Is N O fields ds t e) (hs : AreStmts N O fields isBlock ds ex ts b)
      (hx : ts = [] → ex = false) : AreStmts N O fields isBlock ds ex (t :: ts) (.stmt e b)
  | exit (isBlock : Bool) (ds : List Decl) (t : Tree) (e : Ex SBlock) (h : Is N O fields ds t e) : AreStmts N O fields isBlock ds true [t] (.exit e)
  /-- `^ self` in a method, where the name means the receiver -/
  | exitSelf (ds : List Decl) (h : Names ds selfName true 0 0) : AreStmts N O fields false ds true [.var selfName] .exitSelf
end

/-- A method. -/
structure IsMethod (N : Numbers) (O : Nat → Option Parse.Lit) (fields params locals : List Name) (ts : List Tree) (ex : Bool) (s : SMethod) : Prop where
  args : s.args.length = params.length + 1
  env : s.env.length = locals.length
  stmts : AreStmts N O fields false [⟨selfName :: params, locals⟩] ex ts s.body

end PySOM.Elab.Spec

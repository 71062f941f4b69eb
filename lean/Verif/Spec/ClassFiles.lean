import Verif.Spec.Universe
/-!
# What class files say about messages

Only names and texts: which methods a file defines, which class is above, and so which method a message to an instance of a class should run.
-/
set_option autoImplicit false
namespace PySOM.Boot

/-- The classes that the VM makes itself, with the superclasses that it gives them. -/
def ownClasses : List (Name × Option Name) :=
  [("Object".toList, none), ("Class".toList, some "Object".toList), ("Metaclass".toList, some "Class".toList), ("Nil".toList, some "Object".toList), ("Array".toList, some "Object".toList),
   ("Method".toList, some "Object".toList), ("String".toList, some "Object".toList), ("Symbol".toList, some "String".toList), ("Integer".toList, some "Object".toList),
   ("Primitive".toList, some "Object".toList), ("Double".toList, some "Object".toList)]

/-- The superclass of the class with this name. -/
def superOf (env : Env) (n : Name) : Option Name :=
  match List.lookup n ownClasses with
  | some s => s
  | none => (source env n).bind Text.super

/-- One side of a pair: the second is the side of the class. -/
def pick {α : Type} (onClass : Bool) (p : α × α) : α := if onClass then p.2 else p.1

/-- The classes of blocks, with the evaluation primitives. -/
def blocks : List (Name × Name) := [("Block1".toList, "value".toList), ("Block2".toList, "value:".toList), ("Block3".toList, "value:with:".toList)]

/-- The selectors for which the VM has primitives that it enters into the class with this name, on both sides: blocks have their evaluation primitives only, the classes that the VM
makes itself, `True` and `False` all that there are, other classes all if the file declares some primitive. -/
def vmOf (env : Env) (n : Name) (i cl : Side) : List Name × List Name :=
  match List.lookup n blocks with
  | some v => ([v], [])
  | none => if (List.lookup n ownClasses).isSome || n == "True".toList || n == "False".toList || i.prims || cl.prims then (env.known n).getD ([], []) else ([], [])

/-- A class with its name, or (`onClass`) the class of that class. -/
structure Desc where
  onClass : Bool
  name : Name
  deriving DecidableEq

/-- The name of the class. -/
def Desc.full (d : Desc) : Name := if d.onClass then className d.name else d.name

/-- What a side with these methods and these primitives of the VM has for a selector. -/
def entryOf (vm : List Name) (side : Side) (sel : Name) : Option Kind :=
  if sel ∈ vm then some .vm else (lastMeth side.meths sel).map fun b => match b with | some b => .code b | none => .empty

/-- What the class has itself for a selector: a primitive of the VM, or what is last in its file. -/
def declares (env : Env) (d : Desc) (sel : Name) : Option Kind :=
  match (source env d.name).bind Text.rest with
  | none => none
  | some p => entryOf (pick d.onClass (vmOf env d.name p.1 p.2)) (pick d.onClass p) sel

/-- What is above: the superclass; for the class of a class, the class of its superclass; and `Class` for that of `Object`. -/
def above (env : Env) (d : Desc) : Option Desc :=
  match superOf env d.name with
  | some n => some ⟨d.onClass, n⟩
  | none => if d.onClass then some ⟨false, "Class".toList⟩ else none

/-- What the texts say about a message to an instance of `d`: what the nearest class has, or that none has it. -/
inductive Says (env : Env) (sel : Name) : Desc → Option (Desc × Kind) → Prop where
  | own (d : Desc) (k : Kind) (h : declares env d sel = some k) : Says env sel d (some (d, k))
  | up (d d' : Desc) (r : Option (Desc × Kind)) (h : declares env d sel = none) (ha : above env d = some d') (h' : Says env sel d' r) : Says env sel d r
  | none (d : Desc) (h : declares env d sel = Option.none) (ha : above env d = Option.none) : Says env sel d Option.none

/-- There is a file for the class, and it is read to its end. -/
def Filed (env : Env) (n : Name) : Prop := ∃ p, (source env n).bind Text.rest = some p

/-- The fields that the files give to instances of `d`, those of the class above first.  The classes that the VM makes itself have none. -/
inductive Fields (env : Env) : Desc → List Name → Prop where
  | own (d : Desc) (h : (List.lookup d.name ownClasses).isSome = true) : Fields env d []
  | sub (d : Desc) (n : Name) (p : Side × Side) (fs : List Name) (h : List.lookup d.name ownClasses = none) (hs : superOf env d.name = some n) (hp : (source env d.name).bind Text.rest = some p)
      (h' : Fields env ⟨d.onClass, n⟩ fs) : Fields env d (fs ++ (pick d.onClass p).fields)

/-- The files of the classes that the VM makes itself declare no fields, and name the superclasses that the VM gives to them. -/
def NoFields (env : Env) : Prop := ∀ e ∈ ownClasses, ∀ t, source env e.1 = some t → t.super = e.2 ∧ ∀ p, t.rest = some p → p.1.fields = [] ∧ p.2.fields = []

/-- The class `c` is the one that the texts describe: there is a file, it has the name, its methods are those of the file, its fields are those of the files if the classes of the VM have none, and
so on for its superclasses. -/
inductive Described (env : Env) (u : U) : Desc → Cid → Prop where
  | top (d : Desc) (c : Cid) (hn : (u.at c).name = some (if d.onClass then className d.name else d.name)) (hf : Filed env d.name) (ht : ∀ sel, (u.at c).method sel = (declares env d sel).map fun k => ⟨sel, k, c⟩)
      (hl : NoFields env → ∃ fs, (u.at c).fields = some fs ∧ Fields env d fs)
      (hs : (u.at c).sup = none) (ha : above env d = none) : Described env u d c
  | sub (d d' : Desc) (c s : Cid) (hn : (u.at c).name = some (if d.onClass then className d.name else d.name)) (hf : Filed env d.name) (ht : ∀ sel, (u.at c).method sel = (declares env d sel).map fun k => ⟨sel, k, c⟩)
      (hl : NoFields env → ∃ fs, (u.at c).fields = some fs ∧ Fields env d fs)
      (hs : (u.at c).sup = some s) (ha : above env d = some d') (h : Described env u d' s) : Described env u d c

/-- The class with the name `m` is that with the name `n` or above it. -/
inductive Over (env : Env) : Name → Name → Prop where
  | refl (n : Name) : Over env n n
  | step (n s m : Name) (h : superOf env n = some s) (h' : Over env s m) : Over env n m

/-- No name above is in `P`. -/
def Clean (env : Env) (P : Name → Prop) (n : Name) : Prop := ∀ m, Over env n m → ¬ P m

/-- `True`, `False` and the classes of blocks. -/
def specials : List Name := ["True".toList, "False".toList, "Block1".toList, "Block2".toList, "Block3".toList]

/-- No file names a special class as its superclass. -/
def NoSpecial (env : Env) : Prop := ∀ n t m, source env n = some t → t.super = some m → m ∉ specials

/-- The system after the start (`first`), and later (`u`): classes were loaded, classes were entered in the shell, and the program has set the globals in `P`.  Not assumed is anything about the files, but that none
names a special class as its superclass. -/
structure After (env : Env) (P : Name → Prop) (s : Sys) (first u : U) : Prop where
  exit : env.avoidExit = false
  plain : NoSpecial env
  boot : ∃ k, boot env k ⟨[], []⟩ = (.ok s, first)
  goes : Goes s.meta env P first u

end PySOM.Boot

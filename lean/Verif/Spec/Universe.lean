import Verif.Model.Universe
/-!
# What the classes of a running system look like
-/
set_option autoImplicit false
namespace PySOM.Boot

/-- `d` is `c` or a superclass of it, direct or not. -/
inductive Inherits (u : U) : Cid → Cid → Prop where
  | refl (c : Cid) : Inherits u c c
  | step (c s d : Cid) (h : (u.at c).sup = some s) (h' : Inherits u s d) : Inherits u c d

/-- The classes a program can get at: those that loading answered (`L`), the values of globals, and the classes and superclasses of these. -/
inductive Known (u : U) (L : List Cid) : Cid → Prop where
  | answered (c : Cid) (h : c ∈ L) : Known u L c
  | global (n : Name) (c : Cid) (h : (n, Glob.cls c) ∈ u.globals) : Known u L c
  | classOf (c m : Cid) (h : Known u L c) (h' : (u.at c).cls = some m) : Known u L m
  | superOf (c s : Cid) (h : Known u L c) (h' : (u.at c).sup = some s) : Known u L s

/-- An ordinary class: the instance of its own metaclass, which is an instance of `Metaclass` and has the name with ` class` behind it; the superclass of the metaclass is the class of
the superclass, or `Class` for `Object`, the only class without superclass. -/
structure Ordinary (s : Sys) (u : U) (c m : Cid) : Prop where
  class_ : (u.at c).cls = some m
  metaclass : (u.at m).cls = some s.meta
  name : ∃ n, (u.at c).name = some n ∧ (u.at m).name = some (className n)
  root : (u.at c).sup = none → c = s.object ∧ (u.at m).sup = some s.class_
  parallel : ∀ d, (u.at c).sup = some d → (u.at m).sup = (u.at d).cls
  object : Inherits u c s.object
  behaviour : Inherits u m s.class_

/-- All classes a program can get at are ordinary classes or the metaclass of exactly one of these. -/
structure Hierarchy (s : Sys) (u : U) (K : Cid → Prop) : Prop where
  closed : ∀ c, K c → ∃ m, (u.at c).cls = some m ∧ K m
  ordinary : ∀ c m, K c → (u.at c).cls = some m → m ≠ s.meta → Ordinary s u c m
  «meta» : ∀ m, K m → (u.at m).cls = some s.meta → ∃ c, Ordinary s u c m ∧ (u.at c).cls ≠ some s.meta ∧ ∀ d, (u.at d).cls = some m → d = c
  object : (u.at s.object).sup = none ∧ (u.at s.object).name = some symObject
  knot : ∃ mm, Ordinary s u s.meta mm ∧ mm ≠ s.meta ∧ (u.at s.meta).name = some "Metaclass".toList

/-- The histories of a system: it starts; then classes are loaded, globals are set to what the program has got, and classes are entered in the shell.  Exceptions end an operation, but
the system goes on. -/
inductive Hist (env : Env) (k : Nat) (s : Sys) : U → List Cid → Prop where
  | boot (u : U) (h : boot env k ⟨[], []⟩ = (.ok s, u)) : Hist env k s u []
  | load (u : U) (L : List Cid) (n : Name) (v : Glob) (u' : U) (h : Hist env k s u L) (hl : loadClass s.meta env k n u = (.ok v, u')) :
    Hist env k s u' (match v with | .cls c => c :: L | _ => L)
  | loadFails (u : U) (L : List Cid) (n : Name) (e : Err) (u' : U) (h : Hist env k s u L) (hl : loadClass s.meta env k n u = (.error e, u')) : Hist env k s u' L
  | shell (u : U) (L : List Cid) (t : Text) (c : Cid) (u' : U) (h : Hist env k s u L) (hl : compile s.meta (loadClass s.meta env k) t none u = (.ok c, u')) : Hist env k s u' (c :: L)
  | shellFails (u : U) (L : List Cid) (t : Text) (e : Err) (u' : U) (h : Hist env k s u L) (hl : compile s.meta (loadClass s.meta env k) t none u = (.error e, u')) : Hist env k s u' L
  | put (u : U) (L : List Cid) (n : Name) (v : Glob) (h : Hist env k s u L) (hv : ∀ c, v = .cls c → Known u L c) : Hist env k s (setGlobal n v u).2 L

/-- The file from which a class is loaded: that in the first directory of the class path that has one. -/
def source (env : Env) (n : Name) : Option Text := env.classpath.findSome? fun p => env.files p n

/-- The name of the superclass in a class file, if there is one. -/
def Text.super (t : Text) : Option Name :=
  match t.head with
  | some (_, sup) => if sup.getD symObject = symNil then none else some (sup.getD symObject)
  | none => none

/-- A running system goes on: classes are loaded and entered in the shell, globals are set (of those in `P`); each of these may also end with an exception. -/
inductive Goes («meta» : Cid) (env : Env) (P : Name → Prop) : U → U → Prop where
  | stay (u : U) : Goes «meta» env P u u
  | load (u u' : U) (k : Nat) (n : Name) (h : Goes «meta» env P u u') : Goes «meta» env P u (loadClass «meta» env k n u').2
  | shell (u u' : U) (k : Nat) (t : Text) (h : Goes «meta» env P u u') : Goes «meta» env P u (compile «meta» (loadClass «meta» env k) t none u').2
  | put (u u' : U) (n : Name) (v : Glob) (h : Goes «meta» env P u u') (hn : P n) : Goes «meta» env P u (setGlobal n v u').2

/-- What holds of a class that was loaded under the name `n`: there is a file for it, and name, superclass and fields are those of the file, on both sides. -/
structure Loaded («meta» : Cid) (env : Env) (n : Name) (c : Cid) (u : U) (t : Text) (i cl : Side) (s m sm : Cid) : Prop where
  file : source env n = some t
  sides : t.rest = some (i, cl)
  class_ : (u.at c).cls = some m ∧ (u.at m).cls = some «meta»
  name : ∃ name sup, t.head = some (name, sup) ∧ (u.at c).name = some name ∧ (u.at m).name = some (className name) ∧ (env.avoidExit = false → name = n)
  super : ∃ sn, t.super = some sn ∧ List.lookup sn u.globals = some (.cls s) ∧ (u.at c).sup = some s ∧ (u.at s).cls = some sm ∧ (u.at m).sup = some sm
  fields : ∃ fs, (u.at s).fields = some fs ∧ (u.at c).fields = some (fs ++ i.fields)
  classFields : ∃ fs, (u.at sm).fields = some fs ∧ (u.at m).fields = some (fs ++ cl.fields)
  global : List.lookup n u.globals = some (.cls c)

/-- The method for a selector in a class file: the last one counts. -/
def lastMeth (ms : List (Name × Option Nat)) (sel : Name) : Option (Option Nat) := (ms.reverse.find? fun m => m.1 == sel).map (·.2)

/-- The method for a selector in a table. -/
def Cls.method (c : Cls) (sel : Name) : Option Entry := (c.table.getD []).find? fun e => e.sel == sel

end PySOM.Boot

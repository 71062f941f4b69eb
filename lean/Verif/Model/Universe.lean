import Verif.Model.Base
/-!
# Model of starting the VM and loading classes

`src/som/vm/universe.py`, `src/som/compiler/class_generation_context.py`, `src/som/compiler/sourcecode_compiler.py`, the class definitions of
`src/som/compiler/parser.py` and the parts of `src/som/vmobjects/clazz.py` that they use.

Simplifications: names are lists of characters and stand for the interned symbols (C21); class files are given parsed (`Text`; the parsers are in `Model/Parser`);
method bodies are identities; object layouts are left out (C15); messages to the console are left out.
-/
set_option autoImplicit false
namespace PySOM.Boot

abbrev Name := List Char
abbrev Cid := Nat

/-- What is in a method table: a method with a body, a method that is declared as `primitive` (`empty_primitive`, `primitive.py:148-150`), or a primitive of the VM. -/
inductive Kind where
  | code (body : Nat)
  | empty
  | vm
  deriving DecidableEq, Repr

/-- An invokable with its signature and holder. -/
structure Entry where
  sel : Name
  kind : Kind
  holder : Cid
  deriving DecidableEq, Repr

/-- `dict[signature] = invokable`: replaces in place or appends. -/
def put (t : List Entry) (e : Entry) : List Entry :=
  if t.any (fun x => x.sel == e.sel) then t.map (fun x => if x.sel == e.sel then e else x) else t ++ [e]

/-- `Class` (`clazz.py:8-30`): its class (that of its layout), superclass (nil is `none`), name, names of the instance fields and method table, the last three being Python's
`None` at first, whether it has primitives, and for how many fields of its own there is room in its layout (`object_with_layout.py:19-57`; these are the fields of the side of the class). -/
structure Cls where
  cls : Option Cid := none
  sup : Option Cid := none
  name : Option Name := none
  fields : Option (List Name) := none
  table : Option (List Entry) := none
  prims : Bool := false
  size : Nat := 0
  deriving DecidableEq, Repr

/-- The value of a global: a class, another object, or Python's `None`. -/
inductive Glob where
  | cls (c : Cid)
  | obj (n : Nat)
  | none
  deriving DecidableEq, Repr

/-- The universe: all classes that were allocated, and the dictionary of globals, latest first. -/
structure U where
  classes : List Cls
  globals : List (Name × Glob)
  deriving DecidableEq, Repr

inductive Err where
  | parse
  | attribute
  | assertion
  | exit (code : Nat)
  | recursion
  deriving DecidableEq, Repr

/-- A computation on the universe; after an exception, the changes made so far stay. -/
def M (α : Type) := U → Except Err α × U

instance : Monad M where
  pure a := fun u => (.ok a, u)
  bind m k := fun u =>
    match m u with
    | (.ok a, u') => k a u'
    | (.error e, u') => (.error e, u')

def raise {α : Type} (e : Err) : M α := fun u => (.error e, u)
def get : M U := fun u => (.ok u, u)
def modify (f : U → U) : M Unit := fun u => (.ok (), f u)

/-- The class with an identity; all identities come from `newClass`. -/
def U.at (u : U) (c : Cid) : Cls := u.classes.getD c {}

def U.upd (u : U) (c : Cid) (f : Cls → Cls) : U := { u with classes := u.classes.modify c f }

/-! ## Classes (`clazz.py`) -/

/-- The number of fields in the layout for the instances of a class (`_layout_for_instances`): 0 at first, and that of the fields afterwards (17-30, 50-60).  Of layouts this is all that is modelled here. -/
def U.width (u : U) (c : Cid) : Nat := ((u.at c).fields.getD []).length

/-- `Class.__init__` (17-30): its layout is the one for instances of its class, or none. -/
def newClass (cls : Option Cid) : M Cid := fun u => (.ok u.classes.length, { u with classes := u.classes ++ [{ cls := cls, size := match cls with | some m => u.width m | none => 0 }] })

/-- `get_class` (`object_without_fields.py:11-13`). -/
def classOf (c : Cid) : M Cid := do
  match ((← get).at c).cls with
  | some m => pure m
  | none => raise .assertion

/-- `set_class` (`object_without_fields.py:18-21`). -/
def setClass (c m : Cid) : M Unit := modify fun u => u.upd c fun x => { x with cls := some m, size := u.width m }
/-- 35-36 -/
def setSuper (c s : Cid) : M Unit := modify (·.upd c fun x => { x with sup := some s })
/-- 44-45 -/
def setName (c : Cid) (n : Name) : M Unit := modify (·.upd c fun x => { x with name := some n })
/-- 50-60 -/
def setFields (c : Cid) (fs : List Name) : M Unit := modify (·.upd c fun x => { x with fields := some fs })

/-- `set_instance_invokables` (76-85): `value` has the methods in order. -/
def setInvokables (c : Cid) (value : List (Name × Kind)) (prims : Bool) : M Unit := do
  modify (·.upd c fun x => { x with prims := prims })
  if value.isEmpty then
    match ((← get).at c).table with
    | none => pure ()
    | some _ => raise .assertion
  else modify (·.upd c fun x => { x with table := some (value.map fun e => ⟨e.1, e.2, c⟩) })

/-- `add_primitive` (128-145); the warning is left out. -/
def addPrimitive (c : Cid) (sel : Name) : M Unit := modify (·.upd c fun x => { x with table := some (put (x.table.getD []) ⟨sel, .vm, c⟩) })

/-- Do for all, in order. -/
def forAll {α : Type} (f : α → M Unit) : List α → M Unit
  | [] => pure ()
  | x :: xs => do f x; forAll f xs

/-- `load_primitives` (180-194) with `primitives_for_class` (`known.py:84-89`) and `install_primitives_in` (`primitives.py:6-11`): `known` are the classes for which the VM has
primitives, with the selectors on the instance side and on the class side. -/
def loadPrims (known : Name → Option (List Name × List Name)) (c : Cid) : M Unit := do
  match ((← get).at c).name with
  | none => raise .attribute
  | some n =>
    match known n with
    | none => pure ()
    | some (is, cs) => do
      forAll (addPrimitive c) is
      forAll (fun s => do addPrimitive (← classOf c) s) cs

/-- `needs_primitives` (171-178). -/
def needsPrims (c : Cid) : M Bool := do
  let u ← get
  pure ((u.at c).prims || (match (u.at c).cls with | some m => (u.at m).prims | none => false))

/-! ## Globals (`universe.py:369-398`, C23) -/

def getGlobal (n : Name) : M Glob := do pure ((List.lookup n (← get).globals).getD .none)
def setGlobal (n : Name) (v : Glob) : M Unit := modify fun u => { u with globals := (n, v) :: u.globals }

/-! ## Class files -/

/-- One side of a class definition: the fields and the methods, each with its body or declared as primitive. -/
structure Side where
  fields : List Name
  meths : List (Name × Option Nat)
  deriving DecidableEq, Repr

/-- The text of a class file as `classdef` (`parser.py:80-118`) meets it: name and superclass, or a syntax error before these; and the rest, or a syntax error there. -/
structure Text where
  head : Option (Name × Option Name)
  rest : Option (Side × Side)
  deriving DecidableEq, Repr

/-- What the VM is started with. -/
structure Env where
  files : Nat → Name → Option Text
  classpath : List Nat
  known : Name → Option (List Name × List Name)
  avoidExit : Bool

/-- `add_instance_method` and `add_class_method` (`class_generation_context.py:51-62`) for all methods: the dictionary. -/
def dict (ms : List (Name × Option Nat)) : List (Name × Kind) :=
  (ms.foldl (fun t m => put t ⟨m.1, match m.2 with | some b => .code b | none => .empty, 0⟩) []).map fun e => (e.sel, e.kind)

/-- Some method is declared as primitive (54, 61). -/
def Side.prims (s : Side) : Bool := s.meths.any (·.2.isNone)

/-- The `ClassGenerationContext` after `classdef`: the superclass, and the fields with those of the superclass in front. -/
structure Cgc where
  name : Name
  sup : Option Cid
  inst : Side
  cls : Side

def symNil : Name := "nil".toList
def symObject : Name := "Object".toList
def className (n : Name) : Name := n ++ " class".toList

/-- Read the fields of a class (`get_instance_fields().get_number_of_indexable_fields()`). -/
def fieldsOf (c : Cid) : M (List Name) := do
  match ((← get).at c).fields with
  | some fs => pure fs
  | none => raise .attribute

/-- `classdef` and `_superclass` (`parser.py:80-137`) with `set_super_class` (`class_generation_context.py:36-49`). -/
def classdef (load : Name → M Glob) (t : Text) : M Cgc := do
  match t.head with
  | none => raise .parse
  | some (name, sup) => do
    let sn := sup.getD symObject
    let (s, fs, cfs) ← (if sn = symNil then pure (none, [], []) else do
      match ← load sn with
      | .none => raise .parse
      | .obj _ => raise .attribute
      | .cls s => do
        let fs ← fieldsOf s
        let m ← classOf s
        let cfs ← fieldsOf m
        pure (some s, fs, cfs))
    match t.rest with
    | none => raise .parse
    | some (i, c) => pure ⟨name, s, ⟨fs ++ i.fields, i.meths⟩, ⟨cfs ++ c.fields, c.meths⟩⟩

/-- `assemble` (86-119); `meta` is `metaclass_class`. -/
def assemble («meta» : Cid) (g : Cgc) : M Cid := do
  let _ ← fieldsOf «meta»
  let rc ← newClass (some «meta»)
  setFields rc g.cls.fields
  setInvokables rc (dict g.cls.meths) g.cls.prims
  setName rc (className g.name)
  match g.sup with
  | none => raise .attribute
  | some s => do
    let sm ← classOf s
    setSuper rc sm
    let r ← newClass (some rc)
    setName r g.name
    setSuper r s
    setFields r g.inst.fields
    setInvokables r (dict g.inst.meths) g.inst.prims
    pure r

/-- `assemble_system_class` (121-133). -/
def assembleSystem (c : Cid) (g : Cgc) : M Unit := do
  setInvokables c (dict g.inst.meths) g.inst.prims
  setFields c g.inst.fields
  let m ← classOf c
  setInvokables m (dict g.cls.meths) g.cls.prims
  setFields m g.cls.fields

/-- `_compile` (`sourcecode_compiler.py:46-58`). -/
def compile («meta» : Cid) (load : Name → M Glob) (t : Text) (sys : Option Cid) : M Cid := do
  let g ← classdef load t
  match sys with
  | none => assemble «meta» g
  | some c => do assembleSystem c g; pure c

/-- `Universe.exit` (`universe.py:104-108`). -/
def exit_ (env : Env) (code : Nat) : M Unit := if env.avoidExit then pure () else raise (.exit code)

/-- `_load_class` (451-471) with `compile_class_from_file` (`sourcecode_compiler.py:14-37`): the first directory of the class path with a file of that name. -/
def loadFile («meta» : Cid) (env : Env) (load : Name → M Glob) (n : Name) (sys : Option Cid) : List Nat → M (Option Cid)
  | [] => pure none
  | p :: ps =>
    match env.files p n with
    | none => loadFile «meta» env load n sys ps
    | some t => do
      let c ← compile «meta» load t sys
      if ((← get).at c).name = some n then pure (some c)
      else do exit_ env 1; pure (some c)

/-- `load_class` (417-427) with `_load_primitives` (429-434); the first argument bounds the depth of recursion (superclasses). -/
def loadClass («meta» : Cid) (env : Env) : Nat → Name → M Glob
  | 0, _ => raise .recursion
  | k + 1, n => do
    match ← getGlobal n with
    | .none => do
      let r ← loadFile «meta» env (loadClass «meta» env k) n none env.classpath
      match r with
      | none => do setGlobal n .none; pure .none
      | some c => do
        if ← needsPrims c then loadPrims env.known c
        setGlobal n (.cls c)
        pure (.cls c)
    | v => pure v

/-! ## Starting (`universe.py:213-314`) -/

/-- `new_metaclass_class` (332-339). -/
def newMetaclass : M Cid := do
  let cc ← newClass none
  let r ← newClass (some cc)
  setClass (← classOf r) r
  pure r

/-- `new_system_class` (341-348). -/
def newSystem («meta» : Cid) : M Cid := do
  let cc ← newClass none
  let r ← newClass (some cc)
  setClass (← classOf r) «meta»
  pure r

/-- `_initialize_system_class` (350-367). -/
def initSystem (classClass : Cid) (c : Cid) (sup : Option Cid) (n : Name) : M Unit := do
  match sup with
  | some s => do
    setSuper c s
    setSuper (← classOf c) (← classOf s)
  | none => setSuper (← classOf c) classClass
  setFields c []
  setFields (← classOf c) []
  setName c n
  setName (← classOf c) (className n)
  setGlobal n (.cls c)

/-- The system classes. -/
structure Sys where
  «meta» : Cid
  object : Cid
  nil : Cid
  class_ : Cid
  array : Cid
  symbol : Cid
  method : Cid
  integer : Cid
  primitive : Cid
  string : Cid
  double : Cid
  deriving DecidableEq, Repr

/-- The first part of `_initialize_object_system` (213-261). -/
def initClasses : M Sys := do
  let «meta» ← newMetaclass
  let object ← newSystem «meta»
  let nil ← newSystem «meta»
  let class_ ← newSystem «meta»
  let array ← newSystem «meta»
  let symbol ← newSystem «meta»
  let method ← newSystem «meta»
  let integer ← newSystem «meta»
  let primitive ← newSystem «meta»
  let string ← newSystem «meta»
  let double ← newSystem «meta»
  initSystem class_ object none symObject
  initSystem class_ class_ (some object) "Class".toList
  initSystem class_ «meta» (some class_) "Metaclass".toList
  initSystem class_ nil (some object) "Nil".toList
  initSystem class_ array (some object) "Array".toList
  initSystem class_ method (some object) "Method".toList
  initSystem class_ integer (some object) "Integer".toList
  initSystem class_ primitive (some object) "Primitive".toList
  initSystem class_ string (some object) "String".toList
  initSystem class_ symbol (some string) "Symbol".toList
  initSystem class_ double (some object) "Double".toList
  pure ⟨«meta», object, nil, class_, array, symbol, method, integer, primitive, string, double⟩

/-- `_load_system_class` (436-449). -/
def loadSystem («meta» : Cid) (env : Env) (k : Nat) (c : Cid) : M Unit := do
  match ((← get).at c).name with
  | none => raise .attribute
  | some n => do
    let r ← loadFile «meta» env (loadClass «meta» env k) n (some c) env.classpath
    match r with
    | none => exit_ env 200
    | some c => loadPrims env.known c

/-- The evaluation primitives of blocks (`block_bc.py:56-78`). -/
def evaluation : Nat → Name
  | 1 => "value".toList
  | 2 => "value:".toList
  | _ => "value:with:".toList

/-- `_make_block_class` (400-415). -/
def makeBlock («meta» : Cid) (env : Env) (k : Nat) (i : Nat) : M Unit := do
  let name := "Block".toList ++ (Nat.repr i).toList
  match ← loadFile «meta» env (loadClass «meta» env k) name none env.classpath with
  | none => raise .attribute
  | some c => do
    addPrimitive c (evaluation i)
    setGlobal name (.cls c)

/-- The special objects. -/
def nilObject : Glob := .obj 0
def trueObject : Glob := .obj 1
def falseObject : Glob := .obj 2
def systemObject : Glob := .obj 3

/-- A class that must be there: anything else has no `load_primitives` or cannot be instantiated. -/
def must (v : Glob) : M Cid :=
  match v with
  | .cls c => pure c
  | _ => raise .attribute

/-- The second part of `_initialize_object_system` (263-314). -/
def bootRest (env : Env) (k : Nat) (s : Sys) : M Sys := do
  forAll (loadSystem s.meta env k) [s.object, s.class_, s.meta, s.nil, s.array, s.method, s.string, s.symbol, s.integer, s.primitive, s.double]
  let block ← loadClass s.meta env k "Block".toList
  let true_ ← must (← loadClass s.meta env k "True".toList)
  loadPrims env.known true_
  let false_ ← must (← loadClass s.meta env k "False".toList)
  loadPrims env.known false_
  let system ← must (← loadClass s.meta env k "System".toList)
  setGlobal symNil nilObject
  setGlobal "true".toList trueObject
  setGlobal "false".toList falseObject
  setGlobal "system".toList systemObject
  setGlobal "System".toList (.cls system)
  setGlobal "Block".toList block
  setGlobal "Nil".toList (.cls s.nil)
  setGlobal "True".toList (.cls true_)
  setGlobal "False".toList (.cls false_)
  forAll (makeBlock s.meta env k) [1, 2, 3]
  pure s

/-- `_initialize_object_system` (213-314). -/
def boot (env : Env) (k : Nat) : M Sys := do
  let s ← initClasses
  bootRest env k s

end PySOM.Boot

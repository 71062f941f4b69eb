/-!
# Reflection: `fields` and `methods` of classes, and the arrays that they answer
-/
set_option autoImplicit false
namespace PySOM.Reflect

abbrev Name := List Char

/-- What may be in an array. -/
inductive Elem where
  | sym (n : Name)
  | meth (i : Nat)
  | other (i : Nat)
  deriving DecidableEq, Repr

/-- A class: the array with the names of its fields (`_instance_fields`), and its own methods (`_invokables_table`; the entries for inherited methods are the subject of C18). -/
structure Cls where
  fields : Nat
  methods : List Nat
  deriving DecidableEq, Repr

/-- The arrays and the classes of a running system. -/
structure World where
  arrays : List (List Elem)
  classes : List Cls
  deriving DecidableEq, Repr

/-- The elements of an array. -/
def World.elems (w : World) (a : Nat) : List Elem := w.arrays.getD a []

/-- A new array (`Array.from_objects`). -/
def World.alloc (w : World) (es : List Elem) : Nat × World := (w.arrays.length, { w with arrays := w.arrays ++ [es] })

/-- The names in the array of a class. -/
def World.names (w : World) (c : Nat) : List Elem := match w.classes[c]? with
  | some x => w.elems x.fields
  | none => []

/-- `_fields` (`class_primitives.py:22-23`) with `get_instance_fields` (`clazz.py:46-47`): the array of the class itself. -/
def World.fields (w : World) (c : Nat) : Option Nat := (w.classes[c]?).map (·.fields)

/-- `_methods` (`class_primitives.py:18-19`) with `get_instance_invokables` (`clazz.py:61-72`): a new array.  Simplified: the inherited methods that `lookup_invokable` has put into the table are left out (C18 has them). -/
def World.methods (w : World) (c : Nat) : Option (Nat × World) := (w.classes[c]?).map fun x => w.alloc (x.methods.map .meth)

/-- `at:put:` of an array, at an index that it has; other indices change nothing here. -/
def World.put (w : World) (a i : Nat) (e : Elem) : World := { w with arrays := w.arrays.modify a fun es => es.set i e }

/-- The names that a class inherits, as `set_super_class` (`class_generation_context.py:36-49`) copies them. -/
def World.inherited (w : World) (sup : Option Nat) : List Elem := match sup with
  | some s => w.names s
  | none => []

/-- A class is loaded: `set_super_class` (`class_generation_context.py:36-49`) copies the elements of the array of the superclass, the declared names follow, and `assemble` (`:113`) makes a new array of them.  Without a superclass nothing is
copied. -/
def World.load (w : World) (sup : Option Nat) (declared : List Name) (methods : List Nat) : World :=
  let a := w.alloc (w.inherited sup ++ declared.map .sym)
  { a.2 with classes := a.2.classes ++ [⟨a.1, methods⟩] }

/-- `lookup_field_index` (`clazz.py:112-122`), from the last to the first; `none` is -1. -/
def World.fieldIndex (w : World) (c : Nat) (n : Name) : Option Nat :=
  (List.range (w.names c).length).reverse.find? fun i => (w.names c)[i]? == some (.sym n)

/-- What a program can do with classes and arrays. -/
inductive Op where
  | fields (c : Nat)
  | methods (c : Nat)
  | put (a i : Nat) (e : Elem)
  | new (es : List Elem)
  | load (sup : Option Nat) (declared : List Name) (methods : List Nat)
  deriving DecidableEq, Repr

/-- One operation: the array that it answers, if it does, and the world after it. -/
def step (w : World) : Op → Option Nat × World
  | .fields c => (w.fields c, w)
  | .methods c => match w.methods c with
    | some r => (some r.1, r.2)
    | none => (none, w)
  | .put a i e => (none, w.put a i e)
  | .new es => let r := w.alloc es; (some r.1, r.2)
  | .load sup ds ms => (none, w.load sup ds ms)

def run (w : World) : List Op → World
  | [] => w
  | op :: ops => run (step w op).2 ops

end PySOM.Reflect

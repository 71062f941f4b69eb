import Verif.Model.Base
/-!
# Model of the global dictionary of `src/som/vm/universe.py` and of the code that reads globals

Names and values are natural numbers.  An association's value is `none` where the Python field holds `None` (a failed
`load:` stores it).
-/
set_option autoImplicit false
namespace PySOM.Glob

abbrev Name := Nat
abbrev Val := Nat

/-- The Python heap part involved: `_globals` maps names to associations (indices into `assocs`); `sites` are the places in
compiled code that read a global and may have cached its association: AST global-read nodes
(`global_read_node.py:29-73`) and trivial methods (`method_trivial.py:84-106`). -/
structure State where
  dict : List (Name × Nat)
  assocs : List (Option Val)
  sites : List (Name × Option Nat)
  deriving Repr, DecidableEq

def State.init : State := ⟨[], [], []⟩

/-- What a read of a global yields. -/
inductive Read where
  /-- a value -/
  | value (v : Val)
  /-- `unknownGlobal:` is sent -/
  | unknown
  /-- Python's `None` escapes into the program -/
  | pyNone
  deriving Repr, DecidableEq

/-- `get_globals_association_or_none` and `_get_global` (`universe.py:378-380`, `397-398`). -/
def assocOrNone (g : State) (n : Name) : Option Nat := List.lookup n g.dict

/-- `get_globals_association` (`universe.py:389-395`); `nil` is the value of `nilObject`. -/
def getAssoc (nil : Val) (g : State) (n : Name) : Nat × State :=
  match List.lookup n g.dict with
  | some a => (a, g)
  | none => (g.assocs.length, { g with dict := (n, g.assocs.length) :: g.dict, assocs := g.assocs ++ [some nil] })

/-- `assoc.value`. -/
def assocValue (g : State) (a : Nat) : Option Val := (g.assocs[a]?).join

/-- `set_global` (`universe.py:382-383`); the value is `None` in the failing case of `load_class`. -/
def setGlobal (nil : Val) (g : State) (n : Name) (v : Option Val) : State :=
  let r := getAssoc nil g n
  { r.2 with assocs := r.2.assocs.set r.1 v }

/-- `get_global` (`universe.py:369-376`). -/
def getGlobal (g : State) (n : Name) : Option Val :=
  match assocOrNone g n with
  | some a => assocValue g a
  | none => none

/-- `has_global` (`universe.py:385-387`). -/
def hasGlobal (g : State) (n : Name) : Bool := (assocOrNone g n).isSome

/-- `load_class` (`universe.py:417-427`); `found` is what the class path provides (`_load_class`, 451-471), classes loaded
recursively while parsing being earlier loads of the history. -/
def loadClass (nil : Val) (g : State) (n : Name) (found : Option Val) : Option Val × State :=
  match getGlobal g n with
  | some v => (some v, g)
  | none => (found, setGlobal nil g n found)

/-- The bytecode interpreter's `push_global` (`bc/interpreter.py:264-275`). -/
def pushGlobal (g : State) (n : Name) : Read :=
  match getGlobal g n with
  | some v => .value v
  | none => .unknown

/-- Creating a reading site: `create_global_node` (`global_read_node.py:11-27`) caches the association if there is one.
The names `true`, `false` and `nil` never get here (12-17). -/
def newSite (g : State) (n : Name) : State := { g with sites := g.sites ++ [(n, assocOrNone g n)] }

/-- Reading through a cached association (`global_read_node.py:68-69`, `method_trivial.py:96-97`). -/
def readAssoc (g : State) (a : Nat) : Read :=
  match assocValue g a with
  | some v => .value v
  | none => .pyNone

/-- Executing a reading site: `_UninitializedGlobalReadNode.execute`/`_CachedGlobalReadNode.execute`
(`global_read_node.py:38-50`, `68-69`) and `GlobalRead.invoke_1` (`method_trivial.py:95-107`). -/
def readSite (nil : Val) (g : State) (k : Nat) : Option Read × State :=
  match g.sites[k]? with
  | none => (none, g)
  | some (n, cached) =>
    match cached with
    | some a => (some (readAssoc g a), g)
    | none =>
      if hasGlobal g n then
        let r := getAssoc nil g n
        (some (readAssoc r.2 r.1), { r.2 with sites := r.2.sites.set k (n, some r.1) })
      else (some .unknown, g)

/-- Operations a program can perform. -/
inductive Op where
  /-- `system global: n put: v` (`system_primitives.py:33-35`) -/
  | put (n : Name) (v : Val)
  /-- `system global: n` (22-24) -/
  | get (n : Name)
  /-- `system hasGlobal: n` (27-30) -/
  | has (n : Name)
  /-- `system load: n` (12-14) -/
  | load (n : Name) (found : Option Val)
  /-- compiling an occurrence of the global `n` -/
  | compile (n : Name)
  /-- executing the `k`-th compiled occurrence -/
  | read (k : Nat)
  /-- executing the bytecode `push_global` for `n` -/
  | push (n : Name)
  deriving Repr, DecidableEq

/-- What the program observes. -/
inductive Ans where
  | obj (v : Val)
  | bool (b : Bool)
  | read (r : Read)
  | nothing
  deriving Repr, DecidableEq

/-- One operation. -/
def step (nil : Val) (g : State) : Op → Ans × State
  | .put n v => (.obj v, setGlobal nil g n (some v))
  | .get n => (.obj ((getGlobal g n).getD nil), g)
  | .has n => (.bool (hasGlobal g n), g)
  | .load n found => let r := loadClass nil g n found; (.obj (r.1.getD nil), r.2)
  | .compile n => (.nothing, newSite g n)
  | .read k => let r := readSite nil g k; (match r.1 with | some x => .read x | none => .nothing, r.2)
  | .push n => (.read (pushGlobal g n), g)

/-- A history of operations. -/
def run (nil : Val) (g : State) : List Op → List Ans × State
  | [] => ([], g)
  | op :: ops => let r := step nil g op; let r' := run nil r.2 ops; (r.1 :: r'.1, r'.2)

end PySOM.Glob

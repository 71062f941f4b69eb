import Verif.Model.Base
/-!
# Model of `src/som/vmobjects/clazz.py` and `src/som/compiler/class_generation_context.py`

Method tables, lookup with memoisation, and field numbering.  Classes, selectors, methods and names are natural numbers
(identities).
-/
set_option autoImplicit false
namespace PySOM.Cls

abbrev Cid := Nat
abbrev Sel := Nat
abbrev Meth := Nat

/-- The superclass relation; `sup c = none` is `_super_class is nilObject` (`clazz.py:37-38`).  Superclass chains are
finite: `rank` decreases along them. -/
structure Hier where
  sup : Cid → Option Cid
  rank : Cid → Nat
  dec : ∀ c d, sup c = some d → rank d < rank c

/-- `_invokables_table` of every class: an insertion-ordered dictionary.  `None` and the empty dictionary are treated
alike by all the code modelled here (`if not self._invokables_table`), so both are `[]`. -/
abbrev Table := List (Sel × Meth)
abbrev Tables := Cid → Table

/-- `dict.get(signature, None)`. -/
def Table.get (t : Table) (s : Sel) : Option Meth := List.lookup s t

/-- `dict[signature] = invokable`: replaces in place or appends. -/
def Table.put (t : Table) (s : Sel) (m : Meth) : Table :=
  if t.any (fun e => e.1 == s) then t.map (fun e => if e.1 == s then (s, m) else e) else t ++ [(s, m)]

/-- Assignment to the table of one class. -/
def Tables.set (T : Tables) (c : Cid) (t : Table) : Tables := fun d => if d = c then t else T d

/-- `Class.lookup_invokable` (`clazz.py:93-110`): own table, then the superclass, memoising a method found there in the own
table.  The `elidable_promote` hint does not change the result of the untranslated function. -/
def lookupInvokable (H : Hier) (T : Tables) (c : Cid) (s : Sel) : Option Meth × Tables :=
  match (T c).get s with
  | some m => (some m, T)
  | none =>
    match _h : H.sup c with
    | some d =>
      match lookupInvokable H T d s with
      | (some m, T') => (some m, T'.set c ((T' c).put s m))
      | (none, T') => (none, T')
    | none => (none, T)
termination_by H.rank c
decreasing_by exact H.dec c d _h

/-- `Class.get_instance_invokables` (`clazz.py:61-72`), answered by the primitive `methods`
(`class_primitives.py:18-19`). -/
def getInstanceInvokables (T : Tables) (c : Cid) : List Meth := (T c).map (·.2)

/-- A sequence of lookups, as message sends perform them, with the final tables. -/
def runLookups (H : Hier) (T : Tables) : List (Cid × Sel) → List (Option Meth) × Tables
  | [] => ([], T)
  | (c, s) :: rest =>
    let r := lookupInvokable H T c s
    let r' := runLookups H r.2 rest
    (r.1 :: r'.1, r'.2)

/-- `Class.add_primitive` without the warning (`clazz.py:139-142`). -/
def addPrimitive (T : Tables) (c : Cid) (s : Sel) (m : Meth) : Tables := T.set c ((T c).put s m)

/-! ## Fields -/

abbrev Name := Nat

/-- `set_super_class` followed by `add_instance_field` for each declared field
(`class_generation_context.py:36-45`, `64-65`): the superclass's fields first.  The class side (47-49, 71-72) is the same
function of the metaclass's fields. -/
def fieldsOf (superFields declared : List Name) : List Name := superFields ++ declared

/-- `has_field` (`class_generation_context.py:74-77`). -/
def hasField (fields : List Name) (f : Name) : Bool := fields.contains f

/-- `get_field_index` (`class_generation_context.py:79-82`): Python's `list.index`, `ValueError` if absent. -/
def getFieldIndex (fields : List Name) (f : Name) : Except Err Nat :=
  match fields.findIdx? (· == f) with
  | some i => .ok i
  | none => .error .value

/-- The loop of `lookup_field_index` (`clazz.py:114-122`), from position `i - 1` downwards. -/
def lookupFieldLoop (fields : List Name) (f : Name) : Nat → Int
  | 0 => -1
  | i + 1 => if fields[i]? = some f then i else lookupFieldLoop fields f i

/-- `Class.lookup_field_index` (`clazz.py:112-122`). -/
def lookupFieldIndex (fields : List Name) (f : Name) : Int := lookupFieldLoop fields f fields.length

/-- Class declarations: the chain of declared field lists from the root class down to the class itself. -/
def allFields : List (List Name) → List Name
  | [] => []
  | chain => chain.foldl fieldsOf []

end PySOM.Cls

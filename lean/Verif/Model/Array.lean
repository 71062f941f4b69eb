import Verif.Model.Base
/-!
# Model of `src/som/vmobjects/array.py`

Array strategies and the transitions between them, branch by branch.  A Python `(strategy, storage)` pair is one
constructor of `Store`.  Storages are mutable Python objects, so arrays live in a heap (`Heap`) in which an array
holds the *address* of its storage; whether an operation mutates the storage in place or allocates a new one is
part of the model (`Upd`).
-/
namespace PySOM.Arr
open PySOM

/-- SOM values as far as `array.py` distinguishes them.  `obj r` is any object which is not nil, true, false, an
`Integer` or a `Double` (strings, symbols, BigIntegers, blocks, instances, ...), identified by a reference.
`pyNone` is the Python value `None`, which is not a SOM object but is used as a filler in fresh storages. -/
inductive Val where
  | nil
  | bool (b : Bool)
  | int (i : Int)
  | dbl (d : Dbl)
  | obj (ref : Nat)
  | pyNone
  deriving DecidableEq, Repr

/-- Content of a slot of a "double list".  It should be a float, but `_set_all_with_block` (`array.py:123-127`)
puts Python booleans into such a list. -/
inductive DCell where
  | float (d : Dbl)
  | pyBool (b : Bool)
  deriving DecidableEq, Repr

/-- `_PartialStorage.type` (`array.py:603-610`): `None` or one of the four strategies. -/
inductive PType where
  | none | long | double | bool | obj
  deriving DecidableEq, Repr

/-- An array's strategy together with its storage (`array.py:230-728`).
`part xs e t` is `_PartialStorage(storage = xs, size = len(xs), empty_elements = e, type = t)`; the field `size` is
immutable and always `len(xs)`, so it is not repeated. -/
inductive Store where
  | obj (xs : List Val)
  | long (xs : List Int)
  | double (xs : List DCell)
  | bool (xs : List Bool)
  | empty (n : Int)
  | part (xs : List Val) (numEmpty : Int) (ty : PType)
  deriving DecidableEq, Repr

/-- Effect of a mutating operation on the array's storage: the old storage object was mutated in place, or the array
now points to a freshly allocated storage object, or nothing changed. -/
inductive Upd where
  | inPlace (s : Store)
  | fresh (s : Store)
  | unchanged
  deriving DecidableEq, Repr

/-- `isinstance(value, AbstractObject)`. -/
def Val.isSom : Val → Bool
  | .pyNone => false
  | _ => true

/-- `trueObject if v else falseObject` (`array.py:461`, `488`). -/
def ofBool (b : Bool) : Val := .bool b

/-- `Double(storage[i])` for a cell of a double list; a Python bool in the list yields a malformed `Double`, which
we represent by the Python value `pyNone` (it is not a proper SOM value). (`array.py:389`, `193`) -/
def DCell.toVal : DCell → Val
  | .float d => .dbl d
  | .pyBool _ => .pyNone

/-- Python list read `xs[i]`. -/
def listGet {α} (xs : List α) (i : Int) : Except Err α :=
  match pyIdx xs.length i with
  | some k => match xs[k]? with
    | some v => .ok v
    | none => .error .index
  | none => .error .index

/-- Python list write `xs[i] = v`. -/
def listSet {α} (xs : List α) (i : Int) (v : α) : Except Err (List α) :=
  match pyIdx xs.length i with
  | some k => .ok (xs.set k v)
  | none => .error .index

/-- `strategy.get_idx(storage, idx)`: obj 235-237, long 299-303, double 384-388, bool 457-461, empty 539-543,
partially empty 636-638 of `array.py`. -/
def getIdx (s : Store) (i : Int) : Except Err Val :=
  match s with
  | .obj xs => listGet xs i
  | .long xs => (listGet xs i).map .int
  | .double xs => match listGet xs i with
    | .ok (.float d) => .ok (.dbl d)
    | .ok (.pyBool _) => .error .assertion       -- `assert isinstance(store[idx], float)`
    | .error e => .error e
  | .bool xs => (listGet xs i).map ofBool
  | .empty n => if 0 ≤ i ∧ i < n then .ok .nil else .error .index
  | .part xs _ _ => listGet xs i

/-- `get_size` of the strategies: 262-263, 344-345, 417-418, 490-491, 579-581, 695-696. -/
def getSize : Store → Int
  | .obj xs => xs.length
  | .long xs => xs.length
  | .double xs => xs.length
  | .bool xs => xs.length
  | .empty n => n
  | .part xs _ _ => xs.length

/-- `v.get_embedded_integer()`: `AttributeError` unless `v` is an `Integer`. -/
def embeddedInt : Val → Except Err Int
  | .int i => .ok i
  | _ => .error .attribute

/-- `v.get_embedded_double()`: `AttributeError` unless `v` is a `Double`. -/
def embeddedDouble : Val → Except Err DCell
  | .dbl d => .ok (.float d)
  | _ => .error .attribute

/-- `_LongStrategy.new_storage_with_values` (`array.py:352-357`). -/
def longWithValues (vs : List Val) : Except Err Store :=
  (vs.mapM embeddedInt).map .long

/-- `_DoubleStrategy.new_storage_with_values` (`array.py:425-430`). -/
def doubleWithValues (vs : List Val) : Except Err Store :=
  (vs.mapM embeddedDouble).map .double

/-- `_BoolStrategy.new_storage_with_values` (`array.py:498-503`): `[v is trueObject for v in values]`. -/
def boolWithValues (vs : List Val) : Store := .bool (vs.map (· == .bool true))

/-- `_PartialStorage.from_obj_values` (`array.py:613-619`): asserts that the first element is a SOM object
(`IndexError` on an empty list). -/
def partFromObjValues (vs : List Val) : Except Err Store :=
  match vs with
  | [] => .error .index
  | v :: _ => if v.isSom then .ok (.part vs vs.length .none) else .error .assertion

/-- The type recorded after a non-nil value was stored (`array.py:656-671`). -/
def nextType (t : PType) (v : Val) : PType :=
  match v with
  | .int _ => match t with
    | .none => .long
    | .long => .long
    | _ => .obj
  | .dbl _ => match t with
    | .none => .double
    | .double => .double
    | _ => .obj
  | .bool _ => match t with
    | .none => .bool
    | .bool => .bool
    | _ => .obj
  | _ => .obj

/-- `array.strategy.new_storage_with_values(store.storage)` for the recorded type (`array.py:675-677`).  A type of
`None` cannot occur at that point because `nextType` never answers `none`; it would be an `AttributeError`. -/
def withValuesOfType (t : PType) (vs : List Val) : Except Err Store :=
  match t with
  | .long => longWithValues vs
  | .double => doubleWithValues vs
  | .bool => .ok (boolWithValues vs)
  | .obj => .ok (.obj vs)
  | .none => .error .attribute

/-- `_PartiallyEmptyStrategy.set_idx` (`array.py:640-677`). -/
def partSetIdx (xs : List Val) (e : Int) (t : PType) (i : Int) (v : Val) : Except Err Upd :=
  if !v.isSom then .error .assertion
  else match pyIdx xs.length i with
    | none => .error .index
    | some k =>
      match xs[k]? with
      | none => .error .index
      | some old =>
        if v = .nil then
          if old = .nil then .ok .unchanged
          else .ok (.inPlace (.part (xs.set k .nil) (e + 1) t))
        else
          let e' := if old = .nil then e - 1 else e
          let xs' := xs.set k v
          let t' := nextType t v
          if t' = .obj ∨ e' = 0 then (withValuesOfType t' xs').map .fresh
          else .ok (.inPlace (.part xs' e' t'))

/-- `[x] * n` for a Python int `n` (empty list if negative). -/
def pyRep {α} (n : Int) (x : α) : List α := List.replicate n.toNat x

/-- `strategy.set_idx(array, idx, value)`: obj 239-242, long 305-321, double 390-394, bool 463-467,
empty 545-561, partially empty 640-677.  An exception leaves the array unchanged (every raising statement precedes
the first mutation). -/
def setIdx (s : Store) (i : Int) (v : Val) : Except Err Upd :=
  match s with
  | .obj xs => (listSet xs i v).map (fun ys => .inPlace (.obj ys))
  | .long xs => match v with
    | .int z => (listSet xs i z).map (fun ys => .inPlace (.long ys))
    | _ => (listSet (xs.map Val.int) i v).map (fun ys => .fresh (.obj ys))
  | .double xs => match v with
    | .dbl d => (listSet xs i (.float d)).map (fun ys => .inPlace (.double ys))
    | _ => .error .assertion
  | .bool xs => match v with
    | .bool b => (listSet xs i b).map (fun ys => .inPlace (.bool ys))
    | _ => .error .assertion
  | .empty n =>
    if 0 ≤ i ∧ i < n then
      if v = .nil then .ok .unchanged
      else if !v.isSom then .error .assertion
      else match partFromObjValues (pyRep n .nil) with
        | .error e => .error e
        | .ok (.part xs e t) =>
          -- the fresh partial storage is then filled by its own `set_idx`; whatever it does, the array ends up
          -- with a storage that did not exist before
          match partSetIdx xs e t i v with
          | .error err => .error err
          | .ok (.inPlace s') => .ok (.fresh s')
          | .ok (.fresh s') => .ok (.fresh s')
          | .ok .unchanged => .ok (.fresh (.part xs e t))
        | .ok _ => .error .other
    else .error .index
  | .part xs e t => partSetIdx xs e t i v

/-- `_ArrayStrategy._set_all_with_value` (`array.py:72-91`). -/
def setAllWithValue (v : Val) (size : Int) : Store :=
  match v with
  | .nil => .empty size
  | .int z => .long (pyRep size z)
  | .dbl d => .double (pyRep size (.float d))
  | .bool b => .bool (pyRep size b)
  | v => .obj (pyRep size v)

/-- `strategy.set_all(array, value)`: obj 244-250 and partially empty 680-685 assert a SOM object; long 323-327,
double 396-400, bool 469-473 do not; empty 563-569 keeps the array for nil and for size 0. -/
def setAll (s : Store) (v : Val) : Except Err Upd :=
  match s with
  | .empty n =>
    if v = .nil then .ok .unchanged
    else if 0 < n then .ok (.fresh (setAllWithValue v n)) else .ok .unchanged
  | .obj xs => if v.isSom then .ok (.fresh (setAllWithValue v xs.length)) else .error .assertion
  | .part xs _ _ => if v.isSom then .ok (.fresh (setAllWithValue v xs.length)) else .error .assertion
  | .long xs => .ok (.fresh (setAllWithValue v xs.length))
  | .double xs => .ok (.fresh (setAllWithValue v xs.length))
  | .bool xs => .ok (.fresh (setAllWithValue v xs.length))

/-- `_set_remaining_with_block_as_obj` (`array.py:218-228`).  `rs` are the results of the remaining block
invocations, in order (one per remaining index). -/
def asObj : (rs : List Val) → (i : Nat) → (sto : List Val) → Store
  | [], _, sto => .obj sto
  | r :: rs, i, sto => asObj rs (i + 1) (sto.set i r)

/-- `_set_remaining_with_block_as_nil` (`array.py:136-153`). -/
def asNil (size : Nat) : (rs : List Val) → (i : Nat) → Store
  | [], _ => .empty size
  | r :: rs, i =>
    if r = .nil then asNil size rs (i + 1)
    else asObj rs (i + 1) ((List.replicate size Val.nil).set i r)

/-- The transition buffer `[None] * size` with slots `0..i` (inclusive!) filled from the old storage
(`array.py:165-167`, `187-189`). -/
def transitionBuf {α} (size i : Nat) (box : α → Val) (sto : List α) : List Val :=
  (sto.take (i + 1)).map box ++ List.replicate (size - (i + 1)) .pyNone

/-- `_set_remaining_with_block_as_long` (`array.py:155-174`).  Note that on a non-Integer result the slot `i` is
filled from the *old* storage and the result itself is dropped. -/
def asLong (size : Nat) : (rs : List Val) → (i : Nat) → (sto : List Int) → Store
  | [], _, sto => .long sto
  | r :: rs, i, sto => match r with
    | .int z => asLong size rs (i + 1) (sto.set i z)
    | _ => asObj rs (i + 1) (transitionBuf size i Val.int sto)

/-- `_set_remaining_with_block_as_double` (`array.py:176-195`). -/
def asDouble (size : Nat) : (rs : List Val) → (i : Nat) → (sto : List DCell) → Store
  | [], _, sto => .double sto
  | r :: rs, i, sto => match r with
    | .dbl d => asDouble size rs (i + 1) (sto.set i (.float d))
    | _ => asObj rs (i + 1) (transitionBuf size i DCell.toVal sto)

/-- `_set_all_with_block` (`array.py:94-133`), with the results `rs` of the successive block invocations given as a
list of length `size`.  Simplification: the block does not itself store into the array being filled. -/
def setAllWithBlock (rs : List Val) : Store :=
  match rs with
  | [] => .empty 0
  | first :: rest =>
    let size := rs.length
    match first with
    | .nil => asNil size rest 1
    | .int z => asLong size rest 1 ((List.replicate size (0 : Int)).set 0 z)
    | .dbl d => asDouble size rest 1 ((List.replicate size (DCell.float 0)).set 0 (.float d))
    | .bool b => asDouble size rest 1 (List.replicate size (DCell.pyBool b))   -- sic: the double helper
    | v => asObj rest 1 ((List.replicate size Val.pyNone).set 0 v)

/-- `as_arguments_array` of the strategies: 259-260, 340-342, 413-415, 486-488, 575-577, 692-693. -/
def asArguments : Store → List Val
  | .obj xs => xs
  | .long xs => xs.map .int
  | .double xs => xs.map DCell.toVal
  | .bool xs => xs.map ofBool
  | .empty n => pyRep n .nil
  | .part xs _ _ => xs

/-- Result of `copy`: a fresh storage, or (empty strategy only) the very same storage object. -/
inductive Copied where
  | fresh (s : Store)
  | shared
  deriving DecidableEq, Repr

/-- `strategy.copy(storage)`: obj 275-277, long 359-361, double 432-434, bool 505-507, empty 591-592 (shares the
immutable size object), partially empty 708-713 (resets count and type). -/
def copy : Store → Except Err Copied
  | .obj xs => .ok (.fresh (.obj xs))
  | .long xs => .ok (.fresh (.long xs))
  | .double xs => .ok (.fresh (.double xs))
  | .bool xs => .ok (.fresh (.bool xs))
  | .empty _ => .ok .shared
  | .part xs _ _ => (partFromObjValues xs).map .fresh

/-- `strategy.copy_and_extend_with(storage, value)`: obj 279-291, long 363-376, double 436-449, bool 509-522,
empty 594-600, partially empty 715-728.  The result is always a fresh array. -/
def extend (s : Store) (v : Val) : Except Err Store :=
  match s with
  | .obj xs => .ok (.obj (xs ++ [v]))
  | .long xs => match v with
    | .int z => .ok (.long (xs ++ [z]))
    | _ => .error .assertion
  | .double xs => match v with
    | .dbl d => .ok (.double (xs ++ [.float d]))
    | _ => .error .assertion
  | .bool xs => match v with
    | .bool b => .ok (.bool (xs ++ [b]))
    | _ => .error .assertion
  | .empty n =>
    if v = .nil then .ok (.empty (n + 1))
    else match listSet (pyRep (n + 1) Val.nil) (-1) v with
      | .ok xs => .ok (.obj xs)
      | .error e => .error e
  | .part xs e t =>
    let s' := Store.part (xs ++ [.nil]) (e + 1) t
    match setIdx s' xs.length v with
    | .error err => .error err
    | .ok (.inPlace s'') => .ok s''
    | .ok (.fresh s'') => .ok s''
    | .ok .unchanged => .ok s'

/-- Flags of `_determine_strategy` (`array.py:739-765`): (is_empty, only_double, only_long, only_bool).  Python-level
ints, floats and bools, which no caller passes, are left out. -/
structure Flags where
  isEmpty : Bool := true
  onlyDouble : Bool := true
  onlyLong : Bool := true
  onlyBool : Bool := true
  deriving DecidableEq, Repr

/-- One iteration of the loop in `_determine_strategy` (`array.py:744-765`). -/
def Flags.step (f : Flags) : Val → Flags
  | .pyNone => f
  | .nil => f
  | .int _ => { f with isEmpty := false, onlyDouble := false, onlyBool := false }
  | .dbl _ => { f with isEmpty := false, onlyLong := false, onlyBool := false }
  | .bool _ => { f with isEmpty := false, onlyLong := false, onlyDouble := false }
  | .obj _ => { isEmpty := false, onlyDouble := false, onlyLong := false, onlyBool := false }

/-- `Array.from_values` (`array.py:789-794`) with `_determine_strategy` (`array.py:739-775`). -/
def fromValues (vs : List Val) : Except Err Store :=
  let f := vs.foldl Flags.step {}
  if f.isEmpty then .ok (.empty vs.length)
  else if f.onlyDouble then doubleWithValues vs
  else if f.onlyLong then longWithValues vs
  else if f.onlyBool then .ok (boolWithValues vs)
  else .ok (.obj vs)

/-- Python's `range(lo, hi + 1)` as a list. -/
def pyRange : (n : Nat) → (lo : Int) → List Int
  | 0, _ => []
  | n + 1, lo => lo :: pyRange n (lo + 1)

/-- The array answered by `Integer>>to:` (`primitives/integer_primitives.py:163-179`, identical on Python 2 and 3):
`Array.from_integers(list(range(lo, hi + 1)))` (`array.py:797-798`).  A non-Integer argument fails an assertion and
is not an operation of the model.  `hi + 1` wraps around on RPython, which is modelled in `Model/Prims.lean` only. -/
def rangeStore (lo hi : Int) : Store := .long (pyRange (hi + 1 - lo).toNat lo)

/-! ## Heap of arrays -/

/-- Mutable storage objects and arrays; `arrs[a]` is the address of the storage of array `a`. -/
structure Heap where
  stos : List Store := []
  arrs : List Nat := []
  deriving DecidableEq, Repr

/-- Operations on arrays as a SOM program can perform them (array arguments are array identities). -/
inductive Op where
  /-- `Array new: n` (`primitives/array_primitives.py:35-36`) -/
  | new (n : Int)
  /-- `a at: i` with a 1-based index (`array_primitives.py:16-17`) -/
  | at (a : Nat) (i : Int)
  /-- `a at: i put: v` (`array_primitives.py:20-22`) -/
  | put (a : Nat) (i : Int) (v : Val)
  /-- `a length` (`array_primitives.py:25-28`) -/
  | length (a : Nat)
  /-- `a copy` (`array_primitives.py:31-32`) -/
  | copy (a : Nat)
  /-- `a putAll: v` for a non-block value (`array_primitives.py:88-95`) -/
  | putAll (a : Nat) (v : Val)
  /-- `copy_and_extend_with`, used by the VM (`array.py:833`) -/
  | extend (a : Nat) (v : Val)
  /-- `lo to: hi` for Integers (`primitives/integer_primitives.py:163-179`) -/
  | range (lo hi : Int)
  /-- `Array.from_values` -/
  | values (vs : List Val)
  /-- `Array.from_objects` -/
  | objects (vs : List Val)
  deriving DecidableEq, Repr

/-- What an operation answers. -/
inductive Res where
  | array (a : Nat)
  | value (v : Val)
  | size (n : Int)
  | unit
  | error (e : Err)
  deriving DecidableEq, Repr

/-- The storage of array `a`, `none` if there is no such array (not a program error: ill-formed op). -/
def Heap.store (h : Heap) (a : Nat) : Option Store := (h.arrs[a]?).bind (fun p => h.stos[p]?)

/-- Allocate an array with a fresh storage. -/
def Heap.alloc (h : Heap) (s : Store) : Heap × Res :=
  ({ stos := h.stos ++ [s], arrs := h.arrs ++ [h.stos.length] }, .array h.arrs.length)

/-- Apply a storage update to array `a` whose storage address is `p`. -/
def Heap.apply (h : Heap) (a p : Nat) : Upd → Heap
  | .unchanged => h
  | .inPlace s => { h with stos := h.stos.set p s }
  | .fresh s => { stos := h.stos ++ [s], arrs := h.arrs.set a h.stos.length }

/-- One array operation (`Array` API, `array.py:778-840`, called by the primitives with `index - 1`). -/
def Heap.step (h : Heap) (op : Op) : Heap × Res :=
  match op with
  | .new n => h.alloc (.empty n)
  | .at a i => match h.store a with
    | none => (h, .error .other)
    | some s => match getIdx s (i - 1) with
      | .ok v => (h, .value v)
      | .error e => (h, .error e)
  | .put a i v => match h.arrs[a]? with
    | none => (h, .error .other)
    | some p => match h.stos[p]? with
      | none => (h, .error .other)
      | some s => match setIdx s (i - 1) v with
        | .ok u => (h.apply a p u, .unit)
        | .error e => (h, .error e)
  | .length a => match h.store a with
    | none => (h, .error .other)
    | some s => (h, .size (getSize s))
  | .copy a => match h.arrs[a]? with
    | none => (h, .error .other)
    | some p => match h.stos[p]? with
      | none => (h, .error .other)
      | some s => match copy s with
        | .ok (.fresh s') => h.alloc s'
        | .ok .shared => ({ h with arrs := h.arrs ++ [p] }, .array h.arrs.length)
        | .error e => (h, .error e)
  | .putAll a v => match h.arrs[a]? with
    | none => (h, .error .other)
    | some p => match h.stos[p]? with
      | none => (h, .error .other)
      | some s => match setAll s v with
        | .ok u => (h.apply a p u, .unit)
        | .error e => (h, .error e)
  | .extend a v => match h.store a with
    | none => (h, .error .other)
    | some s => match extend s v with
      | .ok s' => h.alloc s'
      | .error e => (h, .error e)
  | .range lo hi => h.alloc (rangeStore lo hi)
  | .values vs => match fromValues vs with
    | .ok s => h.alloc s
    | .error e => (h, .error e)
  | .objects vs => h.alloc (.obj vs)

/-- Run a sequence of operations, collecting the results. -/
def Heap.run (h : Heap) : List Op → Heap × List Res
  | [] => (h, [])
  | op :: ops =>
    let (h', r) := h.step op
    let (h'', rs) := Heap.run h' ops
    (h'', r :: rs)

end PySOM.Arr

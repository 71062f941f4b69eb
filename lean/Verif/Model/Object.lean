import Verif.Model.Base
/-!
# Model of objects with layouts

`src/som/vmobjects/object_with_layout.py`, `src/som/interpreter/objectstorage/object_layout.py`,
`src/som/interpreter/objectstorage/storage_location.py` and the layout updates of `src/som/vmobjects/clazz.py:150-162`.

Layouts of one class form a chain in which every update changes the storage types, so a layout is represented by its
list of storage types and the Python test `is` on layouts becomes equality of these lists.
-/
set_option autoImplicit false
namespace PySOM.Obj

/-- Values as far as storage distinguishes them.  BigIntegers, strings, blocks … are `obj`. -/
inductive Val where
  | nil
  | int (i : Int)
  | dbl (d : Dbl)
  | obj (id : Nat)
  deriving DecidableEq, Repr

/-- Storage types (`object_layout.py:33`, `42-54`): `None`, `Integer`, `Double`, `Object`. -/
inductive Ty where
  | unwritten
  | int
  | dbl
  | obj
  deriving DecidableEq, Repr

def Ty.isPrim : Ty → Bool
  | .int => true
  | .dbl => true
  | _ => false

abbrev Layout := List Ty

/-- `NUMBER_OF_PRIMITIVE_FIELDS`, `NUMBER_OF_POINTER_FIELDS` (`storage_location.py:12-13`). -/
def nPrim : Nat := 5
def nPtr : Nat := 5

/-- `next_free_prim_idx` when the constructor's loop reaches field `i` (`object_layout.py:37-47`). -/
def primIdx (L : Layout) (i : Nat) : Nat := (L.take i).countP Ty.isPrim
/-- `next_free_ptr_idx` when the loop reaches field `i` (`object_layout.py:38`, `48-50`). -/
def ptrIdx (L : Layout) (i : Nat) : Nat := (L.take i).countP (· == .obj)
/-- `_prim_locations_used`, `_ptr_locations_used` (`object_layout.py:57-58`). -/
def primUsed (L : Layout) : Nat := L.countP Ty.isPrim
def ptrUsed (L : Layout) : Nat := L.countP (· == .obj)

/-- `_get_primitive_field_mask` (`storage_location.py:53-58`). -/
def mask (storeIdx : Nat) : Nat := if storeIdx < 32 then 1 <<< storeIdx else 0

/-- An object (`object_with_layout.py:19-54`): five direct pointer and primitive fields, the extension lists
(`fields` is `None` without extension, hence the `Option`), and the bit map of primitive fields in use. -/
structure Object where
  layout : Layout
  ptr : List Val
  prim : List Int
  ptrExt : Option (List Val)
  primExt : List Int
  used : Nat
  deriving DecidableEq, Repr

/-- `float2longlong` and `longlong2float`: a double is its bit pattern. -/
def toWord (d : Dbl) : Int := d
def ofWord (w : Int) : Dbl := w.toNat

/-- The extension lists allocated for a layout (`object_with_layout.py:41-54`, `98-110`, `object_layout.py:106-116`). -/
def allocPtrExt (L : Layout) : Option (List Val) :=
  if ptrUsed L - nPtr > 0 then some (List.replicate (ptrUsed L - nPtr) .nil) else none
def allocPrimExt (L : Layout) : List Int := List.replicate (primUsed L - nPrim) 0

/-- `Object.__init__` for a class's instances (`object_with_layout.py:19-54`). -/
def Object.new (L : Layout) : Object :=
  ⟨L, List.replicate nPtr .nil, List.replicate nPrim 0, allocPtrExt L, allocPrimExt L, 0⟩

/-- `is_primitive_set`, `mark_prim_as_set`, `mark_prim_as_unset` (`object_with_layout.py:147-156`);
`used ^^^ (used &&& m)` is `used & ~m`. -/
def isSet (o : Object) (m : Nat) : Bool := o.used &&& m != 0
def markSet (o : Object) (m : Nat) : Object := if o.used &&& m = 0 then { o with used := o.used ||| m } else o
def markUnset (o : Object) (m : Nat) : Object := if o.used &&& m ≠ 0 then { o with used := o.used ^^^ (o.used &&& m) } else o

/-- Read and write of the pointer slot `k` (direct `_field{k+1}` or extension, `storage_location.py:162-183`, `200-216`). -/
def getPtr (o : Object) (k : Nat) : Except Err Val :=
  if k < nPtr then (match o.ptr[k]? with | some v => .ok v | none => .error .attribute)
  else match o.ptrExt with
    | none => .error .type
    | some ext => match ext[k - nPtr]? with | some v => .ok v | none => .error .index
def setPtr (o : Object) (k : Nat) (v : Val) : Except Err Object :=
  if k < nPtr then .ok { o with ptr := o.ptr.set k v }
  else match o.ptrExt with
    | none => .error .type
    | some ext => if k - nPtr < ext.length then .ok { o with ptrExt := some (ext.set (k - nPtr) v) } else .error .index

/-- Read and write of the primitive slot `k` (direct `prim_field{k+1}` or extension). -/
def getPrim (o : Object) (k : Nat) : Except Err Int :=
  if k < nPrim then (match o.prim[k]? with | some v => .ok v | none => .error .attribute)
  else match o.primExt[k - nPrim]? with | some v => .ok v | none => .error .index
def setPrim (o : Object) (k : Nat) (w : Int) : Except Err Object :=
  if k < nPrim then .ok { o with prim := o.prim.set k w }
  else if k - nPrim < o.primExt.length then .ok { o with primExt := o.primExt.set (k - nPrim) w } else .error .index

/-- `location.read_fn` (`storage_location.py:153-154`, `166-170`, `195-196`, `221-228`, `259-265`, `295-298`, `321-325`). -/
def readLoc (o : Object) (i : Nat) : Except Err Val :=
  match o.layout[i]? with
  | none => .error .index
  | some .unwritten => .ok .nil
  | some .obj => getPtr o (ptrIdx o.layout i)
  | some .int =>
    if isSet o (mask (primIdx o.layout i)) then (getPrim o (primIdx o.layout i)).map (fun w => .int w) else .ok .nil
  | some .dbl =>
    if isSet o (mask (primIdx o.layout i)) then (getPrim o (primIdx o.layout i)).map (fun w => .dbl (ofWord w)) else .ok .nil

/-- `location.is_set_fn` (`storage_location.py:149-150`, `191-192`, `217-218`). -/
def isFieldSet (o : Object) (i : Nat) : Bool :=
  match o.layout[i]? with
  | some .obj => true
  | some .int => isSet o (mask (primIdx o.layout i))
  | some .dbl => isSet o (mask (primIdx o.layout i))
  | _ => false

/-- Outcome of `location.write_fn`: the two exceptions are the control flow of `set_field`. -/
inductive Write where
  | done (o : Object)
  | uninitialized
  | generalize
  | err (e : Err)
  deriving DecidableEq, Repr

def Write.of : Except Err Object → Write
  | .ok o => .done o
  | .error e => .err e

/-- `_unset_or_generalize` (`storage_location.py:210-214`). -/
def unsetOrGeneralize (o : Object) (m : Nat) (v : Val) : Write := if v = .nil then .done (markUnset o m) else .generalize

/-- `location.write_fn` (`storage_location.py:161-163`, `184-188`, `206-207`, `244-256`, `284-292`, `313-318`, `337-344`). -/
def writeLoc (o : Object) (i : Nat) (v : Val) : Write :=
  match o.layout[i]? with
  | none => .err .index
  | some .unwritten => if v = .nil then .done o else .uninitialized
  | some .obj => .of (setPtr o (ptrIdx o.layout i) v)
  | some .int =>
    match v with
    | .int w => .of ((setPrim o (primIdx o.layout i) w).map (fun o' => markSet o' (mask (primIdx o.layout i))))
    | v => unsetOrGeneralize o (mask (primIdx o.layout i)) v
  | some .dbl =>
    match v with
    | .dbl d => .of ((setPrim o (primIdx o.layout i) (toWord d)).map (fun o' => markSet o' (mask (primIdx o.layout i))))
    | v => unsetOrGeneralize o (mask (primIdx o.layout i)) v

/-- The storage type chosen for a value's class (`object_layout.py:83-86`). -/
def tyOf : Val → Ty
  | .int _ => .int
  | .dbl _ => .dbl
  | _ => .obj

/-- `with_initialized_field` (`object_layout.py:78-98`). -/
def withInitialized (L : Layout) (i : Nat) (t : Ty) : Except Err Layout :=
  if L[i]? = some t then .ok L
  else if L[i]? = some .unwritten then .ok (L.set i t) else .error .assertion

/-- `with_generalized_field` (`object_layout.py:63-76`). -/
def withGeneralized (L : Layout) (i : Nat) : Except Err Layout :=
  if L[i]? = some .obj then .ok L
  else if L[i]? = some .unwritten then .error .assertion else .ok (L.set i .obj)

/-- `_get_all_fields` (`object_with_layout.py:56-63`); `none` is Python's `None`. -/
def getAllFields (o : Object) : Except Err (List (Option Val)) :=
  (List.range o.layout.length).mapM fun i => if isFieldSet o i then (readLoc o i).map some else .ok none

/-- The loop of `_set_all_fields` (`object_with_layout.py:74-78`) from field `i` on.  Every store of the loop succeeds without
a further layout change (`transfer_spec` proves it), so the exceptions of `write_fn` are simply errors here. -/
def setFieldsFrom (o : Object) (i : Nat) : List (Option Val) → Except Err Object
  | [] => .ok o
  | v :: vs =>
    match writeLoc o i (v.getD .nil) with
    | .done o => setFieldsFrom o (i + 1) vs
    | .err e => .error e
    | _ => .error .other

/-- `_set_layout_and_transfer_fields` with `_set_all_fields` (`object_with_layout.py:93-112`, `65-78`). -/
def transfer (o : Object) (L : Layout) : Except Err Object := do
  let vals ← getAllFields o
  setFieldsFrom ⟨L, List.replicate nPtr .nil, List.replicate nPrim 1234567890, allocPtrExt L, allocPrimExt L, 0⟩ 0 vals

/-- `get_field` (`object_with_layout.py:168-173`) with Python's list indexing in `get_storage_location`. -/
def getField (o : Object) (i : Int) : Except Err Val :=
  match pyIdx o.layout.length i with
  | some k => readLoc o k
  | none => .error .index

/-- `set_field` (`object_with_layout.py:179-202`) on an object of a class whose current layout is `K`: the object and the
class's layout afterwards.  With `update_layout_with_initialized_field`, `update_layout_with_generalized_field` (114-134). -/
def setField (K : Layout) (o : Object) (i : Nat) (v : Val) : Except Err (Layout × Object) :=
  match writeLoc o i v with
  | .done o => .ok (K, o)
  | .err e => .error e
  | .uninitialized => do
    let L ← withInitialized K i (tyOf v)
    if L = o.layout then .error .assertion
    else
      let o ← transfer o L
      match writeLoc o i v with
      | .done o => return (L, o)
      | .err e => .error e
      | _ => .error .other
  | .generalize => do
    let L ← withGeneralized K i
    if L = o.layout then .error .assertion
    else
      let o ← transfer o L
      match writeLoc o i v with
      | .done o => return (L, o)
      | .err e => .error e
      | _ => .error .other

/-- How numbers are incremented: the range of machine integers, `+ 1.0` on doubles, the BigInteger of a number, and `prim_inc` of
values that are stored as objects (BigIntegers; other objects have no `prim_inc`). -/
structure Inc where
  fits : Int → Bool
  dinc : Dbl → Dbl
  big : Int → Nat
  pinc : Nat → Except Err Val

/-- `prim_inc` (`integer.py:117-125`, `double.py:44-45`, `biginteger.py:112-113`); nil has no such attribute. -/
def primInc (N : Inc) : Val → Except Err Val
  | .nil => .error .attribute
  | .int k => if N.fits (k + 1) then .ok (.int (k + 1)) else .ok (.obj (N.big (k + 1)))
  | .dbl d => .ok (.dbl (N.dinc d))
  | .obj n => N.pinc n

/-- `inc_field` (`object_with_layout.py:175-177`) with the `inc_fn` of the location (`storage_location.py:157-158`, `173-181`,
`199-203`, `231-241`, `268-281`, `306-315`, `334-340`): the new value and the object afterwards. -/
def incLoc (N : Inc) (o : Object) (i : Nat) : Except Err (Val × Object) :=
  match o.layout[i]? with
  | none => .error .index
  | some .unwritten => .error .other
  | some .obj => do
    let v ← getPtr o (ptrIdx o.layout i)
    let u ← primInc N v
    let o ← setPtr o (ptrIdx o.layout i) u
    return (u, o)
  | some .int =>
    if isSet o (mask (primIdx o.layout i)) then do
      let w ← getPrim o (primIdx o.layout i)
      if N.fits (w + 1) then
        let o ← setPrim o (primIdx o.layout i) (w + 1)
        return (.int (w + 1), o)
      else .error .notImplemented
    else .error .notImplemented
  | some .dbl =>
    if isSet o (mask (primIdx o.layout i)) then do
      let w ← getPrim o (primIdx o.layout i)
      let o ← setPrim o (primIdx o.layout i) (toWord (N.dinc (ofWord w)))
      return (.dbl (N.dinc (ofWord w)), o)
    else .error .notImplemented

/-- `update_layout_to_match_class` (`object_with_layout.py:80-91`), called by message dispatch for objects with an old
layout. -/
def sync (K : Layout) (o : Object) : Except Err Object :=
  if o.layout.length ≠ K.length then .error .assertion else if o.layout ≠ K then transfer o K else .ok o

/-! ## A class and its instances -/

/-- The current layout of the class and its instances. -/
structure World where
  cls : Layout
  objs : List Object
  deriving Repr

/-- A class with `n` fields and no instances (`clazz.py:33`, `object_layout.py:33`). -/
def World.init (n : Nat) : World := ⟨List.replicate n .unwritten, []⟩

/-- Operations on the instances. -/
inductive Op where
  /-- create an instance -/
  | new
  /-- store a value in field `i` of instance `o` -/
  | set (o i : Nat) (v : Val)
  /-- read field `i` of instance `o` -/
  | get (o i : Nat)
  /-- message dispatch brings instance `o` up to date -/
  | sync (o : Nat)
  deriving Repr, DecidableEq

/-- One operation; operations on instances that do not exist do nothing. -/
def step (w : World) : Op → Except Err (Option Val × World)
  | .new => .ok (none, { w with objs := w.objs ++ [.new w.cls] })
  | .get o i => match w.objs[o]? with
    | none => .ok (none, w)
    | some ob => do return (some (← getField ob i), w)
  | .set o i v => match w.objs[o]? with
    | none => .ok (none, w)
    | some ob => do
      let (K, ob) ← setField w.cls ob i v
      return (none, ⟨K, w.objs.set o ob⟩)
  | .sync o => match w.objs[o]? with
    | none => .ok (none, w)
    | some ob => do
      let ob ← sync w.cls ob
      return (none, { w with objs := w.objs.set o ob })

/-- A history; it ends at the first error. -/
def run (w : World) : List Op → Except Err (List (Option Val) × World)
  | [] => .ok ([], w)
  | op :: ops => do
    let (r, w) ← step w op
    let (rs, w) ← run w ops
    return (r :: rs, w)

/-! ## Reflection -/

/-- `_object_size` for an object with fields (`object_primitives.py:17-27` with `object_with_layout.py:143-145`):
`len(self.fields)`. -/
def objectSize (o : Object) : Except Err Int :=
  match o.ptrExt with
  | none => .error .type
  | some ext => .ok ext.length

/-- `_inst_var_at` (`object_primitives.py:36-37`). -/
def instVarAt (o : Object) (i : Int) : Except Err Val := getField o (i - 1)

/-- `_inst_var_named` (`object_primitives.py:45-47`); `idx` is what `lookup_field_index` answers. -/
def instVarNamed (o : Object) (idx : Int) : Except Err Val := getField o idx

/-- `_inst_var_at_put` (`object_primitives.py:40-42`) for an index that Python's indexing accepts. -/
def instVarAtPut (K : Layout) (o : Object) (i : Int) (v : Val) : Except Err (Layout × Object) :=
  match pyIdx o.layout.length (i - 1) with
  | some k => setField K o k v
  | none => .error .index

end PySOM.Obj

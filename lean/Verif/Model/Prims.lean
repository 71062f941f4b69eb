import Verif.Model.Machine
import Verif.Model.Loops
import Verif.Model.Strings
/-!
# The primitives of the VM on the machine

`Model/Machine.lean` leaves open what primitives compute.  Here they are those of `src/som/primitives`: arithmetic and comparison of numbers (`integer_primitives.py`, `double_primitives.py`, with
`Model/Numeric.lean`), counting loops (`bc/integer_primitives.py`), booleans, blocks and `whileTrue:`, objects and `perform:`, arrays, strings and symbols (with `Model/Strings.lean`), globals and printing.

Left out: `sin`, `cos`, `Double class>>fromString:`, `hashcode`, `objectSize`, reflection on
classes (but `superclass` and `name`) and methods, loading classes and files, the clock, and leaving the VM.

Simplifications: `putAll:` with a block raises an error for answers that begin with a Boolean or with a `Double` that others follow (C11), and if the array has another length than before, which does not happen (C79); an array is the list of its elements (C12–C14 are about the strategies), so that a double that was stored is the same object when it is read, and `at: 0` reads
the last element also of an array that was never written to, which is an `IndexError`; sizes are not negative; `asInteger`, `round` and `sqrt` answer the number also if it is no machine integer, where RPython's conversion is undefined; the answer `None` of `do:` and `doIndexes:` is written `nil` (C52); a primitive that gets the wrong number of arguments, which does not happen (C57), raises a `TypeError`.
-/
set_option autoImplicit false
namespace PySOM.Mach
open PySOM BC

/-- The contents of objects that are not instances with fields: arrays (`vmobjects/array.py`), strings (`string.py`), doubles (`double.py`), big integers (`biginteger.py`), classes (`clazz.py`). -/
inductive Data (F : Type) where
  | arr (vs : List Val)
  | str (s : List Char)
  | dbl (f : F)
  | big (i : Int)
  | cls (c : Nat)

/-- What has been written to the standard output and to the error output (`vm/universe.py:487-500`). -/
structure Printed where
  out : List Char
  err : List Char

/-- Floats, with Python's comparisons of an `int` and a `float` (`bc/integer_primitives.py:71-78, 141-148`), `math.sqrt` (`integer_primitives.py:44`, `double_primitives.py:15`), `int(round_double(x, 0))` (`double_primitives.py:76-80`,
`rlib/float.py:17-33`) and `INFINITY` (`rlib/float.py:3`). -/
structure Floats (F : Type) extends Num.FloatOps F where
  leI : Int → F → Bool
  geI : Int → F → Bool
  sqrt : F → Except Err F
  round : F → Except Err Int
  infinity : F

/-- Primitives with two numbers that answer a number. -/
inductive Arith where
  | plus | minus | times | over | div | mod | rem | band | xor | shl | shr
  deriving DecidableEq

/-- Primitives with two numbers that answer a boolean. -/
inductive Compare where
  | lt | le | gt | ge | eq | ne | same
  deriving DecidableEq

/-- Kinds of characters: those that Python's `isspace`, `isalpha` and `isdigit` are about (`string_primitives.py:55-88`). -/
inductive CharKind where
  | space | alpha | digit
  deriving DecidableEq

/-- The primitives. -/
inductive Prim where
  | arith (o : Arith)
  | compare (o : Compare)
  | min | max | abs | as32s | as32u | numString
  | to | fromString | asDouble | asInteger | round | intSqrt | dblSqrt | infinity | superclass
  | toDo | downToDo | toByDo
  | identical | instVarAt | instVarAtPut | halt | theClass | perform | performIn | performWith | new
  | trueNot | trueOr | trueAnd | trueIfFalse | trueIfElse | falseNot | falseAnd | falseOr | falseIfElse
  | value | whileTrue | whileFalse | restart
  | arrAt | arrPut | arrLength | arrCopy | arrNew | arrIndexes | arrDo | arrPutAll
  | concat | asSymbol | strLength | strEq | substring | charAt | symString | symEq
  | name | instVarNamed | kind (k : CharKind) | strHash
  | global | hasGlobal | globalPut | print | newline | errPrint | errPrintln | fullGC
  deriving DecidableEq

/-- All of them, in some order. -/
def Prim.all : List Prim :=
  [Arith.plus, .minus, .times, .over, .div, .mod, .rem, .band, .xor, .shl, .shr].map .arith ++ [Compare.lt, .le, .gt, .ge, .eq, .ne, .same].map .compare ++
  [.min, .max, .abs, .as32s, .as32u, .numString, .toDo, .downToDo, .toByDo, .identical, .instVarAt, .instVarAtPut, .halt, .theClass, .perform, .performIn, .performWith, .new, .trueNot, .trueOr, .trueAnd,
   .trueIfFalse, .trueIfElse, .falseNot, .falseAnd, .falseOr, .falseIfElse, .value, .whileTrue, .whileFalse, .restart, .arrAt, .arrPut, .arrLength, .arrCopy, .arrNew, .arrIndexes, .arrDo, .arrPutAll, .concat,
   .asSymbol, .strLength, .strEq, .substring, .charAt, .symString, .symEq, .global, .hasGlobal, .globalPut, .print, .newline, .errPrint, .errPrintln, .fullGC,
   .to, .fromString, .asDouble, .asInteger, .round, .intSqrt, .dblSqrt, .infinity, .superclass, .name, .instVarNamed, .kind .space, .kind .alpha, .kind .digit, .strHash]

/-- The number of a primitive. -/
def Prim.num (x : Prim) : Nat := Prim.all.idxOf x

/-- The classes of a program: superclasses, tables, the classes that the VM itself uses, the objects that the classes are, the numbers of fields of instances,
the names of the classes and of the fields of instances, and what Python says about characters (unless something else is given, what Lean says, which is the same for ASCII);
and the hash of a text (`rlib/objectmodel.py:24-26`, Python's `hash`), which is any function: the given one stands for it. -/
structure Image (ι : Type) where
  chain : Nat → List Nat
  table : Nat → Sel → Option (ι ⊕ Prim)
  nilCls : Nat
  truCls : Nat
  flsCls : Nat
  intCls : Nat
  symCls : Nat
  dblCls : Nat
  strCls : Nat
  arrCls : Nat
  blkCls : Nat → Nat
  blkArgs : Nat → Nat
  catches : ι → Bool
  clsObj : Nat → Nat
  nflds : Nat → Nat
  clsName : Nat → Sel := fun _ => []
  fldNames : Nat → List Sel := fun _ => []
  chars : CharKind → Char → Bool := fun
    | .space => Char.isWhitespace
    | .alpha => Char.isAlpha
    | .digit => Char.isDigit
  hash : Sel → Int := fun s => s.foldl (fun h c => h * 31 + c.toNat) 0

/-- What a primitive is doing: starting, answering what a call answered, in a `while` loop before or after its condition, in a counting loop, going through an array, or filling one with what a block answers. -/
inductive Go (F : Type) where
  | start (x : Option Prim) (vs : List Val)
  | answer (v : Val)
  | «while» (cond body want : Val)
  | tested (cond body want got : Val)
  | count (rcvr blk : Val) (up : Bool) (limit : Int ⊕ F) (inc i : Int)
  | indexes (blk : Val) (len i : Nat)
  | each (arr blk : Val) (len i : Nat)
  | fill (arr blk : Val) (len : Nat) (got : List Val)

section
variable {ι F : Type}

/-- The heap with what was printed. -/
abbrev Mem (F : Type) := Shared (Data F) Printed

/-- A value as the primitives for numbers see it.  (Doubles and big integers have their classes; other objects with such contents are not made.) -/
def Image.num (I : Image ι) (sh : Mem F) : Val → Num.Num F
  | .int i => .int i
  | .obj a => match sh.objs[a]? with
    | some (.data c (.dbl f)) => if c = I.dblCls then .dbl f else .obj a
    | some (.data c (.big i)) => if c = I.intCls then .big i else .obj a
    | _ => .obj a
  | _ => .obj 0

/-- A new object. -/
def alloc (sh : Mem F) (o : Obj (Data F)) : Mem F × Val := ({ sh with objs := sh.objs ++ [o] }, .obj sh.objs.length)

/-- The object for a number: doubles and big integers are new objects (`Double(…)`, `BigInteger(…)`). -/
def Image.box (I : Image ι) (sh : Mem F) : Num.Num F → Mem F × Val
  | .int i => (sh, .int i)
  | .big i => alloc sh (.data I.intCls (.big i))
  | .dbl f => alloc sh (.data I.dblCls (.dbl f))
  | .obj a => (sh, .obj a)

/-- `prim_inc`, `prim_dec` and the like, on objects. -/
def Image.boxed (I : Image ι) (sh : Mem F) : Except Err (Num.Num F) → Mem F × Except Err Val
  | .ok n => ((I.box sh n).1, .ok (I.box sh n).2)
  | .error e => (sh, .error e)

/-- A primitive ends. -/
def ends (x : Mem F × Except Err Val) : Mem F × Move (Go F) := (x.1, match x.2 with | .ok v => .done v | .error e => .raise e)

def bool (b : Bool) : Val := if b then .tru else .fls

/-- `get_embedded_integer` (`integer.py:22-23`); there is none in other classes. -/
def embInt : Val → Except Err Int
  | .int i => .ok i
  | _ => .error .attribute

/-- `get_embedded_double` (`double.py:15-16`); there is none in other classes. -/
def embDbl : Num.Num F → Except Err F
  | .dbl f => .ok f
  | _ => .error .attribute

/-- `prim_as_double` (`integer.py:105-108`, `biginteger.py:99-102`); there is none in other classes. -/
def asDouble (fo : Floats F) : Num.Num F → Except Err (Num.Num F)
  | .int i => (fo.ofInt i).map .dbl
  | .big i => (fo.ofInt i).map .dbl
  | _ => .error .attribute

/-- `_sqrt` (`integer_primitives.py:42-47`). -/
def intSqrt (fo : Floats F) : Val → Except Err (Num.Num F)
  | .int i => do
    let res ← fo.sqrt (← fo.ofInt i)
    let j ← fo.toInt res
    if fo.eq res (← fo.ofInt j) then .ok (.int j) else .ok (.dbl res)
  | _ => .error .assertion

/-- The elements of `list(range(lo, lo + n))` (`integer_primitives.py:163-179`). -/
def ints : Nat → Int → List Val
  | 0, _ => []
  | n + 1, lo => .int lo :: ints n (lo + 1)

/-- Strings, symbols, integers and others, as the primitives for strings see them. -/
def strObj (sh : Mem F) : Val → Str.Obj
  | .sym s => .sym s
  | .int i => .int i
  | .obj a => match sh.objs[a]? with
    | some (.data _ (.str s)) => .str s
    | _ => .other a
  | _ => .other 0

/-- The object for the answer of a primitive for strings. -/
def Image.ofStr (I : Image ι) (sh : Mem F) : Except Err Str.Obj → Mem F × Except Err Val
  | .ok (.str s) => ((alloc sh (.data I.strCls (.str s))).1, .ok (alloc sh (.data I.strCls (.str s))).2)
  | .ok (.sym s) => (sh, .ok (.sym s))
  | .ok (.int i) => (sh, .ok (.int i))
  | .ok (.other a) => (sh, .ok (.obj a))
  | .error e => (sh, .error e)

/-- `isinstance(arg, _Block)` -/
def isBlock (sh : Mem F) : Val → Bool
  | .obj a => match sh.objs[a]? with
    | some (.block _ _ _) => true
    | _ => false
  | _ => false

/-- The elements of an array. -/
def elems (sh : Mem F) : Val → Except Err (Nat × Nat × List Val)
  | .obj a => match sh.objs[a]? with
    | some (.data c (.arr vs)) => .ok (a, c, vs)
    | _ => .error .attribute
  | _ => .error .attribute

/-- The fields of an object; objects without fields have no `get_field` (`object_without_fields.py`). -/
def fieldsOf (sh : Mem F) : Val → Except Err (Nat × Nat × List Val)
  | .obj a => match sh.objs[a]? with
    | some (.inst c (v :: vs)) => .ok (a, c, v :: vs)
    | _ => .error .attribute
  | _ => .error .attribute

/-- The index of an element, counted from 1 (`array_primitives.py:16-22`); Python counts negative indices from the end. -/
def position (n : Nat) (i : Int) : Except Err Nat := match pyIdx n (i - 1) with
  | some j => .ok j
  | none => .error .index

/-- `arg if not a block, else the value of the block` (`true_primitives.py:24-28, 35-39`, `false_primitives.py:21-25, 32-36`). -/
def valueOrArg (sh : Mem F) (v : Val) : Mem F × Move (Go F) := (sh, if isBlock sh v then .call (.value [v]) .answer else .done v)

/-- The numbers of `integer_primitives.py:50-79, 126-156` and `double_primitives.py:18-35`. -/
def Arith.op (p : Platform) (fo : Floats F) : Arith → Num.Num F → Num.Num F → Except Err (Num.Num F)
  | .plus => Num.primAdd p fo.toFloatOps
  | .minus => Num.primSubtract p fo.toFloatOps
  | .times => Num.primMultiply p fo.toFloatOps
  | .over => Num.primDoubleDiv p fo.toFloatOps
  | .div => Num.primIntDiv p fo.toFloatOps
  | .mod => Num.primModulo p fo.toFloatOps
  | .rem => Num.primRemainder p fo.toFloatOps
  | .band => Num.primAnd p fo.toFloatOps
  | .xor => Num.primBitXor
  | .shl => Num.primShl p
  | .shr => Num.primShr p

/-- The comparisons of `integer_primitives.py:82-123` and `double_primitives.py:38-73`. -/
def Compare.op (p : Platform) (fo : Floats F) : Compare → Num.Num F → Num.Num F → Except Err Bool
  | .lt => Num.primLessThan p fo.toFloatOps
  | .le => Num.primLessEq p fo.toFloatOps
  | .gt => Num.primGreater p fo.toFloatOps
  | .ge => Num.primGreaterEq p fo.toFloatOps
  | .eq => Num.primEquals p fo.toFloatOps
  | .ne => Num.primUnequals p fo.toFloatOps
  | .same => Num.primIdentical p fo.toFloatOps

/-- The limit of a counting loop: a Double, or `get_embedded_integer` of it. -/
def Image.limit (I : Image ι) (sh : Mem F) (v : Val) : Except Err (Int ⊕ F) :=
  match I.num sh v with
  | .dbl f => .ok (.inr f)
  | _ => (embInt v).map .inl

/-- `i <= top` or `i >= bottom`. -/
def within (fo : Floats F) (up : Bool) (i : Int) : Int ⊕ F → Bool
  | .inl n => if up then decide (i ≤ n) else decide (i ≥ n)
  | .inr f => if up then fo.leI i f else fo.geI i f

/-- The beginnings of `_to_do`, `_down_to_do` and `_to_by_do` (`bc/integer_primitives.py:81-126, 151-160`): `block.get_method()`, the receiver, the limit, the step. -/
def Image.counting (I : Image ι) (sh : Mem F) (up : Bool) (rcvr limit : Val) (inc : Except Err Int) (blk : Val) : Mem F × Move (Go F) :=
  (sh, if isBlock sh blk then
      match embInt rcvr with
      | .error e => .raise e
      | .ok i => match inc with
        | .error e => .raise e
        | .ok d => match I.limit sh limit with
          | .error e => .raise e
          | .ok l => .next (.count rcvr blk up l d i)
    else .raise .attribute)

/-- `get_class` -/
def Image.classOf (I : Image ι) (sh : Mem F) : Val → Option Nat
  | .nil => some I.nilCls
  | .tru => some I.truCls
  | .fls => some I.flsCls
  | .int _ => some I.intCls
  | .sym _ => some I.symCls
  | .obj a => match sh.objs[a]? with
    | some (.inst c _) => some c
    | some (.block id _ _) => some (I.blkCls (I.blkArgs id))
    | some (.data c _) => some c
    | none => none

/-- The class that an object is. -/
def classAt (sh : Mem F) : Val → Except Err Nat
  | .obj a => match sh.objs[a]? with
    | some (.data _ (.cls c)) => .ok c
    | _ => .error .attribute
  | _ => .error .attribute

/-- `current_universe.set_global` (`universe.py:382-395`); what is not a symbol is another key. -/
def putGlobal (sh : Mem F) (k v : Val) : Mem F :=
  match k with
  | .sym s => { sh with globals := fun x => if x = s then some v else sh.globals x }
  | _ => sh

/-- `current_universe.get_global` (`universe.py:369-380`). -/
def getGlobal (sh : Mem F) : Val → Option Val
  | .sym s => sh.globals s
  | _ => none

/-- Writing a text. -/
def printed (sh : Mem F) (rcvr : Val) (s : Except Err Str.Str) (f : Printed → Str.Str → Printed) : Mem F × Except Err Val :=
  match s with
  | .ok s => ({ sh with ext := f sh.ext s }, .ok rcvr)
  | .error e => (sh, .error e)

/-- `lookup_field_index` (`clazz.py:112-122`): the names from the last one to the first; -1 if there is no such field. -/
def lookField (names : List Sel) (s : Sel) : Nat → Int
  | 0 => -1
  | k + 1 => if names[k]? = some s then k else lookField names s k

/-- Whether a value is a `Double` (`isinstance(result, Double)`, `array.py:177`). -/
def Image.isDbl (I : Image ι) (sh : Mem F) (v : Val) : Bool := match I.num sh v with
  | .dbl _ => true
  | _ => false

/-- What `_set_remaining_with_block_as_long` (`array.py:153-171`) makes of the answers after an Integer: up to `next_i` the storage of machine integers is copied,
so that the first answer that is not an `Integer` is replaced by the zero that was there. -/
def afterInts : List Val → List Val
  | [] => []
  | .int i :: vs => .int i :: afterInts vs
  | _ :: vs => .int 0 :: vs

/-- What `_set_all_with_block` (`array.py:93-226`) makes of the answers.  Not modelled (`none`): answers that begin with a Boolean or with a `Double` and are not all `Double`s, where the
code stores something else (C11). -/
def Image.collected (I : Image ι) (sh : Mem F) : List Val → Option (List Val)
  | [] => some []
  | .int i :: vs => some (.int i :: afterInts vs)
  | .tru :: _ => none
  | .fls :: _ => none
  | v :: vs => if I.isDbl sh v && !vs.all (I.isDbl sh) then none else some (v :: vs)

/-- The first step of a primitive, by the lines of its function. -/
def Image.begin (I : Image ι) (p : Platform) (fo : Floats F) (sh : Mem F) : Prim → List Val → Mem F × Move (Go F)
  -- integer_primitives.py, double_primitives.py
  | .arith o, [l, r] => ends (I.boxed sh (o.op p fo (I.num sh l) (I.num sh r)))
  | .compare o, [l, r] => ends (sh, (o.op p fo (I.num sh l) (I.num sh r)).map bool)
  | .min, [l, r] => ends (sh, (Num.primLessThan p fo.toFloatOps (I.num sh l) (I.num sh r)).map fun b => if b then l else r)
  | .max, [l, r] => ends (sh, (Num.primLessThan p fo.toFloatOps (I.num sh l) (I.num sh r)).map fun b => if b then r else l)
  | .abs, [v] => ends (I.boxed sh (Num.primAbs p (I.num sh v)))
  | .as32s, [v] => ends (I.boxed sh (Num.primAs32Signed p (I.num sh v)))
  | .as32u, [v] => ends (I.boxed sh (Num.primAs32Unsigned p (I.num sh v)))
  | .numString, [v] => ends (I.ofStr sh ((Num.primAsString p (I.num sh v)).map .str))
  | .to, [l, r] => match embInt l, embInt r with
    | .ok lo, .ok hi => ((alloc sh (.data I.arrCls (.arr (ints (Loop.wrap p (hi + 1) - lo).toNat lo)))).1, .done (alloc sh (.data I.arrCls (.arr (ints (Loop.wrap p (hi + 1) - lo).toNat lo)))).2)
    | _, _ => (sh, .raise .assertion)
  | .fromString, [_, s] => match Str.embeddedString (strObj sh s) with
    | .ok t => ends (I.boxed sh (Num.primFromString p t))
    | .error _ => (sh, .done .nil)
  | .asDouble, [v] => ends (I.boxed sh (asDouble fo (I.num sh v)))
  | .asInteger, [v] => ends (sh, (embDbl (I.num sh v) >>= fo.toInt).map .int)
  | .round, [v] => ends (sh, (embDbl (I.num sh v) >>= fo.round).map .int)
  | .intSqrt, [v] => ends (I.boxed sh (intSqrt fo v))
  | .dblSqrt, [v] => ends (I.boxed sh ((embDbl (I.num sh v) >>= fo.sqrt).map .dbl))
  | .infinity, [_] => ends (I.boxed sh (.ok (.dbl fo.infinity)))
  -- bc/integer_primitives.py
  | .toDo, [r, l, b] => I.counting sh true r l (.ok 1) b
  | .downToDo, [r, l, b] => I.counting sh false r l (.ok 1) b
  | .toByDo, [r, l, d, b] => I.counting sh true r l (embInt d) b
  -- object_primitives.py
  | .identical, [a, b] => (sh, .done (bool (decide (a = b))))
  | .instVarAt, [r, i] => ends (sh, do
      let k ← embInt i
      let x ← fieldsOf sh r
      match pyIdx x.2.2.length (k - 1) with
      | some j => .ok (x.2.2[j]?.getD .nil)
      | none => .error .index)
  | .instVarAtPut, [r, i, v] => match embInt i, fieldsOf sh r with
    | .ok k, .ok (a, c, fs) => match pyIdx fs.length (k - 1) with
      | some j => ({ sh with objs := sh.objs.set a (.inst c (fs.set j v)) }, .done v)
      | none => (sh, .raise .index)
    | .error e, _ => (sh, .raise e)
    | _, .error e => (sh, .raise e)
  | .instVarNamed, [r, n] => ends (sh, do
      let x ← fieldsOf sh r
      match pyIdx x.2.2.length (match n with | .sym s => lookField (I.fldNames x.2.1) s (I.fldNames x.2.1).length | _ => -1) with
      | some j => .ok (x.2.2[j]?.getD .nil)
      | none => .error .index)
  | .halt, [r] => ends (printed sh r (.ok "BREAKPOINT\n".toList) fun x s => { x with out := x.out ++ s })
  | .theClass, [r] => (sh, match I.classOf sh r with
    | some c => .done (.obj (I.clsObj c))
    | none => .raise .attribute)
  | .perform, [r, s] => (sh, match s with
    | .sym sel => .call (.own sel [r]) .answer
    | _ => .raise .attribute)
  | .performIn, [r, s, c] => (sh, match classAt sh c, s with
    | .ok k, .sym sel => .call (.from (I.chain k) sel [r]) .answer
    | _, _ => .raise .attribute)
  | .performWith, [r, s, as] => (sh, match elems sh as with
    | .error e => .raise e
    | .ok (_, _, vs) => if vs.length > 2 then .raise .notImplemented else match s with
      | .sym sel => .call (.own sel (r :: vs)) .answer
      | _ => .raise .attribute)
  -- class_primitives.py
  | .new, [r] => match classAt sh r with
    | .ok c => ((alloc sh (.inst c (List.replicate (I.nflds c) .nil))).1, .done (alloc sh (.inst c (List.replicate (I.nflds c) .nil))).2)
    | .error e => (sh, .raise e)
  | .superclass, [r] => (sh, match classAt sh r with
    | .ok c => .done (match I.chain c with
      | _ :: s :: _ => .obj (I.clsObj s)
      | _ => .nil)
    | .error e => .raise e)
  | .name, [r] => (sh, match classAt sh r with
    | .ok c => .done (.sym (I.clsName c))
    | .error e => .raise e)
  -- true_primitives.py, false_primitives.py
  | .trueNot, [_] => (sh, .done .fls)
  | .trueOr, [_, _] => (sh, .done .tru)
  | .trueAnd, [_, a] => valueOrArg sh a
  | .trueIfFalse, [_, _] => (sh, .done .nil)
  | .trueIfElse, [_, a, _] => valueOrArg sh a
  | .falseNot, [_] => (sh, .done .tru)
  | .falseAnd, [_, _] => (sh, .done .fls)
  | .falseOr, [_, a] => valueOrArg sh a
  | .falseIfElse, [_, _, a] => valueOrArg sh a
  -- block_bc.py:53-76, block_primitives.py
  | .value, vs => (sh, .call (.value vs) .answer)
  | .whileTrue, [c, b] => (sh, if isBlock sh b && isBlock sh c then .next (.while c b .tru) else .raise .attribute)
  | .whileFalse, [c, b] => (sh, if isBlock sh b && isBlock sh c then .next (.while c b .fls) else .raise .attribute)
  | .restart, _ => (sh, .raise .other)
  -- array_primitives.py
  | .arrAt, [a, i] => ends (sh, do
      let k ← embInt i
      let x ← elems sh a
      let j ← position x.2.2.length k
      .ok (x.2.2[j]?.getD .nil))
  | .arrPut, [a, i, v] => match embInt i, elems sh a with
    | .ok k, .ok (o, c, vs) => match position vs.length k with
      | .ok j => ({ sh with objs := sh.objs.set o (.data c (.arr (vs.set j v))) }, .done a)
      | .error e => (sh, .raise e)
    | .error e, _ => (sh, .raise e)
    | _, .error e => (sh, .raise e)
  | .arrLength, [a] => ends (sh, do return .int (← elems sh a).2.2.length)
  | .arrCopy, [a] => match elems sh a with
    | .ok (_, _, vs) => ((alloc sh (.data I.arrCls (.arr vs))).1, .done (alloc sh (.data I.arrCls (.arr vs))).2)
    | .error e => (sh, .raise e)
  | .arrNew, [_, n] => match embInt n with
    | .ok k => ((alloc sh (.data I.arrCls (.arr (List.replicate k.toNat .nil)))).1, .done (alloc sh (.data I.arrCls (.arr (List.replicate k.toNat .nil)))).2)
    | .error e => (sh, .raise e)
  | .arrIndexes, [a, b] => (sh, if isBlock sh b then
      match elems sh a with
      | .ok x => .next (.indexes b x.2.2.length 0)
      | .error e => .raise e
    else .raise .attribute)
  | .arrDo, [a, b] => (sh, if isBlock sh b then
      match elems sh a with
      | .ok x => .next (.each a b x.2.2.length 0)
      | .error e => .raise e
    else .raise .attribute)
  | .arrPutAll, [a, v] => if isBlock sh v then
      (sh, match elems sh a with
      | .ok x => .next (.fill a v x.2.2.length [])
      | .error e => .raise e)
    else match elems sh a with
    | .ok (o, c, vs) => ({ sh with objs := sh.objs.set o (.data c (.arr (List.replicate vs.length v))) }, .done a)
    | .error e => (sh, .raise e)
  -- string_primitives.py, symbol_primitives.py
  | .concat, [a, b] => ends (I.ofStr sh (Str.concat (strObj sh a) (strObj sh b)))
  | .asSymbol, [a] => ends (I.ofStr sh (Str.asSymbol (strObj sh a)))
  | .strLength, [a] => ends (I.ofStr sh (Str.length (strObj sh a)))
  | .strEq, [a, b] => ends (sh, (Str.equals (strObj sh a) (strObj sh b)).map bool)
  | .substring, [a, s, e] => ends (I.ofStr sh (Str.substring (strObj sh a) (strObj sh s) (strObj sh e)))
  | .charAt, [a, i] => ends (I.ofStr sh (Str.charAt (strObj sh a) (strObj sh i)))
  | .symString, [a] => ends (I.ofStr sh (Str.asString (strObj sh a)))
  | .symEq, [a, b] => ends (sh, (Str.symbolEquals (strObj sh a) (strObj sh b)).map bool)
  | .kind k, [a] => ends (sh, (Str.embeddedString (strObj sh a)).map fun s => bool (Str.isKind (I.chars k) s))
  | .strHash, [a] => ends (sh, (Str.embeddedString (strObj sh a)).map fun s => .int (I.hash s))
  -- system_primitives.py
  | .global, [_, k] => (sh, .done ((getGlobal sh k).getD .nil))
  | .hasGlobal, [_, k] => (sh, .done (bool (getGlobal sh k).isSome))
  | .globalPut, [_, k, v] => (putGlobal sh k v, .done v)
  | .print, [r, s] => ends (printed sh r (Str.embeddedString (strObj sh s)) fun x s => { x with out := x.out ++ s })
  | .newline, [r] => ends (printed sh r (.ok ['\n']) fun x s => { x with out := x.out ++ s })
  | .errPrint, [r, s] => ends (printed sh r (Str.embeddedString (strObj sh s)) fun x s => { x with err := x.err ++ s })
  | .errPrintln, [r, s] => ends (printed sh r (Str.embeddedString (strObj sh s)) fun x s => { x with err := x.err ++ s ++ ['\n'] })
  | .fullGC, [_] => (sh, .done .tru)
  | _, _ => (sh, .raise .type)

/-- The steps of a primitive: after the first, the loops of `block_primitives.py:43-53`, `bc/integer_primitives.py:61-78, 131-148` (machine integers wrap around, C38) `array_primitives.py:59-62, 83-87` and `array.py:93-226`, which stores only when the block has answered for the last time. -/
def Image.step (I : Image ι) (p : Platform) (fo : Floats F) : Go F → Mem F → Mem F × Move (Go F)
  | .start none _, sh => (sh, .raise .other)
  | .start (some x) vs, sh => I.begin p fo sh x vs
  | .answer v, sh => (sh, .done v)
  | .while c b want, sh => (sh, .call (.value [c]) fun got => .tested c b want got)
  | .tested c b want got, sh => (sh, if got = want then .call (.value [b]) fun _ => .while c b want else .done .nil)
  | .count r b up l d i, sh => (sh, if within fo up i l then .call (.value [b, .int i]) fun _ => .count r b up l d (Loop.wrap p (if up then i + d else i - d)) else .done r)
  | .indexes b len i, sh => (sh, if i < len then .call (.value [b, .int (i + 1 : Nat)]) fun _ => .indexes b len (i + 1) else .done .nil)
  | .each a b len i, sh => (sh, if i < len then
      match elems sh a with
      | .ok x => .call (.value [b, x.2.2[i]?.getD .nil]) fun _ => .each a b len (i + 1)
      | .error e => .raise e
    else .done .nil)
  | .fill a b len got, sh => if got.length < len then (sh, .call (.value [b]) fun v => .fill a b len (got ++ [v])) else
      match elems sh a, I.collected sh got with
      | .ok (o, c, old), some vs => if vs.length = old.length then ({ sh with objs := sh.objs.set o (.data c (.arr vs)) }, .done a) else (sh, .raise .other)
      | .ok _, none => (sh, .raise .other)
      | .error e, _ => (sh, .raise e)

/-- An entry of a table (`vmobjects/method.py`, `vmobjects/primitive.py`). -/
def entry : ι ⊕ Prim → Entry ι
  | .inl i => .meth i
  | .inr x => .prim x.num

/-- The program with these classes and these primitives. -/
def Image.prog (I : Image ι) (p : Platform) (fo : Floats F) : Prog ι (Data F) Printed (Go F) where
  chain := I.chain
  table := fun c sel => (I.table c sel).map entry
  nilCls := I.nilCls
  truCls := I.truCls
  flsCls := I.flsCls
  intCls := I.intCls
  symCls := I.symCls
  blkCls := I.blkCls
  blkArgs := I.blkArgs
  arrCls := I.arrCls
  array := .arr
  catches := I.catches
  start := fun n vs => .start Prim.all[n]? vs
  step := I.step p fo

/-- The shortcuts of both interpreters for `+ 1`, `- 1` (`prim_inc`, `prim_dec`: `interpreter.py:491-523`, `int_inc_node.py:12-14`) and `f := f + 1` (`object_with_layout.py:176-178`; C30).
There is no field with an index outside of the object, since indices come from the compiler (C23); here that is an `AttributeError`. -/
def Image.incs (I : Image ι) (p : Platform) (fo : Floats F) : Incs (Data F) Printed where
  inc := fun v sh => I.boxed sh (Num.primInc p fo.toFloatOps (I.num sh v))
  dec := fun v sh => I.boxed sh (Num.primDec p fo.toFloatOps (I.num sh v))
  incFld := fun a i sh => match sh.objs[a]? with
    | some (.inst c fs) => match fs[i]? with
      | some v => match I.boxed sh (Num.primInc p fo.toFloatOps (I.num sh v)) with
        | (sh1, .ok u) => ({ sh1 with objs := sh1.objs.set a (.inst c (fs.set i u)) }, .ok u)
        | (sh1, .error e) => (sh1, .error e)
      | none => (sh, .error .attribute)
    | _ => (sh, .error .attribute)

end
end PySOM.Mach

import Verif.Model.Base
/-!
# Model of the number objects

`src/som/vmobjects/integer.py`, `biginteger.py`, `double.py`, `src/rlib/arithmetic.py`, `src/rlib/llop.py` and
`src/som/primitives/integer_primitives.py`, branch by branch.

Floating-point arithmetic is a parameter (`FloatOps`): the theorems hold for every interpretation of it.
-/
set_option autoImplicit false
namespace PySOM.Num
open PySOM

/-- Python's float operations, uninterpreted.  Those which Python can refuse (`float(huge)`, division by zero,
`fmod(x, 0)`, `int(nan)`) return `Except`. -/
structure FloatOps (F : Type) where
  /-- `float(i)` / `rbigint.tofloat()` -/
  ofInt : Int → Except Err F
  /-- the literal `1.0` -/
  one : F
  add : F → F → F
  sub : F → F → F
  mul : F → F → F
  div : F → F → Except Err F
  fmod : F → F → Except Err F
  lt : F → F → Bool
  le : F → F → Bool
  gt : F → F → Bool
  ge : F → F → Bool
  eq : F → F → Bool
  /-- `i == f` for a Python `int` and a `float` (`integer.py:279`) -/
  eqInt : Int → F → Bool
  /-- `int(f)` -/
  toInt : F → Except Err Int
  /-- `rbigint.truediv` -/
  trueDiv : Int → Int → Except Err F

/-- SOM values as far as the numeric primitives distinguish them: `Integer`, `BigInteger`, `Double`, and any other
object (identified by a tag; it has none of the `get_embedded_...` number accessors). -/
inductive Num (F : Type) where
  | int (i : Int)
  | big (i : Int)
  | dbl (f : F)
  | obj (tag : Nat)
  deriving DecidableEq, Repr

/-- Smallest and largest machine integer (RPython `Signed`, 64 bit). -/
def minInt : Int := -(2 ^ 63)
def maxInt : Int := 2 ^ 63 - 1

/-- The value fits a machine word. -/
def fits (i : Int) : Bool := decide (minInt ≤ i) && decide (i ≤ maxInt)

/-- `ovfcheck(v)` (`rlib/arithmetic.py:2,14-15`): on RPython `OverflowError` (`none`) when `v` does not fit a machine
word; the identity on CPython. -/
def ovfcheck (p : Platform) (v : Int) : Option Int :=
  match p with
  | .rpython => if fits v then some v else none
  | .cpython => some v

/-- A method call on a big integer such as `x.add(y)`: defined by `rbigint` on RPython.  On CPython
`bigint_from_int` is the identity (`rlib/arithmetic.py:17-18`) and a Python `int` has no such method. -/
def bigCall {α : Type} (p : Platform) (v : α) : Except Err α :=
  match p with
  | .rpython => .ok v
  | .cpython => .error .attribute

/-- `divrem(x, y)` (`rlib/arithmetic.py:3,23-24`): truncating division on RPython, "not yet implemented" on CPython.
Only the remainder is used by the callers. -/
def divremR (p : Platform) (x y : Int) : Except Err Int :=
  match p with
  | .rpython => if y = 0 then .error .zeroDiv else .ok (Int.tmod x y)
  | .cpython => .error .notImplemented

/-- Machine division traps (`SIGFPE`) on RPython when the quotient does not fit; `Err.other` stands for that crash.
Division by zero is an error on both platforms. -/
def machDiv (p : Platform) (l r : Int) (v : Int) : Except Err Int :=
  if r = 0 then .error .zeroDiv
  else if p = .rpython ∧ l = minInt ∧ r = -1 then .error .other
  else .ok v

/-- `int_mod` (`rlib/llop.py:18` on RPython: C's `%`; `rlib/llop.py:23-26` on CPython, as written). -/
def intMod (p : Platform) (l r : Int) : Except Err Int :=
  match p with
  | .rpython => machDiv p l r (Int.tmod l r)
  | .cpython =>
    if r = 0 then .error .zeroDiv
    else if l > 0 then .ok (Int.fmod l.natAbs r.natAbs)
    else .ok (0 - Int.fmod l.natAbs r.natAbs)

section
variable {F : Type} (p : Platform) (fo : FloatOps F)

/-- `Double._get_float` (`double.py:27-38`). -/
def getFloat : Num F → Except Err F
  | .dbl f => .ok f
  | .int i => fo.ofInt i
  | .big i => bigCall p () >>= fun _ => fo.ofInt i
  | .obj _ => .error .value

/-- `prim_inc` (`integer.py:117-125`, `biginteger.py:112-113`, `double.py:44-45`). -/
def primInc : Num F → Except Err (Num F)
  | .int l => match ovfcheck p (l + 1) with
    | some r => .ok (.int r)
    | none => do .ok (.big (← bigCall p (l + 1)))
  | .big x => do .ok (.big (← bigCall p (1 + x)))
  | .dbl f => .ok (.dbl (fo.add f fo.one))
  | .obj _ => .error .attribute

/-- `prim_dec` (`integer.py:127-135`, `biginteger.py:115-116` — as written: `1 - x` —, `double.py:47-48`). -/
def primDec : Num F → Except Err (Num F)
  | .int l => match ovfcheck p (l - 1) with
    | some r => .ok (.int r)
    | none => do .ok (.big (← bigCall p (l - 1)))
  | .big x => do .ok (.big (← bigCall p (1 - x)))
  | .dbl f => .ok (.dbl (fo.sub f fo.one))
  | .obj _ => .error .attribute

/-- Binary operation of `Double`: convert the argument with `_get_float`, then compute (`double.py:40-83`). -/
def dblOp (op : F → F → Except Err (Num F)) (l : F) (right : Num F) : Except Err (Num F) := do
  op l (← getFloat p fo right)

/-- `_to_double()` of an Integer (`integer.py:28-31`). -/
def intToDbl (i : Int) : Except Err F := fo.ofInt i
/-- `_to_double()` of a BigInteger (`biginteger.py:26-29`). -/
def bigToDbl (i : Int) : Except Err F := do let _ ← bigCall p (); fo.ofInt i

/-- `prim_add` (`integer.py:137-155`, `biginteger.py:118-129`, `double.py:50-52`). -/
def primAdd (left right : Num F) : Except Err (Num F) :=
  match left with
  | .int l => match right with
    | .big r => do .ok (.big (← bigCall p (r + l)))
    | .dbl _ => do dblOp p fo (fun a b => .ok (.dbl (fo.add a b))) (← intToDbl fo l) right
    | .int r => match ovfcheck p (l + r) with
      | some v => .ok (.int v)
      | none => do .ok (.big (← bigCall p (l + r)))
    | .obj _ => .error .attribute
  | .big l => match right with
    | .big r => do .ok (.big (← bigCall p (r + l)))
    | .dbl _ => do dblOp p fo (fun a b => .ok (.dbl (fo.add a b))) (← bigToDbl p fo l) right
    | .int r => do .ok (.big (← bigCall p (r + l)))
    | .obj _ => .error .attribute
  | .dbl l => dblOp p fo (fun a b => .ok (.dbl (fo.add a b))) l right
  | .obj _ => .error .attribute

/-- `prim_subtract` (`integer.py:157-174`, `biginteger.py:131-142`, `double.py:63-65`). -/
def primSubtract (left right : Num F) : Except Err (Num F) :=
  match left with
  | .int l => match right with
    | .big r => do .ok (.big (← bigCall p (l - r)))
    | .dbl _ => do dblOp p fo (fun a b => .ok (.dbl (fo.sub a b))) (← intToDbl fo l) right
    | .int r => match ovfcheck p (l - r) with
      | some v => .ok (.int v)
      | none => do .ok (.big (← bigCall p (l - r)))
    | .obj _ => .error .attribute
  | .big l => match right with
    | .big r => do .ok (.big (← bigCall p (l - r)))
    | .dbl _ => do dblOp p fo (fun a b => .ok (.dbl (fo.sub a b))) (← bigToDbl p fo l) right
    | .int r => do .ok (.big (← bigCall p (l - r)))
    | .obj _ => .error .attribute
  | .dbl l => dblOp p fo (fun a b => .ok (.dbl (fo.sub a b))) l right
  | .obj _ => .error .attribute

/-- `prim_multiply` (`integer.py:176-193`, `biginteger.py:144-155`, `double.py:40-42`). -/
def primMultiply (left right : Num F) : Except Err (Num F) :=
  match left with
  | .int l => match right with
    | .big r => do .ok (.big (← bigCall p (l * r)))
    | .dbl _ => do dblOp p fo (fun a b => .ok (.dbl (fo.mul a b))) (← intToDbl fo l) right
    | .int r => match ovfcheck p (l * r) with
      | some v => .ok (.int v)
      | none => do .ok (.big (← bigCall p (l * r)))
    | .obj _ => .error .attribute
  | .big l => match right with
    | .big r => do .ok (.big (← bigCall p (l * r)))
    | .dbl _ => do dblOp p fo (fun a b => .ok (.dbl (fo.mul a b))) (← bigToDbl p fo l) right
    | .int r => do .ok (.big (← bigCall p (l * r)))
    | .obj _ => .error .attribute
  | .dbl l => dblOp p fo (fun a b => .ok (.dbl (fo.mul a b))) l right
  | .obj _ => .error .attribute

/-- `float / float`, answered as a Double. -/
def dblDiv (a b : F) : Except Err (Num F) := do .ok (.dbl (← fo.div a b))
/-- `Integer(int(a / b))` (`double.py:71-75`). -/
def dblIntDiv (a b : F) : Except Err (Num F) := do .ok (.int (← fo.toInt (← fo.div a b)))
/-- `fmod(a, b)` (`double.py:77-83`). -/
def dblMod (a b : F) : Except Err (Num F) := do .ok (.dbl (← fo.fmod a b))

/-- `prim_double_div` (`integer.py:195-208`, `biginteger.py:157-168`, `double.py:67-69`).
`l / float(r)` with an `int` on the left converts `l` first. -/
def primDoubleDiv (left right : Num F) : Except Err (Num F) :=
  match left with
  | .int l => match right with
    | .big r => do let _ ← bigCall p (); .ok (.dbl (← fo.trueDiv l r))
    | .dbl _ => do dblOp p fo (dblDiv fo) (← intToDbl fo l) right
    | .int r => do
      let b ← fo.ofInt r
      let a ← fo.ofInt l
      dblDiv fo a b
    | .obj _ => .error .attribute
  | .big l => match right with
    | .big r => do let _ ← bigCall p (); .ok (.dbl (← fo.trueDiv l r))
    | .dbl _ => do dblOp p fo (dblDiv fo) (← bigToDbl p fo l) right
    | .int r => do let _ ← bigCall p (); .ok (.dbl (← fo.trueDiv l r))
    | .obj _ => .error .attribute
  | .dbl l => dblOp p fo (dblDiv fo) l right
  | .obj _ => .error .attribute

/-- `rbigint.floordiv` / `rbigint.mod`: as `//` and `%` of Python, with a zero check. -/
def bigDiv (r v : Int) : Except Err Int := do
  let _ ← bigCall p ()
  if r = 0 then .error .zeroDiv else .ok v

/-- `prim_int_div` (`integer.py:210-223`, `biginteger.py:170-181`, `double.py:71-75`).  Python's `//` floors. -/
def primIntDiv (left right : Num F) : Except Err (Num F) :=
  match left with
  | .int l => match right with
    | .big r => do .ok (.big (← bigDiv p r (Int.fdiv l r)))
    | .dbl _ => do dblOp p fo (dblIntDiv fo) (← intToDbl fo l) right
    | .int r => do .ok (.int (← machDiv p l r (Int.fdiv l r)))
    | .obj _ => .error .attribute
  | .big l => match right with
    | .big r => do .ok (.big (← bigDiv p r (Int.fdiv l r)))
    | .dbl _ => do dblOp p fo (dblIntDiv fo) (← bigToDbl p fo l) right
    | .int r => do .ok (.big (← bigDiv p r (Int.fdiv l r)))
    | .obj _ => .error .attribute
  | .dbl l => dblOp p fo (dblIntDiv fo) l right
  | .obj _ => .error .attribute

/-- `prim_modulo` (`integer.py:225-238`, `biginteger.py:183-194`, `double.py:77-79`).  Python's `%` floors. -/
def primModulo (left right : Num F) : Except Err (Num F) :=
  match left with
  | .int l => match right with
    | .big r => do .ok (.big (← bigDiv p r (Int.fmod l r)))
    | .dbl _ => do dblOp p fo (dblMod fo) (← intToDbl fo l) right
    | .int r => do .ok (.int (← machDiv p l r (Int.fmod l r)))
    | .obj _ => .error .attribute
  | .big l => match right with
    | .big r => do .ok (.big (← bigDiv p r (Int.fmod l r)))
    | .dbl _ => do dblOp p fo (dblMod fo) (← bigToDbl p fo l) right
    | .int r => do .ok (.big (← bigDiv p r (Int.fmod l r)))
    | .obj _ => .error .attribute
  | .dbl l => dblOp p fo (dblMod fo) l right
  | .obj _ => .error .attribute

/-- `prim_remainder` (`integer.py:240-253`; `biginteger.py:196-206`, as written: for a BigInteger argument the divisor
is the receiver itself; `double.py:81-83`). -/
def primRemainder (left right : Num F) : Except Err (Num F) :=
  match left with
  | .int l => match right with
    | .big r => do .ok (.big (← divremR p l r))
    | .dbl _ => do dblOp p fo (dblMod fo) (← intToDbl fo l) right
    | .int r => do .ok (.int (← intMod p l r))
    | .obj _ => .error .attribute
  | .big l => match right with
    | .big _ => do .ok (.big (← divremR p l l))
    | .int r => do .ok (.big (← divremR p l r))
    | .dbl _ => .error .assertion
    | .obj _ => .error .assertion
  | .dbl l => dblOp p fo (dblMod fo) l right
  | .obj _ => .error .attribute

/-- `prim_less_than` answers a Python bool (`integer.py:33-44`, `biginteger.py:31-41`, `double.py:100-102`). -/
def primLessThan (left right : Num F) : Except Err Bool :=
  match left with
  | .int l => match right with
    | .big r => bigCall p (decide (l < r))
    | .dbl r => do .ok (fo.lt (← intToDbl fo l) r)
    | .int r => .ok (decide (l < r))
    | .obj _ => .error .attribute
  | .big l => match right with
    | .dbl r => do .ok (fo.lt (← bigToDbl p fo l) r)
    | .int r => bigCall p (decide (l < r))
    | .big r => bigCall p (decide (l < r))
    | .obj _ => .error .attribute
  | .dbl l => do .ok (fo.lt l (← getFloat p fo right))
  | .obj _ => .error .attribute

/-- `prim_less_than_or_equal` (`integer.py:46-62`, `biginteger.py:43-58`, `double.py:104-108`). -/
def primLessEq (left right : Num F) : Except Err Bool :=
  match left with
  | .int l => match right with
    | .big r => bigCall p (decide (l ≤ r))
    | .dbl r => do .ok (fo.le (← intToDbl fo l) r)
    | .int r => .ok (decide (l ≤ r))
    | .obj _ => .error .attribute
  | .big l => match right with
    | .dbl r => do .ok (fo.le (← bigToDbl p fo l) r)
    | .int r => bigCall p (decide (l ≤ r))
    | .big r => bigCall p (decide (l ≤ r))
    | .obj _ => .error .attribute
  | .dbl l => do .ok (fo.le l (← getFloat p fo right))
  | .obj _ => .error .attribute

/-- `prim_greater_than` (`integer.py:64-80`, `biginteger.py:60-75`, `double.py:110-114`). -/
def primGreater (left right : Num F) : Except Err Bool :=
  match left with
  | .int l => match right with
    | .big r => bigCall p (decide (l > r))
    | .dbl r => do .ok (fo.gt (← intToDbl fo l) r)
    | .int r => .ok (decide (l > r))
    | .obj _ => .error .attribute
  | .big l => match right with
    | .dbl r => do .ok (fo.gt (← bigToDbl p fo l) r)
    | .int r => bigCall p (decide (l > r))
    | .big r => bigCall p (decide (l > r))
    | .obj _ => .error .attribute
  | .dbl l => do .ok (fo.gt l (← getFloat p fo right))
  | .obj _ => .error .attribute

/-- `prim_greater_than_or_equal` (`integer.py:82-98`, `biginteger.py:77-92`, `double.py:116-120`). -/
def primGreaterEq (left right : Num F) : Except Err Bool :=
  match left with
  | .int l => match right with
    | .big r => bigCall p (decide (l ≥ r))
    | .dbl r => do .ok (fo.ge (← intToDbl fo l) r)
    | .int r => .ok (decide (l ≥ r))
    | .obj _ => .error .attribute
  | .big l => match right with
    | .dbl r => do .ok (fo.ge (← bigToDbl p fo l) r)
    | .int r => bigCall p (decide (l ≥ r))
    | .big r => bigCall p (decide (l ≥ r))
    | .obj _ => .error .attribute
  | .dbl l => do .ok (fo.ge l (← getFloat p fo right))
  | .obj _ => .error .attribute

/-- `prim_equals` (`integer.py:270-289`, `biginteger.py:221-237`, `double.py:88-92`). -/
def primEquals (left right : Num F) : Except Err Bool :=
  match left with
  | .int l => match right with
    | .big r => bigCall p (decide (l = r))
    | .dbl r => .ok (fo.eqInt l r)
    | .int r => .ok (decide (l = r))
    | .obj _ => .ok false
  | .big l => match right with
    | .big r => bigCall p (decide (l = r))
    | .dbl r => do .ok (fo.eq (← bigToDbl p fo l) r)
    | .int r => bigCall p (decide (l = r))
    | .obj _ => .ok false
  | .dbl l => do .ok (fo.eq l (← getFloat p fo right))
  | .obj _ => .error .attribute

/-- `prim_unequals` (`integer.py:291-310`, `biginteger.py:239-255`, `double.py:94-98`).  Python's `!=` on floats is
the negation of `==`. -/
def primUnequals (left right : Num F) : Except Err Bool :=
  match left with
  | .int l => match right with
    | .big r => bigCall p (decide (l ≠ r))
    | .dbl r => .ok (!fo.eqInt l r)
    | .int r => .ok (decide (l ≠ r))
    | .obj _ => .ok true
  | .big l => match right with
    | .big r => bigCall p (decide (l ≠ r))
    | .dbl r => do .ok (!fo.eq (← bigToDbl p fo l) r)
    | .int r => bigCall p (decide (l ≠ r))
    | .obj _ => .ok true
  | .dbl l => do .ok (!fo.eq l (← getFloat p fo right))
  | .obj _ => .error .attribute

/-- `==` on Integers (`integer_primitives.py:82-85`). -/
def primIdentical (left right : Num F) : Except Err Bool :=
  match right with
  | .int _ => primEquals p fo left right
  | .big _ => primEquals p fo left right
  | _ => .ok false

/-- `min:` (`integer_primitives.py:96-99`). -/
def primMin (left right : Num F) : Except Err (Num F) := do
  if ← primLessThan p fo left right then .ok left else .ok right

/-- `max:` (`integer_primitives.py:102-105`). -/
def primMax (left right : Num F) : Except Err (Num F) := do
  if ← primLessThan p fo left right then .ok right else .ok left

/-- `abs` (`integer.py:110-111`, `biginteger.py:104-105`).  RPython's `abs` of a machine integer wraps around for the
smallest one; `prim_abs` does not check. Doubles have a SOM-level `abs`, not modelled. -/
def primAbs : Num F → Except Err (Num F)
  | .int i => match p with
    | .rpython => .ok (.int (if i = minInt then minInt else i.natAbs))
    | .cpython => .ok (.int i.natAbs)
  | .big i => do .ok (.big (← bigCall p (i.natAbs : Int)))
  | .dbl _ => .error .attribute
  | .obj _ => .error .attribute

/-! ## Bit operations -/

/-- Two's complement `&` of unbounded Python integers, defined on the representations `n` and `-n-1`. -/
def iand : Int → Int → Int
  | .ofNat a, .ofNat b => .ofNat (a &&& b)
  | .ofNat a, .negSucc b => .ofNat (a ^^^ (a &&& b))
  | .negSucc a, .ofNat b => .ofNat (b ^^^ (a &&& b))
  | .negSucc a, .negSucc b => .negSucc (a ||| b)

/-- Two's complement `^` of unbounded Python integers. -/
def ixor : Int → Int → Int
  | .ofNat a, .ofNat b => .ofNat (a ^^^ b)
  | .ofNat a, .negSucc b => .negSucc (a ^^^ b)
  | .negSucc a, .ofNat b => .negSucc (a ^^^ b)
  | .negSucc a, .negSucc b => .ofNat (a ^^^ b)

/-- `prim_and` (`integer.py:255-268`; `biginteger.py:208-219`, as written: a Double argument computes the modulo;
`double.py:85-86`). On machine words `&` cannot leave the range. -/
def primAnd (left right : Num F) : Except Err (Num F) :=
  match left with
  | .int l => match right with
    | .big r => do .ok (.big (← bigCall p (iand l r)))
    | .dbl _ => do let _ ← intToDbl fo l; .error .notImplemented
    | .int r => .ok (.int (iand l r))
    | .obj _ => .error .attribute
  | .big l => match right with
    | .big r => do .ok (.big (← bigCall p (iand l r)))
    | .dbl _ => do dblOp p fo (dblMod fo) (← bigToDbl p fo l) right
    | .int r => do .ok (.big (← bigCall p (iand l r)))
    | .obj _ => .error .attribute
  | .dbl _ => .error .notImplemented
  | .obj _ => .error .attribute

/-- `bitXor:` (`integer_primitives.py:153-156`): the argument must be an Integer; a BigInteger receiver has no
`get_embedded_integer`. -/
def primBitXor (left right : Num F) : Except Err (Num F) :=
  match right with
  | .int r => match left with
    | .int l => .ok (.int (ixor l r))
    | _ => .error .attribute
  | _ => .error .assertion

/-- Python's `l << r`: negative distances are a `ValueError`. -/
def pyShl (l r : Int) : Except Err Int := if r < 0 then .error .value else .ok (l * 2 ^ r.toNat)

/-- `LONG_BIT` (`rlib/arithmetic.py:32`, imported in line 2). -/
def longBit : Platform → Int
  | .rpython => 64
  | .cpython => 0x8000000000000000

/-- `<<` (`integer_primitives.py:126-141`).  RPython's machine shift of 0 by any distance is taken to be 0. -/
def primShl (left right : Num F) : Except Err (Num F) :=
  match right with
  | .int r => match left with
    | .int l =>
      if ¬ (l = 0 ∨ (0 ≤ r ∧ r < longBit p)) then
        -- except OverflowError: bigint_from_int(l).lshift(r)
        do let _ ← bigCall p (); .ok (.big (← pyShl l r))
      else match p with
        | .rpython =>
          if l = 0 then .ok (.int 0)
          else match ovfcheck p (l * 2 ^ r.toNat) with
            | some v => .ok (.int v)
            | none => .ok (.big (l * 2 ^ r.toNat))
        | .cpython => do .ok (.int (← pyShl l r))
    | _ => .error .attribute
  | _ => .error .assertion

/-- `unsigned_right_shift` (`rlib/llop.py:12-16` on RPython: shift of the word seen as unsigned, undefined behaviour
(`Err.other`) for distances outside `0..63`; `rlib/llop.py:38-39` on CPython: plain arithmetic `>>`). -/
def unsignedShr (l r : Int) : Except Err Int :=
  match p with
  | .rpython =>
    if 0 ≤ r ∧ r < 64 then
      let u := l % 2 ^ 64            -- cast to Unsigned
      let v := u / 2 ^ r.toNat
      .ok (if v < 2 ^ 63 then v else v - 2 ^ 64)   -- cast to Signed
    else .error .other
  | .cpython => if r < 0 then .error .value else .ok (l / 2 ^ r.toNat)

/-- `>>>` (`integer_primitives.py:144-150`). -/
def primShr (left right : Num F) : Except Err (Num F) :=
  match right with
  | .int r => match left with
    | .int l => do .ok (.int (← unsignedShr p l r))
    | _ => .error .attribute
  | _ => .error .assertion

/-- `as_32_bit_unsigned_value` (`rlib/llop.py:6-7` on RPython: C casts; `rlib/llop.py:28-29` on CPython). -/
def as32Unsigned (i : Int) : Int :=
  match p with
  | .rpython => i % 2 ^ 32
  | .cpython => iand i 0xFFFFFFFF

/-- `as_32_bit_signed_value` (`rlib/llop.py:9-10` on RPython: C casts; `rlib/llop.py:31-36` on CPython, as written). -/
def as32Signed (i : Int) : Int :=
  match p with
  | .rpython => let u := i % 2 ^ 32; if u < 2 ^ 31 then u else u - 2 ^ 32
  | .cpython =>
    let isNeg := decide (iand i 0x80000000 = 0x80000000)
    let v := iand i 0x7FFFFFFF
    if isNeg then 0 - (0x80000000 - v) else v

/-- `as32BitSignedValue` (`integer.py:113-115`; `biginteger.py:107-110`: the lowest `rbigint` digit, 63 bits of the
magnitude). -/
def primAs32Signed : Num F → Except Err (Num F)
  | .int i => .ok (.int (as32Signed p i))
  | .big i => do .ok (.int (← bigCall p ((i.natAbs : Int) % 2 ^ 63)))
  | _ => .error .attribute

/-- `as32BitUnsignedValue` (`integer_primitives.py:37-39`): needs `get_embedded_integer`. -/
def primAs32Unsigned : Num F → Except Err (Num F)
  | .int i => .ok (.int (as32Unsigned p i))
  | _ => .error .attribute

end

/-! ## Printing and parsing -/

/-- The digit character of `d < 10`. -/
def digitChar (d : Nat) : Char := Char.ofNat (48 + d)

/-- Decimal digits of a natural number, most significant first (`str(n)`). -/
def digits (n : Nat) : List Char :=
  if n < 10 then [digitChar n] else digits (n / 10) ++ [digitChar (n % 10)]
termination_by n

/-- `str(i)` of Python, `rbigint.str()`. -/
def pyStr : Int → List Char
  | .ofNat n => digits n
  | .negSucc n => '-' :: digits (n + 1)

/-- `prim_as_string` (`integer.py:100-103`, `biginteger.py:94-97`). Doubles are not modelled. -/
def primAsString {F : Type} (p : Platform) : Num F → Except Err (List Char)
  | .int i => .ok (pyStr i)
  | .big i => bigCall p (pyStr i)
  | .dbl _ => .error .other
  | .obj _ => .error .attribute

/-- Value of a digit character. -/
def digitVal (c : Char) : Option Nat :=
  if 48 ≤ c.toNat ∧ c.toNat ≤ 57 then some (c.toNat - 48) else none

/-- Value of a non-empty digit string. -/
def parseDigits : List Char → Nat → Option Nat
  | [], acc => some acc
  | c :: cs, acc => match digitVal c with
    | some d => parseDigits cs (acc * 10 + d)
    | none => none

/-- Decimal integer literal: surrounding blanks, an optional sign, at least one digit.  This is the part of
`int(s)` / `string_to_int(s)` on which CPython and RPython agree; underscores, non-ASCII digits and other white space are
left out. -/
def parseInt (s : List Char) : Option Int :=
  let s := (s.dropWhile (· = ' ')).reverse.dropWhile (· = ' ') |>.reverse
  match s with
  | [] => none
  | '-' :: [] => none
  | '+' :: [] => none
  | '-' :: cs => (parseDigits cs 0).map (fun n => -(n : Int))
  | '+' :: cs => (parseDigits cs 0).map (fun n => (n : Int))
  | cs => (parseDigits cs 0).map (fun n => (n : Int))

/-- `fromString:` on a string argument (`integer_primitives.py:182-193`): `string_to_int` raises
`ParseStringOverflowError` on RPython when the number does not fit, then `bigint_from_str` is used.  A malformed string
raises `ValueError`. -/
def primFromString {F : Type} (p : Platform) (s : List Char) : Except Err (Num F) :=
  match parseInt s with
  | none => .error .value
  | some i => match ovfcheck p i with
    | some v => .ok (.int v)
    | none => .ok (.big i)

end PySOM.Num

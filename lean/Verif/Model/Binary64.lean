import Verif.Model.Prims
/-!
# Floating-point numbers

Python's `float` is the format binary64 of IEEE 754: 53 bits for the significand, rounding to the nearest, ties to even.  The other models leave the operations open (`Num.FloatOps`, `Mach.Floats`); here they are
given.  Models what `src/som/vmobjects/double.py`, `src/som/primitives/double_primitives.py`, `src/som/primitives/integer_primitives.py` (`_sqrt`, `_as_double`) and `src/rlib/float.py` do on CPython; there `int` has
no bounds.  The operations of Python themselves are written as the standard says, and are trusted.

A finite number is kept as its sign and a multiple of the smallest positive number, 2^-1074.  Left out: `sin`, `cos`, `asString`, `fromString:`, and the code that RPython makes for these functions.
-/
set_option autoImplicit false
namespace PySOM.F64
open PySOM

/-- 1.0, in units of 2^-1074. -/
def one : Nat := 2 ^ 1074
/-- The first power of two that is too large, 2^1024. -/
def huge : Nat := 2 ^ 2098

/-- The values of `float`. -/
inductive Float where
  | nan
  | inf (neg : Bool)
  | fin (neg : Bool) (n : Nat)
  deriving DecidableEq, Repr

/-- The fraction `n / d` in units, rounded to 53 bits: to the nearest, ties to even. -/
def rnd (n d : Nat) : Nat :=
  let k := if n / d < 2 ^ 53 then 0 else (n / d).log2 - 52
  let e := d * 2 ^ k
  let q := n / e
  let r := n % e
  (if e < 2 * r ∨ (e = 2 * r ∧ q % 2 = 1) then q + 1 else q) * 2 ^ k

/-- With the sign; too large numbers become infinite. -/
def mk (neg : Bool) (r : Nat) : Float := if r < huge then .fin neg r else .inf neg

/-- A sign for an integer. -/
def signed (neg : Bool) (n : Nat) : Int := if neg then -(n : Int) else n

/-- An integer in units, rounded; `z` is the sign of zero. -/
def ofUnits (z : Bool) (v : Int) : Float := if v = 0 then .fin z 0 else mk (decide (v < 0)) (rnd v.natAbs 1)

def neg : Float → Float
  | .nan => .nan
  | .inf s => .inf !s
  | .fin s n => .fin (!s) n

/-- `abs(x)` (`rlib/float.py:20`) -/
def abs : Float → Float
  | .nan => .nan
  | .inf _ => .inf false
  | .fin _ n => .fin false n

/-- `x + y` -/
def add : Float → Float → Float
  | .nan, _ => .nan
  | _, .nan => .nan
  | .inf a, .inf b => if a = b then .inf a else .nan
  | .inf a, .fin _ _ => .inf a
  | .fin _ _, .inf b => .inf b
  | .fin a n, .fin b m => ofUnits (a && b) (signed a n + signed b m)

/-- `x - y` -/
def sub (x y : Float) : Float := add x (neg y)

/-- `x * y` -/
def mul : Float → Float → Float
  | .nan, _ => .nan
  | _, .nan => .nan
  | .inf a, .inf b => .inf (a != b)
  | .inf a, .fin b m => if m = 0 then .nan else .inf (a != b)
  | .fin a n, .inf b => if n = 0 then .nan else .inf (a != b)
  | .fin a n, .fin b m => mk (a != b) (rnd (n * m) one)

/-- `x / y`: Python raises `ZeroDivisionError` whatever is divided by zero. -/
def div : Float → Float → Except Err Float
  | _, .fin _ 0 => .error .zeroDiv
  | .nan, _ => .ok .nan
  | _, .nan => .ok .nan
  | .inf _, .inf _ => .ok .nan
  | .inf a, .fin b _ => .ok (.inf (a != b))
  | .fin a _, .inf b => .ok (.fin (a != b) 0)
  | .fin a n, .fin b m => .ok (mk (a != b) (rnd (n * one) m))

/-- `math.fmod(x, y)`: exact, with the sign of `x`; `ValueError` if there is no such number. -/
def fmod : Float → Float → Except Err Float
  | .nan, _ => .ok .nan
  | _, .nan => .ok .nan
  | .inf _, _ => .error .value
  | _, .fin _ 0 => .error .value
  | .fin a n, .inf _ => .ok (.fin a n)
  | .fin a n, .fin _ m => .ok (.fin a (n % m))

/-- `x < y`: never for NaN. -/
def lt : Float → Float → Bool
  | .nan, _ => false
  | _, .nan => false
  | .inf a, .inf b => a && !b
  | .inf a, .fin _ _ => a
  | .fin _ _, .inf b => !b
  | .fin a n, .fin b m => decide (signed a n < signed b m)

/-- `x == y`: never for NaN; the two zeros are equal. -/
def eq : Float → Float → Bool
  | .inf a, .inf b => a == b
  | .fin a n, .fin b m => decide (signed a n = signed b m)
  | _, _ => false

def le (x y : Float) : Bool := lt x y || eq x y

/-- `OverflowError` for what is too large. -/
def finite : Float → Except Err Float
  | .fin a n => .ok (.fin a n)
  | _ => .error .other

/-- `float(i)`: `OverflowError` if it is too large. -/
def ofInt (i : Int) : Except Err Float := finite (mk (decide (i < 0)) (rnd (i.natAbs * one) 1))

/-- `int(x)`: without the fraction. -/
def toInt : Float → Except Err Int
  | .nan => .error .value
  | .inf _ => .error .other
  | .fin a n => .ok (signed a (n / one))

/-- `i == x`, `i <= x` and `i >= x` for an `int` and a `float`: Python compares the numbers themselves, without rounding. -/
def eqInt (i : Int) : Float → Bool
  | .fin a n => decide (i * one = signed a n)
  | _ => false
def leI (i : Int) : Float → Bool
  | .nan => false
  | .inf a => !a
  | .fin a n => decide (i * one ≤ signed a n)
def geI (i : Int) : Float → Bool
  | .nan => false
  | .inf a => a
  | .fin a n => decide (signed a n ≤ i * one)

/-- `i / j` for integers: rounded once. -/
def trueDiv (i j : Int) : Except Err Float :=
  if j = 0 then .error .zeroDiv
  else finite (mk (decide (i < 0) != decide (j < 0)) (rnd (i.natAbs * one) j.natAbs))

/-- The square root of `n` without its fraction: the largest `s` with `s * s ≤ n`, bit by bit. -/
def isqrt : (bits : Nat) → (n : Nat) → Nat
  | 0, _ => 0
  | b + 1, n =>
    let s := 2 * isqrt b (n / 4)
    if (s + 1) * (s + 1) ≤ n then s + 1 else s

/-- `math.sqrt(x)`: `ValueError` for negative numbers.  The root of `n` units is the root of `n * one`, in units; if this is not an integer, it is between two, which round in the same way as the number half-way. -/
def sqrt : Float → Except Err Float
  | .nan => .ok .nan
  | .inf true => .error .value
  | .inf false => .ok (.inf false)
  | .fin a n =>
    if n = 0 then .ok (.fin a 0)
    else if a then .error .value
    else
      let s := isqrt ((n * one).log2 / 2 + 1) (n * one)
      .ok (mk false (if s * s = n * one then rnd s 1 else rnd (2 * s + 1) 2))

/-- The literal `0.5`. -/
def half : Float := .fin false (2 ^ 1073)

/-- `math.floor(x)`, an `int`. -/
def floor : Float → Except Err Int
  | .nan => .error .value
  | .inf _ => .error .other
  | .fin a n => .ok ((signed a n) / one)

/-- `math.copysign(i, x)`; the sign of NaN is not modelled. -/
def withSign : Float → Float → Float
  | .fin _ n, .fin a _ => .fin a n
  | .fin _ n, .inf a => .fin a n
  | y, _ => y
def copysign (i : Int) (x : Float) : Except Err Float := do .ok (withSign (← ofInt i) x)

/-- `round_double` (`rlib/float.py:17-33`). -/
def roundDouble (x : Float) : Except Err Float := do
  let absValue := abs x
  let rounded ← floor (add absValue half)
  if lt (sub (← ofInt rounded) absValue) (.fin false one) then copysign rounded x
  else .ok x

/-- `Double>>round` (`double_primitives.py:76-80`). -/
def primRound (x : Float) : Except Err Int := do toInt (← roundDouble x)

/-- `Double>>asInteger` (`double_primitives.py:83-86`). -/
def primAsInteger (x : Float) : Except Err Int := toInt x

/-- `Integer>>asDouble` (`integer_primitives.py:29-30`, `integer.py:105-108`). -/
def primAsDouble (i : Int) : Except Err Float := ofInt i

/-- `Integer>>sqrt` (`integer_primitives.py:42-47`): an Integer (left) or a Double.  `sqrt` of an `int` converts it first. -/
def primSqrt (i : Int) : Except Err (Int ⊕ Float) := do
  let res ← sqrt (← ofInt i)
  let j ← toInt res
  if eq res (← ofInt j) then .ok (.inl j) else .ok (.inr res)

/-- `Double>>sqrt` (`double_primitives.py:14-15`). -/
def primSqrtDouble (x : Float) : Except Err Float := sqrt x

/-- `Double class>>PositiveInfinity` (`double_primitives.py:99-100`, `rlib/float.py:3`: `1e200 * 1e200`). -/
def positiveInfinity : Float := mul (.fin false (rnd (10 ^ 200 * one) 1)) (.fin false (rnd (10 ^ 200 * one) 1))

/-- The operations that the other models leave open. -/
def ops : Mach.Floats Float where
  ofInt := ofInt
  one := .fin false one
  add := add
  sub := sub
  mul := mul
  div := div
  fmod := fmod
  lt := lt
  le := le
  gt x y := lt y x
  ge x y := le y x
  eq := eq
  eqInt := eqInt
  toInt := toInt
  trueDiv := trueDiv
  leI := leI
  geI := geI
  sqrt := sqrt
  round := primRound
  infinity := positiveInfinity

end PySOM.F64

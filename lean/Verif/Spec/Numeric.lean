import Verif.Model.Numeric
/-!
# Specification for numbers

What the number objects mean: an `Integer` or `BigInteger` denotes a mathematical integer.
-/
set_option autoImplicit false
namespace PySOM.Num.Spec
open PySOM PySOM.Num

/-- The mathematical integer denoted by a number object; Doubles and other objects denote none. -/
def intVal {F : Type} : Num F → Option Int
  | .int i => some i
  | .big i => some i
  | .dbl _ => none
  | .obj _ => none

/-- Number objects that can exist on a platform: RPython machine integers fit 64 bits; on CPython, where overflow is
never signalled, BigIntegers are never created. -/
def Exists {F : Type} : Platform → Num F → Prop
  | .rpython, .int i => -(2 ^ 63) ≤ i ∧ i < 2 ^ 63
  | .cpython, .big _ => False
  | _, _ => True

/-- `n` is an Integer or BigInteger object that can exist on the platform and denotes `i`. -/
def Denotes {F : Type} (p : Platform) (n : Num F) (i : Int) : Prop := Exists p n ∧ intVal n = some i

/-- The outcome of a primitive is a number object denoting `i`. -/
def Answers {F : Type} (p : Platform) (r : Except Err (Num F)) (i : Int) : Prop := ∃ n, r = .ok n ∧ Denotes p n i

/-- The float value of a number object; other objects have none. -/
def asFloat {F : Type} (fo : FloatOps F) : Num F → Except Err F
  | .int i => fo.ofInt i
  | .big i => fo.ofInt i
  | .dbl f => .ok f
  | .obj _ => .error .value

/-- Bit `k` of the infinite two's-complement representation of `i`. -/
def bit (i : Int) (k : Nat) : Bool := decide (i / 2 ^ k % 2 = 1)

/-- `q` and `m` are the floored quotient and modulus of `a` by `b ≠ 0`. -/
def FloorDivMod (a b q m : Int) : Prop := q * b + m = a ∧ (0 < b → 0 ≤ m ∧ m < b) ∧ (b < 0 → b < m ∧ m ≤ 0)

/-- `t` is the truncating remainder of `a` by `b ≠ 0`: it differs from `a` by a multiple of `b`, is smaller than `b`
in magnitude and has the sign of the dividend. -/
def TruncRem (a b t : Int) : Prop := (∃ k, a = k * b + t) ∧ t.natAbs < b.natAbs ∧ (0 ≤ a → 0 ≤ t) ∧ (a ≤ 0 → t ≤ 0)

end PySOM.Num.Spec

import Verif.Model.Binary64
/-!
# What floating-point numbers are

Numbers with 53 significant bits; what the nearest of them is.  All in units of 2^-1074.
-/
set_option autoImplicit false
namespace PySOM.F64.Spec
open PySOM

/-- `n` units have 53 significant bits. -/
def Rep (n : Nat) : Prop := ∃ m k : Nat, m < 2 ^ 53 ∧ n = m * 2 ^ k

/-- The last of the 53 bits is 0. -/
def EvenRep (n : Nat) : Prop := ∃ m k : Nat, m < 2 ^ 52 ∧ n = m * 2 ^ (k + 1)

/-- The distance of `n / d` and `r`, times `d`. -/
def dist (n d r : Nat) : Nat := ((n : Int) - (r : Int) * d).natAbs

/-- `r` is the number with 53 bits that is nearest to `n / d`; of two that are equally near, it is the one whose last bit is 0. -/
structure Nearest (n d r : Nat) : Prop where
  rep : Rep r
  near : ∀ s, Rep s → dist n d r ≤ dist n d s
  even : ∀ s, Rep s → s ≠ r → dist n d s = dist n d r → EvenRep r

/-- `r` is the number with 53 bits that is nearest to the square root of `v`: the root is on the side of `r` of the middle between `r` and any other such number. -/
structure NearestRoot (v r : Nat) : Prop where
  rep : Rep r
  below : ∀ s, Rep s → r < s → 4 * v ≤ (r + s) * (r + s)
  above : ∀ s, Rep s → s < r → (r + s) * (r + s) ≤ 4 * v

/-- With the sign; infinite if it is too large. -/
def Result (neg : Bool) (r : Nat) (x : Float) : Prop := (r < huge ∧ x = .fin neg r) ∨ (huge ≤ r ∧ x = .inf neg)

/-- A value of `float`: finite numbers have 53 bits and are not too large. -/
def Ok : Float → Prop
  | .fin _ n => Rep n ∧ n < huge
  | _ => True

/-- The integer nearest to `n` units, of two equally near the larger one. -/
def nearestInt (n : Nat) (i : Nat) : Prop := 2 * n < (2 * i + 1) * one ∧ 2 * i * one ≤ 2 * n + one

/-- What numbers are compared as: a number of units, or one of the infinities.  NaN is none of them. -/
inductive Ext where
  | bottom
  | units (v : Int)
  | top

def Ext.lt : Ext → Ext → Prop
  | .bottom, .bottom => False
  | .bottom, _ => True
  | .units _, .bottom => False
  | .units v, .units w => v < w
  | .units _, .top => True
  | .top, _ => False

/-- The number that a value stands for. -/
def number : Num.Num Float → Option Ext
  | .int i => some (.units (i * one))
  | .dbl (.fin true n) => some (.units (-(n : Int)))
  | .dbl (.fin false n) => some (.units n)
  | .dbl (.inf true) => some .bottom
  | .dbl (.inf false) => some .top
  | _ => none

/-- An Integer of at most 2^53, or a Double. -/
def Small : Num.Num Float → Prop
  | .int i => -(2 ^ 53) ≤ i ∧ i ≤ 2 ^ 53
  | .dbl _ => True
  | _ => False

/-- A primitive answers whether `P` holds. -/
def Tells (r : Except Err Bool) (P : Prop) : Prop := ∃ v, r = .ok v ∧ (v = true ↔ P)

end PySOM.F64.Spec

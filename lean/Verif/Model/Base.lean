/-!
# Shared base of the model

Python exceptions are values of type `Err`.  The two runtimes of PySOM (translated RPython and plain CPython)
are distinguished by `Platform` where they behave differently.
-/
namespace PySOM

/-- Python exceptions that the modelled code can raise (exceptions as values). -/
inductive Err where
  /-- `IndexError` -/
  | index
  /-- `AssertionError` (a failing `assert`) -/
  | assertion
  /-- `AttributeError` (e.g. a method called on `None`) -/
  | attribute
  /-- `TypeError` -/
  | type
  /-- `ValueError` -/
  | value
  /-- `KeyError` -/
  | key
  /-- `NotImplementedError` or `Exception("Not yet implemented")` -/
  | notImplemented
  /-- `ZeroDivisionError` -/
  | zeroDiv
  /-- `ParseError` of the SOM compiler -/
  | parse
  /-- any other exception -/
  | other
  deriving DecidableEq, Repr

/-- Results of computations that may raise can be compared. -/
instance {α : Type} [DecidableEq α] : DecidableEq (Except Err α) := fun a b =>
  match a, b with
  | .ok x, .ok y => if h : x = y then isTrue (by rw [h]) else isFalse (by intro he; cases he; exact h rfl)
  | .error x, .error y => if h : x = y then isTrue (by rw [h]) else isFalse (by intro he; cases he; exact h rfl)
  | .ok _, .error _ => isFalse (by intro h; cases h)
  | .error _, .ok _ => isFalse (by intro h; cases h)

/-- The two runtimes the same source runs on.
`src/rlib/arithmetic.py:1-26`: the `try` branch (RPython) has 64-bit machine integers and a real `ovfcheck`;
the `except ImportError` branch (CPython) has unbounded integers and `ovfcheck` is the identity. -/
inductive Platform where
  | rpython
  | cpython
  deriving DecidableEq, Repr

/-- IEEE-754 bit pattern of a double.  Floating-point arithmetic is not interpreted by the model. -/
abbrev Dbl := Nat

/-- Python's list-index rule: indices `0..len-1` count from the front, `-len..-1` from the back,
anything else is an `IndexError` (`none`). -/
def pyIdx (len : Nat) (i : Int) : Option Nat :=
  if 0 ≤ i then (if i < len then some i.toNat else none)
  else (if -(len : Int) ≤ i then some (len + i).toNat else none)

end PySOM

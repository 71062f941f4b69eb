import Verif.Model.Array
/-!
# Specification of arrays

An array is a list of values; a program sees a collection of arrays, each with its own list.  Nothing here refers to
strategies or storages.
-/
namespace PySOM.Arr.Spec
open PySOM PySOM.Arr

/-- Arrays by identity. -/
abbrev Arrays := List (List Val)

/-- `at: i`, 1-based. -/
def at? (xs : List Val) (i : Int) : Option Val :=
  if 1 ≤ i ∧ i ≤ xs.length then xs[(i - 1).toNat]? else none

/-- The integers from `lo` to `hi` inclusive. -/
def interval (lo hi : Int) : List Val := (List.range (hi + 1 - lo).toNat).map (fun (k : Nat) => Val.int (lo + k))

/-- What every array operation is supposed to do. -/
def step (h : Arrays) (op : Op) : Arrays × Res :=
  match op with
  | .new n => (h ++ [List.replicate n.toNat Val.nil], .array h.length)
  | .at a i => match h[a]? with
    | none => (h, .error .other)
    | some xs => match at? xs i with
      | some v => (h, .value v)
      | none => (h, .error .index)
  | .put a i v => match h[a]? with
    | none => (h, .error .other)
    | some xs => if 1 ≤ i ∧ i ≤ xs.length then (h.set a (xs.set (i - 1).toNat v), .unit) else (h, .error .index)
  | .length a => match h[a]? with
    | none => (h, .error .other)
    | some xs => (h, .size xs.length)
  | .copy a => match h[a]? with
    | none => (h, .error .other)
    | some xs => (h ++ [xs], .array h.length)
  | .putAll a v => match h[a]? with
    | none => (h, .error .other)
    | some xs => (h.set a (List.replicate xs.length v), .unit)
  | .extend a v => match h[a]? with
    | none => (h, .error .other)
    | some xs => (h ++ [xs ++ [v]], .array h.length)
  | .range lo hi => (h ++ [interval lo hi], .array h.length)
  | .values vs => (h ++ [vs], .array h.length)
  | .objects vs => (h ++ [vs], .array h.length)

/-- A sequence of operations with their results. -/
def run (h : Arrays) : List Op → Arrays × List Res
  | [] => (h, [])
  | op :: ops =>
    let (h', r) := step h op
    let (h'', rs) := run h' ops
    (h'', r :: rs)

/-- Kinds of elements. -/
def isInt : Val → Bool | .int _ => true | _ => false
def isDbl : Val → Bool | .dbl _ => true | _ => false
def isBool : Val → Bool | .bool _ => true | _ => false

/-- Operations a SOM program can issue for which we specify behaviour: sizes are not negative, indices are at least 1,
and stored values are SOM objects. -/
def Valid : Op → Prop
  | .new n => 0 ≤ n
  | .at _ i => 1 ≤ i
  | .put _ i v => 1 ≤ i ∧ v.isSom = true
  | .length _ => True
  | .copy _ => True
  | .putAll _ v => v.isSom = true
  | .extend _ v => v.isSom = true
  | .range _ _ => True
  | .values vs => ∀ x ∈ vs, x.isSom = true
  | .objects vs => ∀ x ∈ vs, x.isSom = true

/-- The stores into homogeneous arrays which the code refuses: storing something that is not a Double into an array
all of whose elements are Doubles; the same for Booleans.  (Vacuously, this includes arrays of length 0, for which
every store is an error anyway: see `C14_put_on_zero_length_array`.) -/
def RefusedStore (xs : List Val) (v : Val) : Prop :=
  (xs.all isDbl ∧ ¬ isDbl v) ∨ (xs.all isBool ∧ ¬ isBool v)

/-- Lists of values from which the code cannot build an array faithfully: nil together with values of exactly one
of the kinds Integer, Double, Boolean. -/
def NilMixed (vs : List Val) : Prop :=
  (∃ x ∈ vs, x = .nil) ∧ (∃ x ∈ vs, x ≠ .nil) ∧
    ((∀ x ∈ vs, x = .nil ∨ isInt x) ∨ (∀ x ∈ vs, x = .nil ∨ isDbl x) ∨ (∀ x ∈ vs, x = .nil ∨ isBool x))

/-- Operations that the code may refuse in state `h`. -/
def Refused (h : Arrays) : Op → Prop
  | .put a _ v => ∃ xs, h[a]? = some xs ∧ RefusedStore xs v
  | .extend a v => ∃ xs, h[a]? = some xs ∧ (RefusedStore xs v ∨ (xs.all isInt ∧ ¬ isInt v))
  | .values vs => NilMixed vs
  | _ => False

/-- No operation of the sequence is one the code may refuse. -/
def Compatible (h : Arrays) : List Op → Prop
  | [] => True
  | op :: ops => ¬ Refused h op ∧ Compatible (step h op).1 ops

end PySOM.Arr.Spec

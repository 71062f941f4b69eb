import Verif.Model.Loops
/-! # Specification of loops: folds over lists, and the usual inductive meaning of `while` -/
set_option autoImplicit false
namespace PySOM.Loop.Spec
open PySOM

/-- Evaluate the block for each element in order; stop at the first exception. -/
def each {E σ α : Type} (body : α → σ → Res E σ Unit) : List α → σ → Res E σ Unit
  | [], s => some (.ok ((), s))
  | x :: xs, s =>
    match body x s with
    | none => none
    | some (.error e) => some (.error e)
    | some (.ok (_, s)) => each body xs s

/-- `start, start + step, …`, `m` numbers. -/
def progression (start step : Int) (m : Nat) : List Int := (List.range m).map fun (k : Nat) => start + k * step

/-- How many numbers `lo, lo + step, …` do not exceed `hi` (for a positive step). -/
def count (lo hi step : Int) : Nat := if lo ≤ hi then ((hi - lo) / step).toNat + 1 else 0

/-- The meaning of `while the condition answers want, do the body`. -/
inductive While {E σ : Type} (want : Cond) (cond : σ → Res E σ Cond) (body : σ → Res E σ Unit) : σ → Except E (Unit × σ) → Prop where
  | stop (s s' : σ) (c : Cond) : cond s = some (.ok (c, s')) → c ≠ want → While want cond body s (.ok ((), s'))
  | condRaises (s : σ) (e : E) : cond s = some (.error e) → While want cond body s (.error e)
  | bodyRaises (s s' : σ) (e : E) : cond s = some (.ok (want, s')) → body s' = some (.error e) → While want cond body s (.error e)
  | again (s s' s'' : σ) (r : Except E (Unit × σ)) : cond s = some (.ok (want, s')) → body s' = some (.ok ((), s'')) →
      While want cond body s'' r → While want cond body s r

/-- For each index `k` in turn, evaluate the block with what is then the element at `k`. -/
def eachElement {E σ : Type} (content : σ → List Arr.Val) (body : Arr.Val → σ → Res E σ Unit) : List Nat → σ → Res E σ Unit
  | [], s => some (.ok ((), s))
  | k :: ks, s =>
    match (content s)[k]? with
    | none => none
    | some v =>
      match body v s with
      | none => none
      | some (.error e) => some (.error e)
      | some (.ok (_, s)) => eachElement content body ks s

end PySOM.Loop.Spec

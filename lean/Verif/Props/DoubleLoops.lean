import Verif.Props.Loops
import Verif.Model.Binary64
/-!
# C38 with the Doubles of CPython as limits
-/
set_option autoImplicit false
namespace PySOM.F64
open PySOM PySOM.Loop
variable {E σ : Type}

attribute [local irreducible] one

/-- The limit a Double is for a counting loop. -/
def limitOf (x : Float) : Limit := .dbl (fun i => leI i x) (fun i => geI i x)

theorem units_pos : (0 : Int) < (one : Nat) := by
  have : 0 < one := by
    unfold one
    exact Nat.pow_pos (by omega)
  exact Int.natCast_pos.mpr this

theorem leI_floor {neg : Bool} {n : Nat} {i f : Int} (h1 : f * one ≤ signed neg n) (h2 : signed neg n < (f + 1) * one) :
    leI i (.fin neg n) = decide (i ≤ f) := by
  show decide (i * one ≤ signed neg n) = _
  refine decide_eq_decide.mpr ⟨fun h => ?_, fun h => ?_⟩
  · have h3 : i * one < (f + 1) * (one : Nat) := Int.lt_of_le_of_lt h h2
    have := Int.lt_of_mul_lt_mul_right h3 (Int.le_of_lt units_pos)
    omega
  · exact Int.le_trans (Int.mul_le_mul_of_nonneg_right h (Int.le_of_lt units_pos)) h1

theorem geI_ceil {neg : Bool} {n : Nat} {i c : Int} (h1 : (c - 1) * one < signed neg n) (h2 : signed neg n ≤ c * one) :
    geI i (.fin neg n) = decide (c ≤ i) := by
  show decide (signed neg n ≤ i * one) = _
  refine decide_eq_decide.mpr ⟨fun h => ?_, fun h => ?_⟩
  · have h3 : (c - 1) * (one : Nat) < i * one := Int.lt_of_lt_of_le h1 h
    have := Int.lt_of_mul_lt_mul_right h3 (Int.le_of_lt units_pos)
    omega
  · exact Int.le_trans h2 (Int.mul_le_mul_of_nonneg_right h (Int.le_of_lt units_pos))

/-- **C38, Doubles as limits** (CPython): `lo to: d by: step do:` with a finite Double `d` runs over `lo, lo + step, …` up to the largest integer `f`
that is not greater than `d`, for all Integers, also beyond 2^53. -/
theorem C38_double_up_partial (neg : Bool) (n : Nat) (f lo step : Int) (h1 : f * one ≤ signed neg n) (h2 : signed neg n < (f + 1) * one) (hs : 0 < step)
    (body : Int → σ → Res E σ Unit) (s : σ) (r : Except E (Int × σ)) :
    (∃ fuel, primToByDo .cpython fuel lo (limitOf (.fin neg n)) step body s = some r) ↔
      thenAnswer lo (Spec.each body (Spec.progression lo step (Spec.count lo f step)) s) = some r := by
  have he : (fun i => leI i (.fin neg n)) = fun i => decide (i ≤ f) := funext fun i => leI_floor h1 h2
  rw [← C38_to_by_do_partial .cpython lo f step hs (.inl rfl) body s r]
  unfold primToByDo limitOf
  dsimp only
  rw [he]

/-- `lo to: d do:` likewise. -/
theorem C38_double_to_do (neg : Bool) (n : Nat) (f lo : Int) (h1 : f * one ≤ signed neg n) (h2 : signed neg n < (f + 1) * one)
    (body : Int → σ → Res E σ Unit) (s : σ) (r : Except E (Int × σ)) :
    (∃ fuel, primToDo .cpython fuel lo (limitOf (.fin neg n)) body s = some r) ↔
      thenAnswer lo (Spec.each body (Spec.progression lo 1 (Spec.count lo f 1)) s) = some r :=
  C38_double_up_partial neg n f lo 1 h1 h2 (by omega) body s r

/-- `hi downTo: d do:` runs down to the smallest integer `c` that is not less than `d`. -/
theorem C38_double_down (neg : Bool) (n : Nat) (c hi : Int) (h1 : (c - 1) * one < signed neg n) (h2 : signed neg n ≤ c * one)
    (body : Int → σ → Res E σ Unit) (s : σ) (r : Except E (Int × σ)) :
    (∃ fuel, primDownToDo .cpython fuel hi (limitOf (.fin neg n)) body s = some r) ↔
      thenAnswer hi (Spec.each body (Spec.progression hi (-1) (Spec.count c hi 1)) s) = some r := by
  have he : (fun i => geI i (.fin neg n)) = fun i => decide (i ≥ c) := funext fun i => geI_ceil h1 h2
  rw [← C38_down_to_do_partial .cpython c hi (.inl rfl) body s r]
  unfold primDownToDo limitOf
  dsimp only
  rw [he]

/-- A loop to not-a-number, up to minus infinity or down to infinity evaluates nothing and answers its receiver. -/
theorem C38_double_none (x : Float) (lo step : Int) (body : Int → σ → Res E σ Unit) (s : σ) (fuel : Nat) :
    (x = .nan ∨ x = .inf true → primToByDo .cpython (fuel + 1) lo (limitOf x) step body s = some (.ok (lo, s))) ∧
    (x = .nan ∨ x = .inf false → primDownToDo .cpython (fuel + 1) lo (limitOf x) body s = some (.ok (lo, s))) := by
  constructor
  · rintro (rfl | rfl) <;> rfl
  · rintro (rfl | rfl) <;> rfl

/-- A loop up to infinity only ends when its block does not answer. -/
theorem C38_double_infinity (lo step : Int) (body : Int → σ → Res E σ Unit) (hb : ∀ i s, ∃ s', body i s = some (.ok ((), s'))) (s : σ) (fuel : Nat) :
    primToByDo .cpython fuel lo (limitOf (.inf false)) step body s = none := by
  have := toDo_diverges .cpython step (fun i => leI i (.inf false)) body (fun _ => True) (fun _ _ => rfl) (fun _ _ => trivial) hb fuel lo s trivial
  unfold primToByDo limitOf
  dsimp only
  rw [this]
  rfl

/-- 2.5: the largest integer not greater is 2; `1 to: 2.5 do:` runs over 1 and 2, `4 downTo: 2.5 do:` over 4 and 3. -/
example : (2 : Int) * one ≤ signed false (2 * one + 2 ^ 1073) ∧ signed false (2 * one + 2 ^ 1073) < (2 + 1) * one ∧
    primToDo .cpython 3 1 (limitOf (.fin false (2 * one + 2 ^ 1073))) (fun i s => some (.ok ((), s ++ [i]))) [] = some (.ok (1, [1, 2]) : Except Err (Int × List Int)) ∧
    primDownToDo .cpython 3 4 (limitOf (.fin false (2 * one + 2 ^ 1073))) (fun i s => some (.ok ((), s ++ [i]))) [] = some (.ok (4, [4, 3]) : Except Err (Int × List Int)) := by
  decide +kernel

/-- 2^53 + 1 is beyond 2^53, although `asDouble` of it is the Double 2^53. -/
example : primToDo .cpython 3 (2 ^ 53) (limitOf (.fin false (2 ^ 53 * one))) (fun i s => some (.ok ((), s ++ [i]))) [] =
    some (.ok (2 ^ 53, [2 ^ 53]) : Except Err (Int × List Int)) := by
  decide +kernel

end PySOM.F64

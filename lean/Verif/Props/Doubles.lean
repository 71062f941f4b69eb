import Verif.Lemmas.DoubleSix
import Verif.Lemmas.DoubleSqrt
/-!
# Properties C75, C76 and C77: Doubles are binary64 numbers

`PySOM.F64.Float` are the values of Python's `float`; a finite one is kept as its sign and the number of units of 2^-1074, and `one` is the number of units of 1.0.  `Spec.Ok` says that such a value exists: it has 53
significant bits and is below 2^1024.  All of this is about CPython.
-/
set_option autoImplicit false
namespace PySOM.F64
open PySOM Spec

attribute [local irreducible] one hf below huge rnd half

/-! ## C75 -/

theorem nearestInt_div (n : Nat) : nearestInt n ((n + hf) / one) := by
  have h1 := one_pos
  have h2 := one_eq
  have h3 := Nat.div_add_mod' (n + hf) one
  have h4 := Nat.mod_lt (n + hf) h1
  generalize (n + hf) / one = I at *
  unfold nearestInt
  rw [Nat.add_mul, Nat.mul_assoc, Nat.one_mul]
  generalize I * one = J at *
  omega

theorem nearestInt_unique {n i j : Nat} (hi : nearestInt n i) (hj : nearestInt n j) : i = j := by
  have h1 := one_pos
  obtain ⟨a, b⟩ := hi
  obtain ⟨c, d⟩ := hj
  have key : ∀ i j : Nat, 2 * n < (2 * i + 1) * one → 2 * j * one ≤ 2 * n + one → j ≤ i := fun i j a d => by
    have : 2 * j * one < (2 * i + 2) * one := by
      have e : (2 * i + 2) * one = (2 * i + 1) * one + one := Nat.succ_mul _ _
      omega
    have := Nat.lt_of_mul_lt_mul_right this
    omega
  exact Nat.le_antisymm (key _ _ c b) (key _ _ a d)

theorem primRound_below (a : Bool) : primRound (.fin a below) = .ok (signed a 1) := by
  cases a <;> decide +kernel

theorem below_ok (a : Bool) : Ok (.fin a below) := by
  obtain ⟨p, hp, ehf, eone, ebelow, ehuge⟩ := exps
  have hr : Rep below := ebelow ▸ Rep.mk (by decide)
  have hl : below < huge := by decide +kernel
  exact ⟨hr, hl⟩

theorem below_near : nearestInt below 0 := by
  have h : 2 * below < (2 * 0 + 1) * one ∧ 2 * 0 * one ≤ 2 * below + one := by decide +kernel
  exact h

/-- **C75**, rounding, exactly when it is right: `round` of a finite Double `± n` answers the nearest integer, halves away from zero, for all Doubles but 0.49999999999999994 and -0.49999999999999994 (`below` units).
The full statement is the same for all Doubles; see `C75_violated`. -/
theorem C75_round_partial {a : Bool} {n : Nat} (h : Ok (.fin a n)) : (∃ i, primRound (.fin a n) = .ok (signed a i) ∧ nearestInt n i) ↔ n ≠ below := by
  constructor
  · rintro ⟨i, e, hi⟩ rfl
    rw [primRound_below] at e
    have hs : signed a 1 = signed a i := Except.ok.inj e
    have h0 := nearestInt_unique hi below_near
    subst h0
    cases a <;> exact absurd hs (by decide)
  · intro hb
    exact ⟨_, primRound_eq h.1 h.2 hb, nearestInt_div n⟩

/-- **C75** is violated: `0.49999999999999994 round` answers 1, and 0 is the nearest integer. -/
theorem C75_violated : Ok (.fin false below) ∧ nearestInt below 0 ∧ primRound (.fin false below) = .ok 1 := ⟨below_ok false, below_near, primRound_below false⟩

/-- What is not a finite number has no nearest integer and no integer part: these are errors. -/
theorem C75_not_finite : primRound .nan = .error .value ∧ primAsInteger .nan = .error .value ∧ ∀ a, primRound (.inf a) = .error .other ∧ primAsInteger (.inf a) = .error .other :=
  ⟨rfl, rfl, fun a => ⟨by cases a <;> decide +kernel, rfl⟩⟩

/-- C75: `math.floor`, which `round` uses: the largest integer that is not larger, also for negative numbers. -/
theorem C75_floor (a : Bool) (n : Nat) : ∃ i : Int, floor (.fin a n) = .ok i ∧ i * one ≤ signed a n ∧ signed a n < (i + 1) * one := by
  have h1 : (0 : Int) < one := Int.natCast_pos.2 one_pos
  refine ⟨_, rfl, Int.ediv_mul_le _ (Int.ne_of_gt h1), ?_⟩
  rw [Int.add_mul, Int.one_mul]
  have h2 := Int.emod_lt_of_pos (signed a n) h1
  have h3 := Int.mul_ediv_add_emod (signed a n) one
  rw [Int.mul_comm] at h3
  omega

example : floor (.fin true one) = .ok (-1) := by decide +kernel

/-- **C75**, `asInteger`: without the fraction. -/
theorem C75_truncate (a : Bool) (n : Nat) : ∃ i, primAsInteger (.fin a n) = .ok (signed a i) ∧ i * one ≤ n ∧ n < (i + 1) * one := by
  refine ⟨n / one, rfl, Nat.div_mul_le_self _ _, ?_⟩
  rw [Nat.succ_mul]
  have := Nat.div_add_mod' n one
  have := Nat.mod_lt n one_pos
  omega

/-- **C75**, `asDouble`: the nearest Double, of two equally near ones the one whose last bit is 0. -/
theorem C75_convert {i : Int} (h : i.natAbs < (2 ^ 54 - 1) * 2 ^ 970) : ∃ r, primAsDouble i = .ok (.fin (decide (i < 0)) r) ∧ Ok (.fin (decide (i < 0)) r) ∧ Nearest (i.natAbs * one) 1 r :=
  ⟨_, ofInt_fits h, ofInt_ok (ofInt_fits h), rnd_nearest _ _ (by decide)⟩

/-- There is only one such Double. -/
theorem C75_nearest {n d r s : Nat} (hd : 0 < d) (hr : Nearest n d r) (hs : Nearest n d s) : r = s := (nearest_unique hd hr).trans (nearest_unique hd hs).symm

/-- Integers from 2^1024 - 2^970 are too large: an error. -/
theorem C75_too_large {i : Int} (h : (2 ^ 54 - 1) * 2 ^ 970 ≤ i.natAbs) : primAsDouble i = .error .other := ofInt_large h

theorem asInteger_units {i : Int} : toInt (.fin (decide (i < 0)) (i.natAbs * one)) = .ok i := by rw [toInt_fin, signed_natAbs]

/-- **C75**, there and back: `asDouble asInteger` and `asDouble round` answer the Integer itself, exactly when it has 53 significant bits. -/
theorem C75_back {i : Int} (h : i.natAbs < (2 ^ 54 - 1) * 2 ^ 970) : (∃ x, primAsDouble i = .ok x ∧ primAsInteger x = .ok i) ↔ Rep (i.natAbs * one) := by
  constructor
  · rintro ⟨x, hx, hi⟩
    have e := ofInt_fits h
    have hx' : x = .fin (decide (i < 0)) (rnd (i.natAbs * one) 1) := Except.ok.inj (hx.symm.trans e)
    subst hx'
    have hi' : signed (decide (i < 0)) (rnd (i.natAbs * one) 1 / one) = i := Except.ok.inj hi
    have near := rnd_nearest (i.natAbs * one) 1 (by decide)
    have hq : rnd (i.natAbs * one) 1 / one = i.natAbs := by
      clear h near hx e
      generalize rnd (i.natAbs * one) 1 / one = q at *
      unfold signed at hi'
      split at hi' <;> omega
    -- the conversion lost nothing: a number with 53 bits and a fraction is below 2^53, and there the conversion is exact
    by_cases hs : i.natAbs ≤ 2 ^ 53
    · exact rep_mul_one hs
    · have hge : 2 ^ 52 * one ≤ rnd (i.natAbs * one) 1 := le_rnd (by decide) (rep_mul_one (by decide)) (by
        rw [Nat.mul_one]
        exact Nat.mul_le_mul_right _ (Nat.le_trans (by decide) (Nat.le_of_not_le hs)))
      obtain ⟨N, eN, -, -⟩ := round_large near.rep hge
      have hN : N = i.natAbs := by rw [← hq, eN, Nat.mul_div_cancel _ one_pos]
      rw [← hN, ← eN]
      exact near.rep
  · intro hr
    have hl : i.natAbs * one < huge := by
      have := Nat.lt_of_not_le fun h' => Nat.not_le.2 h ((huge_le_rnd i.natAbs).1 h')
      rwa [rnd_self hr] at this
    exact ⟨_, ofInt_exact hr hl, asInteger_units⟩

/-- **C75**: Integers up to 2^53 come back. -/
theorem C75_back_small {i : Int} (h : i.natAbs ≤ 2 ^ 53) : ∃ x, primAsDouble i = .ok x ∧ primAsInteger x = .ok i ∧ primRound x = .ok i := by
  refine ⟨_, ofInt_small h, asInteger_units, ?_⟩
  have hb : i.natAbs * one ≠ below := fun hb => by
    have h1 : below < one := by decide +kernel
    have h2 : 0 < below := by decide +kernel
    rcases Nat.eq_zero_or_pos i.natAbs with h0 | h0
    · rw [h0, Nat.zero_mul] at hb
      omega
    · have := Nat.mul_le_mul_right one h0
      omega
  rw [primRound_eq (rep_mul_one h) (small_huge h) hb]
  have e : (i.natAbs * one + hf) / one = i.natAbs := by
    have := one_eq
    have := hf_pos
    rw [Nat.add_comm, Nat.add_mul_div_right _ _ one_pos, Nat.div_eq_of_lt (by omega), Nat.zero_add]
  rw [e, signed_natAbs]

/-- **C75**: every operation on Doubles answers a Double that exists; so the premises above hold for all Doubles that a program meets. -/
theorem C75_closed {x y z : Float} (hx : Ok x) (hy : Ok y) :
    Ok (add x y) ∧ Ok (sub x y) ∧ Ok (mul x y) ∧ (div x y = .ok z → Ok z) ∧ (fmod x y = .ok z → Ok z) ∧ (primSqrtDouble x = .ok z → Ok z) ∧
      (∀ i, primAsDouble i = .ok z → Ok z) ∧ (∀ i j, trueDiv i j = .ok z → Ok z) ∧ Ok positiveInfinity :=
  ⟨add_ok, add_ok, mul_ok, div_ok, fmod_ok hx hy, sqrt_ok, fun _ h => ofInt_ok h, fun _ _ h => trueDiv_ok h, mul_ok⟩

/-- **C75**, arithmetic: sums, differences, products and quotients of finite Doubles are the exact results, rounded to the nearest Double (infinite when this is 2^1024 or more); a sum of zero is a zero; remainders are exact. -/
theorem C75_arithmetic (a b : Bool) (n m : Nat) :
    (signed a n + signed b m ≠ 0 → ∃ r, Nearest (signed a n + signed b m).natAbs 1 r ∧ Result (decide (signed a n + signed b m < 0)) r (add (.fin a n) (.fin b m))) ∧
    (signed a n + signed b m = 0 → ∃ c, add (.fin a n) (.fin b m) = .fin c 0) ∧
    (sub (.fin a n) (.fin b m) = add (.fin a n) (.fin (!b) m)) ∧
    (∃ r, Nearest (n * m) one r ∧ Result (a != b) r (mul (.fin a n) (.fin b m))) ∧
    (m ≠ 0 → ∃ r x, Nearest (n * one) m r ∧ div (.fin a n) (.fin b m) = .ok x ∧ Result (a != b) r x) ∧
    (m ≠ 0 → fmod (.fin a n) (.fin b m) = .ok (.fin a (n % m))) ∧
    div (.fin a n) (.fin b 0) = .error .zeroDiv ∧ fmod (.fin a n) (.fin b 0) = .error .value := by
  have e : add (.fin a n) (.fin b m) = ofUnits (a && b) (signed a n + signed b m) := rfl
  refine ⟨fun h => ⟨_, rnd_nearest _ _ (by decide), ?_⟩, fun h => ⟨a && b, ?_⟩, rfl, ⟨_, rnd_nearest _ _ one_pos, mk_result _ _⟩, fun h => ?_, fun h => ?_, rfl, rfl⟩
  · rw [e]
    unfold ofUnits
    rw [if_neg h]
    exact mk_result _ _
  · rw [e, h]
    rfl
  · match m, h with
    | m + 1, _ => exact ⟨_, _, rnd_nearest _ _ (Nat.succ_pos m), rfl, mk_result _ _⟩
  · match m, h with
    | m + 1, _ => rfl

/-- **C75**: the Integer 1 is converted to 1.0, as C07, C66 and the others that count need. -/
theorem C75_one : ops.ofInt 1 = .ok ops.one := by decide +kernel

/-- The premises hold for 2.5, which is rounded to 3, and for -2.5, rounded to -3; 2^53 + 1 is converted to 2^53. -/
example : primRound (.fin false (5 * 2 ^ 1073)) = .ok 3 ∧ primRound (.fin true (5 * 2 ^ 1073)) = .ok (-3) ∧ primAsInteger (.fin true (5 * 2 ^ 1073)) = .ok (-2) ∧
    (primAsDouble (2 ^ 53 + 1) >>= primAsInteger) = .ok (2 ^ 53) := by decide +kernel
example : Ok (.fin false (5 * 2 ^ 1073)) ∧ 5 * 2 ^ 1073 ≠ below :=
  ⟨⟨Rep.mk (by decide), by decide +kernel⟩, by decide +kernel⟩
example : positiveInfinity = .inf false := by decide +kernel

/-! ## C76 -/

open Num in
/-- **C76**: for Integers up to 2^53 and Doubles that are not NaN, in any mix, the six comparisons answer what the order of the numbers says.  The full statement is the same for all Integers; see `C76_violated`. -/
theorem C76_compare_partial {x y : Num Float} {a b : Ext} (hx : number x = some a) (hy : number y = some b) (sx : Small x) (sy : Small y) :
    Tells (primLessThan .cpython ops.toFloatOps x y) (a.lt b) ∧ Tells (primGreater .cpython ops.toFloatOps x y) (b.lt a) ∧
    Tells (primLessEq .cpython ops.toFloatOps x y) (¬ b.lt a) ∧ Tells (primGreaterEq .cpython ops.toFloatOps x y) (¬ a.lt b) ∧
    Tells (primEquals .cpython ops.toFloatOps x y) (a = b) ∧ Tells (primUnequals .cpython ops.toFloatOps x y) (a ≠ b) := compared_small same_ops hx hy sx sy

/-- The order of the numbers is a total order. -/
theorem C76_order : (∀ a : Ext, ¬ a.lt a) ∧ (∀ a b c : Ext, a.lt b → b.lt c → a.lt c) ∧ ∀ a b : Ext, a.lt b ∨ a = b ∨ b.lt a :=
  ⟨Ext.irrefl, fun _ _ _ => Ext.trans, Ext.total⟩

open Num in
/-- **C76**, for all Integers: when `<` says yes, it is right.  (It is `no` that may be wrong: rounding can make numbers equal, but does not change which is larger.) -/
theorem C76_less_partial {i : Int} {y : Float} {b : Ext} (hy : Ok y) (hb : number (.dbl y) = some b) :
    (primLessThan .cpython ops.toFloatOps (.int i) (.dbl y) = .ok true → (Ext.units (i * one)).lt b) ∧
    (primGreater .cpython ops.toFloatOps (.int i) (.dbl y) = .ok true → b.lt (Ext.units (i * one))) ∧
    (primLessThan .cpython ops.toFloatOps (.dbl y) (.int i) = .ok true → b.lt (Ext.units (i * one))) ∧
    (primGreater .cpython ops.toFloatOps (.dbl y) (.int i) = .ok true → (Ext.units (i * one)).lt b) := less_yes same_ops hy hb

open Num in
/-- **C76**, equality: an Integer asks for the numbers themselves, whatever its size. -/
theorem C76_equal {i : Int} {y : Float} {b : Ext} (hb : number (.dbl y) = some b) :
    Tells (primEquals .cpython ops.toFloatOps (.int i) (.dbl y)) (Ext.units (i * one) = b) ∧ Tells (primUnequals .cpython ops.toFloatOps (.int i) (.dbl y)) (Ext.units (i * one) ≠ b) :=
  equal_int same_ops hb

open Num in
/-- **C76**, NaN: it is not less, not greater and not equal to any number, not even to itself. -/
theorem C76_nan {y : Num Float} (hy : Small y) :
    primLessThan .cpython ops.toFloatOps (.dbl .nan) y = .ok false ∧ primGreater .cpython ops.toFloatOps (.dbl .nan) y = .ok false ∧
    primLessEq .cpython ops.toFloatOps (.dbl .nan) y = .ok false ∧ primGreaterEq .cpython ops.toFloatOps (.dbl .nan) y = .ok false ∧
    primEquals .cpython ops.toFloatOps (.dbl .nan) y = .ok false ∧ primUnequals .cpython ops.toFloatOps (.dbl .nan) y = .ok true := nan_compared same_ops hy

/-- 2^53 as a Double. -/
def two53 : Float := .fin false (2 ^ 53 * one)

open Num in
/-- **C76** is violated: 2^53 + 1 and the Double 2^53 are not equal, but neither is less than the other; and the other way round they are equal. -/
theorem C76_violated : primLessThan .cpython ops.toFloatOps (.int (2 ^ 53 + 1)) (.dbl two53) = .ok false ∧ primGreater .cpython ops.toFloatOps (.int (2 ^ 53 + 1)) (.dbl two53) = .ok false ∧
    primEquals .cpython ops.toFloatOps (.int (2 ^ 53 + 1)) (.dbl two53) = .ok false ∧ primEquals .cpython ops.toFloatOps (.dbl two53) (.int (2 ^ 53 + 1)) = .ok true := by
  decide +kernel

open Num in
example : number (.int 3) = some (.units (3 * one)) ∧ number (.dbl (.fin false (5 * 2 ^ 1073))) = some (.units (5 * 2 ^ 1073 : Nat)) ∧ Small (.int 3) ∧
    primGreater .cpython ops.toFloatOps (.int 3) (.dbl (.fin false (5 * 2 ^ 1073))) = .ok true ∧ primEquals .cpython ops.toFloatOps (.dbl (.fin false (3 * one))) (.int 3) = .ok true :=
  ⟨rfl, rfl, ⟨by decide, by decide⟩, by decide +kernel, by decide +kernel⟩

/-! ## C77 -/

/-- **C77**: `sqrt` of an Integer up to 2^52 answers an Integer exactly when there is an integer root, and then this root; otherwise a Double.  The full statement is the same for all Integers that are not negative; see
`C77_violated`. -/
theorem C77_root_partial {i : Nat} (h : i ≤ 2 ^ 52) : (∀ j : Int, primSqrt i = .ok (.inl j) ↔ 0 ≤ j ∧ j * j = i) ∧ ((∀ j : Nat, j * j ≠ i) → ∃ r, primSqrt i = .ok (.inr r)) := by
  refine ⟨fun j => ⟨fun e => ?_, ?_⟩, primSqrt_other h⟩
  · by_cases hs : ∃ k, k * k = i
    · obtain ⟨k, rfl⟩ := hs
      have hk : k ≤ 2 ^ 26 := sq_le (Nat.le_trans h (by decide))
      rw [primSqrt_square hk] at e
      have : (k : Int) = j := Sum.inl.inj (Except.ok.inj e)
      subst this
      exact ⟨Int.natCast_nonneg _, (Int.natCast_mul _ _).symm⟩
    · obtain ⟨r, e'⟩ := primSqrt_other h fun k hk => hs ⟨k, hk⟩
      rw [e'] at e
      exact nomatch e
  · rintro ⟨h0, e⟩
    obtain ⟨k, rfl⟩ := Int.eq_ofNat_of_zero_le h0
    have ek : k * k = i := by exact_mod_cast e
    subst ek
    exact primSqrt_square (sq_le (Nat.le_trans h (by decide)))

/-- **C77**, `sqrt` of a positive Double: the Double nearest to the root. -/
theorem C77_double {n : Nat} (hn : n ≠ 0) : ∃ r x, primSqrtDouble (.fin false n) = .ok x ∧ Result false r x ∧ NearestRoot (n * one) r := sqrt_nearest hn

/-- **C77**, other Doubles: zeros are their own roots, negative numbers have none. -/
theorem C77_other_doubles : (∀ a, primSqrtDouble (.fin a 0) = .ok (.fin a 0)) ∧ (∀ n, n ≠ 0 → primSqrtDouble (.fin true n) = .error .value) ∧
    primSqrtDouble .nan = .ok .nan ∧ primSqrtDouble (.inf false) = .ok (.inf false) ∧ primSqrtDouble (.inf true) = .error .value := by
  refine ⟨fun a => rfl, fun n hn => ?_, rfl, rfl, rfl⟩
  show (if n = 0 then _ else _) = _
  rw [if_neg hn]
  rfl

/-- **C77**: negative Integers have no root: an error. -/
theorem C77_negative {i : Int} (h : i < 0) (hl : i.natAbs < (2 ^ 54 - 1) * 2 ^ 970) : primSqrt i = .error .value := by
  rw [primSqrt_bind, ofInt_fits hl, bind_value, decide_eq_true h]
  have hp : rnd (i.natAbs * one) 1 ≠ 0 := by
    have := le_rnd (n := i.natAbs * one) (d := 1) (by decide) rep_one (by
      rw [Nat.mul_one]
      have := Nat.mul_le_mul_right one (show 1 ≤ i.natAbs by omega)
      rwa [Nat.one_mul] at this)
    have := one_pos
    omega
  have e : sqrt (.fin true (rnd (i.natAbs * one) 1)) = .error .value := by
    show (if _ = 0 then _ else _) = _
    rw [if_neg hp]
    rfl
  rw [e]
  rfl

set_option maxRecDepth 100000 in
/-- **C77** is violated: `4503599627370497 sqrt`, of 2^52 + 1, answers the Integer 2^26, and its square is 2^52. -/
theorem C77_violated : primSqrt (2 ^ 52 + 1) = .ok (.inl (2 ^ 26)) := by decide +kernel

set_option maxRecDepth 100000 in
example : primSqrt 144 = .ok (.inl 12) ∧ (∃ r, primSqrt 2 = .ok (.inr r)) ∧ primSqrt (2 ^ 52) = .ok (.inl (2 ^ 26)) ∧ primSqrt (-4) = .error .value :=
  ⟨by decide +kernel, (C77_root_partial (i := 2) (by decide)).2 (fun j h => by
    have : j < 2 := sq_lt (by omega)
    match j, this with
    | 0, _ => omega
    | 1, _ => omega), by decide +kernel, by decide +kernel⟩

end PySOM.F64

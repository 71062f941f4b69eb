import Verif.Lemmas.Numeric
/-!
# Properties C01–C07, C48, C53 and the numeric part of C49

`Spec.Denotes p n i` says that the number object `n` can exist on platform `p` and stands for the integer `i`;
`Spec.Answers p r i` says that the primitive succeeded with such an object.
-/
set_option autoImplicit false
namespace PySOM.Num
open PySOM Spec

variable {F : Type}

theorem denotes_cases {p : Platform} {n : Num F} {i : Int} (h : Denotes p n i) :
    (n = .int i ∧ (p = .rpython → -(2 ^ 63) ≤ i ∧ i < 2 ^ 63)) ∨ (n = .big i ∧ p = .rpython) := by
  obtain ⟨h1, h2⟩ := h
  cases n with
  | int j =>
    simp only [intVal, Option.some.injEq] at h2; subst h2
    left; refine ⟨rfl, ?_⟩
    rintro rfl; exact h1
  | big j =>
    simp only [intVal, Option.some.injEq] at h2; subst h2
    right; refine ⟨rfl, ?_⟩
    cases p with
    | rpython => rfl
    | cpython => exact h1.elim
  | dbl f => simp [intVal] at h2
  | obj t => simp [intVal] at h2

/-! ## C01 -/

/-- **C01**, addition: for all integers in either representation, on both runtimes. -/
theorem C01_add_exact (p : Platform) (fo : FloatOps F) (a b : Num F) (x y : Int)
    (ha : Denotes p a x) (hb : Denotes p b y) : Answers p (primAdd p fo a b) (x + y) := by
  rcases denotes_cases ha with ⟨rfl, _⟩ | ⟨rfl, rfl⟩ <;> rcases denotes_cases hb with ⟨rfl, _⟩ | ⟨rfl, hp⟩
  · exact answers_ovf p (x + y)
  · subst hp; rw [Int.add_comm]; exact answers_big _
  · rw [Int.add_comm]; exact answers_big _
  · rw [Int.add_comm]; exact answers_big _

/-- **C01**, subtraction. -/
theorem C01_subtract_exact (p : Platform) (fo : FloatOps F) (a b : Num F) (x y : Int)
    (ha : Denotes p a x) (hb : Denotes p b y) : Answers p (primSubtract p fo a b) (x - y) := by
  rcases denotes_cases ha with ⟨rfl, _⟩ | ⟨rfl, rfl⟩ <;> rcases denotes_cases hb with ⟨rfl, _⟩ | ⟨rfl, hp⟩
  · exact answers_ovf p (x - y)
  · subst hp; exact answers_big _
  · exact answers_big _
  · exact answers_big _

/-- **C01**, multiplication. -/
theorem C01_multiply_exact (p : Platform) (fo : FloatOps F) (a b : Num F) (x y : Int)
    (ha : Denotes p a x) (hb : Denotes p b y) : Answers p (primMultiply p fo a b) (x * y) := by
  rcases denotes_cases ha with ⟨rfl, _⟩ | ⟨rfl, rfl⟩ <;> rcases denotes_cases hb with ⟨rfl, _⟩ | ⟨rfl, hp⟩
  · exact answers_ovf p (x * y)
  · subst hp; exact answers_big _
  · exact answers_big _
  · exact answers_big _

/-- Overflowing products of machine integers meet the hypotheses. -/
example : Denotes (F := F) .rpython (.int (2 ^ 62)) (2 ^ 62) ∧ Denotes (F := F) .rpython (.big (3 - 2 ^ 70)) (3 - 2 ^ 70) ∧
    Denotes (F := F) .cpython (.int (2 ^ 80)) (2 ^ 80) := by
  refine ⟨⟨?_, rfl⟩, ⟨trivial, rfl⟩, ⟨trivial, rfl⟩⟩
  show -(2 ^ 63 : Int) ≤ 2 ^ 62 ∧ (2 : Int) ^ 62 < 2 ^ 63
  omega

example (fo : FloatOps F) : primMultiply .rpython fo (.int (2 ^ 62)) (.int 2) = .ok (.big (2 ^ 63)) := by rfl
example (fo : FloatOps F) : primAdd .rpython fo (.int (2 ^ 62)) (.int (2 ^ 62 - 1)) = .ok (.int (2 ^ 63 - 1)) := by rfl

/-! ## C02 -/

/-- The one division that leaves the machine range. -/
def DivOverflow (p : Platform) (x y : Int) : Prop := p = .rpython ∧ x = -(2 ^ 63) ∧ y = -1

/-- **C02** (partial).  Full statement: for all Integers `x` and `y ≠ 0`, `x / y` and `x % y` answer the floored quotient
and modulus, and `x rem: y` the truncating remainder, all within the machine range.  Proved for every pair except the
smallest machine integer divided by −1 on RPython, for which see `C02_violated_min_by_minus_one`. -/
theorem C02_division_laws_partial (p : Platform) (fo : FloatOps F) (x y : Int)
    (hx : Denotes (F := F) p (.int x) x) (hy : Denotes (F := F) p (.int y) y) (h0 : y ≠ 0) (hov : ¬ DivOverflow p x y) :
    ∃ q m t, primIntDiv p fo (.int x) (.int y) = .ok (.int q) ∧ primModulo p fo (.int x) (.int y) = .ok (.int m) ∧
      primRemainder p fo (.int x) (.int y) = .ok (.int t) ∧ FloorDivMod x y q m ∧ TruncRem x y t ∧
      Exists (F := F) p (.int q) ∧ Exists (F := F) p (.int m) ∧ Exists (F := F) p (.int t) := by
  have hm : ¬ (p = .rpython ∧ x = minInt ∧ y = -1) := hov
  have hd : ∀ v, machDiv p x y v = .ok v := by intro v; simp only [machDiv, h0, if_false]; rw [if_neg hm]
  have ht : intMod p x y = .ok (Int.tmod x y) := by
    cases p with
    | rpython => exact hd _
    | cpython => exact intMod_cpython x y h0
  refine ⟨Int.fdiv x y, Int.fmod x y, Int.tmod x y, ?_, ?_, ?_, floorDivMod_fdiv h0, truncRem_tmod h0, ?_⟩
  · simp only [primIntDiv, hd]; rfl
  · simp only [primModulo, hd]; rfl
  · simp only [primRemainder, ht]; rfl
  · cases p with
    | cpython => exact ⟨trivial, trivial, trivial⟩
    | rpython =>
      have hx' : -(2 ^ 63) ≤ x ∧ x < 2 ^ 63 := hx.1
      have hy' : -(2 ^ 63) ≤ y ∧ y < 2 ^ 63 := hy.1
      exact ⟨fdiv_fits hx' h0 (by rintro ⟨h1, h2⟩; exact hm ⟨rfl, h1, h2⟩), fmod_fits hy' h0, tmod_fits hy' h0⟩

example : Denotes (F := F) .rpython (.int (-(2 ^ 63))) (-(2 ^ 63)) ∧ Denotes (F := F) .rpython (.int 7) 7 ∧ (7 : Int) ≠ 0 ∧
    ¬ DivOverflow .rpython (-(2 ^ 63)) 7 := by
  refine ⟨⟨?_, rfl⟩, ⟨?_, rfl⟩, by decide, by rintro ⟨_, _, h⟩; revert h; decide⟩
  · show -(2 ^ 63 : Int) ≤ -(2 ^ 63) ∧ -(2 ^ 63 : Int) < 2 ^ 63
    omega
  · show -(2 ^ 63 : Int) ≤ 7 ∧ (7 : Int) < 2 ^ 63
    omega

example (fo : FloatOps F) : primIntDiv .rpython fo (.int (-7)) (.int 2) = .ok (.int (-4)) ∧
    primModulo .cpython fo (.int (-7)) (.int 2) = .ok (.int 1) ∧ primRemainder .cpython fo (.int (-7)) (.int 2) = .ok (.int (-1)) := by
  exact ⟨rfl, rfl, rfl⟩

/-- The laws determine the results: floored quotient and modulus are unique. -/
theorem C02_laws_determine {x y q m q' m' : Int} (h0 : y ≠ 0) (h : FloorDivMod x y q m) (h' : FloorDivMod x y q' m') :
    q = q' ∧ m = m' := floorDivMod_unique h0 h h'

example : (2 : Int) ≠ 0 ∧ FloorDivMod (-7) 2 (-4) 1 := by
  refine ⟨by decide, by decide, by decide, by decide⟩

/-- Division by zero is reported on both platforms, for all three operations. -/
theorem C02_zero_divisor (p : Platform) (fo : FloatOps F) (x : Int) :
    primIntDiv p fo (.int x) (.int 0) = .error .zeroDiv ∧ primModulo p fo (.int x) (.int 0) = .error .zeroDiv ∧
      primRemainder p fo (.int x) (.int 0) = .error .zeroDiv := by
  cases p <;> exact ⟨rfl, rfl, rfl⟩

/-- **C02 violated**: on RPython the smallest Integer divided by −1 crashes, although the quotient `2^63` exists as a
BigInteger and modulo and remainder are 0. -/
theorem C02_violated_min_by_minus_one (fo : FloatOps F) :
    Denotes (F := F) .rpython (.int (-(2 ^ 63))) (-(2 ^ 63)) ∧ Denotes (F := F) .rpython (.int (-1)) (-1) ∧
    primIntDiv .rpython fo (.int (-(2 ^ 63))) (.int (-1)) = .error .other ∧
    primModulo .rpython fo (.int (-(2 ^ 63))) (.int (-1)) = .error .other ∧
    primRemainder .rpython fo (.int (-(2 ^ 63))) (.int (-1)) = .error .other := by
  refine ⟨⟨?_, rfl⟩, ⟨?_, rfl⟩, rfl, rfl, rfl⟩
  · show -(2 ^ 63 : Int) ≤ -(2 ^ 63) ∧ -(2 ^ 63 : Int) < 2 ^ 63
    omega
  · show -(2 ^ 63 : Int) ≤ -1 ∧ (-1 : Int) < 2 ^ 63
    omega

/-! ## C03 -/

/-- One of the two objects is a BigInteger. -/
def Mixed (a b : Num F) : Prop := (∃ i, a = .big i) ∨ (∃ i, b = .big i)

/-- **C03** (partial), floored division and modulo with at least one BigInteger operand (`+ - *` are covered by C01).
Full statement of C03: also `rem:` and decrement are exact; see `C03_remainder_partial` and the violations. -/
theorem C03_division_partial (fo : FloatOps F) (a b : Num F) (x y : Int) (ha : Denotes .rpython a x)
    (hb : Denotes .rpython b y) (hm : Mixed a b) (h0 : y ≠ 0) :
    ∃ q m, Answers .rpython (primIntDiv .rpython fo a b) q ∧ Answers .rpython (primModulo .rpython fo a b) m ∧
      FloorDivMod x y q m := by
  have hd : ∀ v, bigDiv .rpython y v = .ok v := by intro v; simp [bigDiv, bigCall, h0, bind, Except.bind]
  refine ⟨Int.fdiv x y, Int.fmod x y, ?_, ?_, floorDivMod_fdiv h0⟩ <;>
  rcases denotes_cases ha with ⟨rfl, _⟩ | ⟨rfl, _⟩ <;> rcases denotes_cases hb with ⟨rfl, _⟩ | ⟨rfl, _⟩ <;>
    first
    | (exfalso; rcases hm with ⟨_, h⟩ | ⟨_, h⟩ <;> cases h <;> done)
    | (simp only [primIntDiv, primModulo, hd]; exact ⟨_, rfl, trivial, rfl⟩)

example : Denotes (F := F) .rpython (.int (-7)) (-7) ∧ Denotes (F := F) .rpython (.big (2 ^ 64)) (2 ^ 64) ∧
    Mixed (F := F) (.int (-7)) (.big (2 ^ 64)) := by
  refine ⟨⟨?_, rfl⟩, ⟨trivial, rfl⟩, Or.inr ⟨_, rfl⟩⟩
  show -(2 ^ 63 : Int) ≤ -7 ∧ (-7 : Int) < 2 ^ 63
  omega

/-- **C03** (partial), truncating remainder, for all mixed operands except BigInteger `rem:` BigInteger. -/
theorem C03_remainder_partial (fo : FloatOps F) (a b : Num F) (x y : Int) (ha : Denotes .rpython a x)
    (hb : Denotes .rpython b y) (hm : Mixed a b) (hn : ¬ ((∃ i, a = .big i) ∧ (∃ i, b = .big i))) (h0 : y ≠ 0) :
    ∃ t, Answers .rpython (primRemainder .rpython fo a b) t ∧ TruncRem x y t := by
  refine ⟨Int.tmod x y, ?_, truncRem_tmod h0⟩
  rcases denotes_cases ha with ⟨rfl, _⟩ | ⟨rfl, _⟩ <;> rcases denotes_cases hb with ⟨rfl, _⟩ | ⟨rfl, _⟩
  · exfalso; rcases hm with ⟨_, h⟩ | ⟨_, h⟩ <;> cases h
  · simp only [primRemainder, divremR, h0, if_false]; exact ⟨_, rfl, trivial, rfl⟩
  · simp only [primRemainder, divremR, h0, if_false]; exact ⟨_, rfl, trivial, rfl⟩
  · exact absurd ⟨⟨_, rfl⟩, ⟨_, rfl⟩⟩ hn

example (fo : FloatOps F) : primRemainder .rpython fo (.big (-(2 ^ 64) - 7)) (.int 10) = .ok (.big (-3)) := by rfl

/-- **C03 violated**, `rem:` of two BigIntegers: whatever the (non-zero) receiver and the argument, the answer is 0,
which is right exactly when the argument divides the receiver. -/
theorem C03_violated_big_rem_big (fo : FloatOps F) (x y : Int) (hx : x ≠ 0) :
    primRemainder .rpython fo (.big x) (.big y) = .ok (.big 0) ∧ (y ≠ 0 → (TruncRem x y 0 ↔ y ∣ x)) := by
  constructor
  · simp [primRemainder, divremR, hx, bind, Except.bind]
  · intro hy
    constructor
    · rintro ⟨⟨k, hk⟩, _⟩; exact ⟨k, by rw [Int.mul_comm]; omega⟩
    · rintro ⟨k, hk⟩
      exact ⟨⟨k, by rw [Int.mul_comm]; omega⟩, by simp; omega, by intro _; omega, by intro _; omega⟩

/-- … a concrete wrong answer: `(2^64 + 1) rem: (2^64)` answers 0 instead of 1. -/
theorem C03_violated_big_rem_big_witness (fo : FloatOps F) :
    primRemainder .rpython fo (.big (2 ^ 64 + 1)) (.big (2 ^ 64)) = .ok (.big 0) ∧ ¬ TruncRem (2 ^ 64 + 1) (2 ^ 64) 0 := by
  refine ⟨rfl, ?_⟩
  rintro ⟨⟨k, hk⟩, _⟩
  omega

/-- **C03**, increment of every integer object is exact, on both platforms. -/
theorem C03_increment_exact (p : Platform) (fo : FloatOps F) (a : Num F) (x : Int) (ha : Denotes p a x) :
    Answers p (primInc p fo a) (x + 1) := by
  rcases denotes_cases ha with ⟨rfl, _⟩ | ⟨rfl, rfl⟩
  · exact answers_ovf p (x + 1)
  · rw [Int.add_comm]; exact answers_big _

/-- **C03** (partial), decrement of Integers is exact.  Full statement: of every integer object. -/
theorem C03_decrement_partial (p : Platform) (fo : FloatOps F) (x : Int) :
    Answers p (primDec p fo (.int x)) (x - 1) := answers_ovf p (x - 1)

/-- **C03 violated**, decrement of a BigInteger answers `1 - x`, which is wrong except for `x = 1`. -/
theorem C03_violated_big_decrement (fo : FloatOps F) (x : Int) :
    Answers .rpython (primDec .rpython fo (.big x)) (1 - x) ∧
    (Answers .rpython (primDec .rpython fo (.big x)) (x - 1) ↔ x = 1) := by
  constructor
  · exact answers_big _
  · constructor
    · rintro ⟨n, hn, _, hv⟩
      simp only [primDec, bigCall, bind, Except.bind, Except.ok.injEq] at hn
      subst hn
      simp only [intVal, Option.some.injEq] at hv
      omega
    · rintro rfl; exact answers_big _

example : (Denotes (F := F) .rpython (.big (2 ^ 64)) (2 ^ 64)) ∧ (2 : Int) ^ 64 ≠ 1 := ⟨⟨trivial, rfl⟩, by omega⟩

/-! ## C04 -/

/-- **C04**: the six comparison operations on any mix of Integers and BigIntegers agree with the order of the integers
they denote.  Totality, transitivity and antisymmetry are therefore those of the integers. -/
theorem C04_comparisons (p : Platform) (fo : FloatOps F) (a b : Num F) (x y : Int)
    (ha : Denotes p a x) (hb : Denotes p b y) :
    primLessThan p fo a b = .ok (decide (x < y)) ∧ primLessEq p fo a b = .ok (decide (x ≤ y)) ∧
    primGreater p fo a b = .ok (decide (x > y)) ∧ primGreaterEq p fo a b = .ok (decide (x ≥ y)) ∧
    primEquals p fo a b = .ok (decide (x = y)) ∧ primUnequals p fo a b = .ok (decide (x ≠ y)) ∧
    primIdentical p fo a b = .ok (decide (x = y)) := by
  rcases denotes_cases ha with ⟨rfl, _⟩ | ⟨rfl, rfl⟩ <;> rcases denotes_cases hb with ⟨rfl, _⟩ | ⟨rfl, hp⟩
  · exact ⟨rfl, rfl, rfl, rfl, rfl, rfl, rfl⟩
  · subst hp; exact ⟨rfl, rfl, rfl, rfl, rfl, rfl, rfl⟩
  · exact ⟨rfl, rfl, rfl, rfl, rfl, rfl, rfl⟩
  · exact ⟨rfl, rfl, rfl, rfl, rfl, rfl, rfl⟩

/-- **C04**, the order laws at the level of the primitives: exactly one of `<`, `=`, `>` answers true, `<` is transitive,
and `<=` is antisymmetric with respect to `=`. -/
theorem C04_total_order (p : Platform) (fo : FloatOps F) (a b c : Num F) (x y z : Int)
    (ha : Denotes p a x) (hb : Denotes p b y) (hc : Denotes p c z) :
    ((primLessThan p fo a b = .ok true ∧ primEquals p fo a b = .ok false ∧ primGreater p fo a b = .ok false) ∨
     (primLessThan p fo a b = .ok false ∧ primEquals p fo a b = .ok true ∧ primGreater p fo a b = .ok false) ∨
     (primLessThan p fo a b = .ok false ∧ primEquals p fo a b = .ok false ∧ primGreater p fo a b = .ok true)) ∧
    (primLessThan p fo a b = .ok true → primLessThan p fo b c = .ok true → primLessThan p fo a c = .ok true) ∧
    (primLessEq p fo a b = .ok true → primLessEq p fo b a = .ok true → primEquals p fo a b = .ok true) ∧
    (primLessThan p fo a b = primGreater p fo b a) := by
  obtain ⟨h1, h2, h3, _, h5, _, _⟩ := C04_comparisons p fo a b x y ha hb
  obtain ⟨k1, _, _, _, _, _, _⟩ := C04_comparisons p fo b c y z hb hc
  obtain ⟨l1, _, _, _, _, _, _⟩ := C04_comparisons p fo a c x z ha hc
  obtain ⟨_, m2, m3, _, _, _, _⟩ := C04_comparisons p fo b a y x hb ha
  simp only [h1, h2, h3, h5, k1, l1, m2, m3, Except.ok.injEq, decide_eq_true_eq, decide_eq_false_iff_not]
  refine ⟨?_, by omega, by omega, ?_⟩
  · rcases Int.lt_trichotomy x y with h | h | h
    · left; omega
    · right; left; omega
    · right; right; omega
  · trivial

example (fo : FloatOps F) : primLessThan .rpython fo (.big 5) (.int 6) = .ok true ∧
    primEquals .rpython fo (.int 5) (.big 5) = .ok true := ⟨rfl, rfl⟩

/-- **C04**, beyond integers: whatever the operands are, `<>` answers the opposite of `=`, or both raise the same error; and an Integer or
BigInteger is not equal to an object that is no number. -/
theorem C04_not_equal (p : Platform) (fo : FloatOps F) (a b : Num F) :
    primUnequals p fo a b = (primEquals p fo a b).map (!·) ∧
    (∀ x o, Denotes p a x → b = .obj o → primEquals p fo a b = .ok false ∧ primUnequals p fo a b = .ok true) := by
  constructor
  · cases a with
    | int l =>
      cases b with
      | big r => cases p <;> simp [primUnequals, primEquals, bigCall, Except.map]
      | _ => simp [primUnequals, primEquals, Except.map]
    | big l =>
      cases b with
      | big r => cases p <;> simp [primUnequals, primEquals, bigCall, Except.map]
      | int r => cases p <;> simp [primUnequals, primEquals, bigCall, Except.map]
      | dbl r => cases h : bigToDbl p fo l <;> simp [primUnequals, primEquals, h, Except.map, bind, Except.bind]
      | obj o => simp [primUnequals, primEquals, Except.map]
    | dbl l => cases h : getFloat p fo b <;> simp [primUnequals, primEquals, h, Except.map, bind, Except.bind]
    | obj o => rfl
  · rintro x o ha rfl
    rcases denotes_cases ha with ⟨rfl, _⟩ | ⟨rfl, rfl⟩ <;> exact ⟨rfl, rfl⟩

example (fo : FloatOps F) : primUnequals .rpython fo (.int 5) (.big 5) = .ok false ∧ primUnequals .cpython fo (.int 5) (.obj 0) = .ok true := ⟨rfl, rfl⟩

/-! ## C05 -/

theorem iand_fits {a b : Int} (ha : -(2 ^ 63) ≤ a ∧ a < 2 ^ 63) (hb : -(2 ^ 63) ≤ b ∧ b < 2 ^ 63) :
    -(2 ^ 63) ≤ iand a b ∧ iand a b < 2 ^ 63 := by
  cases a with
  | ofNat x => cases b with
    | ofNat y =>
      have h : x &&& y ≤ x := Nat.and_le_left
      simp only [iand, Int.ofNat_eq_natCast] at *; omega
    | negSucc y =>
      have hx : x < 2 ^ 63 := by simp only [Int.ofNat_eq_natCast] at ha; omega
      have h := Nat.xor_lt_two_pow (n := 63) hx (Nat.and_lt_two_pow (x := x) (y := y) (by omega))
      simp only [iand, Int.ofNat_eq_natCast] at *; omega
  | negSucc x => cases b with
    | ofNat y =>
      have hx : x < 2 ^ 63 := by omega
      have hy : y < 2 ^ 63 := by simp only [Int.ofNat_eq_natCast] at hb; omega
      have h := Nat.xor_lt_two_pow (n := 63) hy (Nat.and_lt_two_pow (x := x) (y := y) (by omega))
      simp only [iand, Int.ofNat_eq_natCast] at *; omega
    | negSucc y =>
      have h := Nat.or_lt_two_pow (n := 63) (show x < 2 ^ 63 by omega) (show y < 2 ^ 63 by omega)
      simp only [iand] at *; omega

theorem ixor_fits {a b : Int} (ha : -(2 ^ 63) ≤ a ∧ a < 2 ^ 63) (hb : -(2 ^ 63) ≤ b ∧ b < 2 ^ 63) :
    -(2 ^ 63) ≤ ixor a b ∧ ixor a b < 2 ^ 63 := by
  have key : ∀ x y : Nat, x < 2 ^ 63 → y < 2 ^ 63 → x ^^^ y < 2 ^ 63 := fun x y hx hy => Nat.xor_lt_two_pow hx hy
  cases a with
  | ofNat x => cases b with
    | ofNat y =>
      have h := key x y (by simp only [Int.ofNat_eq_natCast] at ha; omega) (by simp only [Int.ofNat_eq_natCast] at hb; omega)
      simp only [ixor, Int.ofNat_eq_natCast] at *; omega
    | negSucc y =>
      have h := key x y (by simp only [Int.ofNat_eq_natCast] at ha; omega) (by omega)
      simp only [ixor, Int.ofNat_eq_natCast] at *; omega
  | negSucc x => cases b with
    | ofNat y =>
      have h := key x y (by omega) (by simp only [Int.ofNat_eq_natCast] at hb; omega)
      simp only [ixor, Int.ofNat_eq_natCast] at *; omega
    | negSucc y =>
      have h := key x y (by omega) (by omega)
      simp only [ixor, Int.ofNat_eq_natCast] at *; omega

/-- **C05**, `&`: on every mix of Integers and BigIntegers the answer has, at every position, the conjunction of the
operands' two's-complement bits. -/
theorem C05_and (p : Platform) (fo : FloatOps F) (a b : Num F) (x y : Int) (ha : Denotes p a x) (hb : Denotes p b y) :
    ∃ r, Answers p (primAnd p fo a b) r ∧ ∀ k, bit r k = (bit x k && bit y k) := by
  refine ⟨iand x y, ?_, bit_iand x y⟩
  rcases denotes_cases ha with ⟨rfl, hx⟩ | ⟨rfl, rfl⟩ <;> rcases denotes_cases hb with ⟨rfl, hy⟩ | ⟨rfl, hp⟩
  · refine ⟨_, rfl, ?_, rfl⟩
    cases p with
    | cpython => trivial
    | rpython => exact iand_fits (hx rfl) (hy rfl)
  · subst hp; exact answers_big _
  · exact answers_big _
  · exact answers_big _

/-- **C05**, `bitXor:` (partial: both operands Integers; with a BigInteger operand it fails, see below). -/
theorem C05_xor_partial (p : Platform) (x y : Int) (hx : Denotes (F := F) p (.int x) x)
    (hy : Denotes (F := F) p (.int y) y) :
    ∃ r, Answers (F := F) p (primBitXor (.int x) (.int y)) r ∧ ∀ k, bit r k = (bit x k != bit y k) := by
  refine ⟨ixor x y, ⟨_, rfl, ?_, rfl⟩, bit_ixor x y⟩
  cases p with
  | cpython => trivial
  | rpython => exact ixor_fits hx.1 hy.1

example : primBitXor (F := F) (.int (-6)) (.int 12) = .ok (.int (-10)) ∧ bit (-10) 1 = (bit (-6) 1 != bit 12 1) ∧
    bit (-6) 1 = true := by exact ⟨rfl, rfl, rfl⟩

/-- The bits determine the integer, so the two theorems above determine the results. -/
theorem C05_bits_determine {x y : Int} (h : ∀ k, bit x k = bit y k) : x = y := bit_ext h

/-- **C05**, `<<` by a non-negative distance multiplies by the power of two, without wrap-around.  On CPython distances
of `2^63` and more fail (they could not be computed anyway). -/
theorem C05_shift_left (p : Platform) (x n : Int) (hx : Denotes (F := F) p (.int x) x) (hn : 0 ≤ n)
    (hb : p = .cpython → n < 2 ^ 63) : Answers (F := F) p (primShl p (.int x) (.int n)) (x * 2 ^ n.toNat) := by
  cases p with
  | rpython =>
    simp only [primShl]
    by_cases h : x = 0 ∨ (0 ≤ n ∧ n < longBit .rpython)
    · simp only [h, not_true_eq_false, if_false]
      by_cases h0 : x = 0
      · subst h0
        rw [if_pos rfl, Int.zero_mul]
        refine ⟨_, rfl, ?_, rfl⟩
        show -(2 ^ 63 : Int) ≤ 0 ∧ (0 : Int) < 2 ^ 63
        omega
      · rw [if_neg h0]
        have := answers_ovf (F := F) .rpython (x * 2 ^ n.toNat)
        exact this
    · simp only [h, not_false_eq_true, if_true, bigCall, pyShl, show ¬ n < 0 by omega, if_false]
      exact ⟨_, rfl, trivial, rfl⟩
  | cpython =>
    have hb := hb rfl
    simp only [primShl]
    have h : x = 0 ∨ (0 ≤ n ∧ n < longBit .cpython) := Or.inr ⟨hn, hb⟩
    simp only [h, not_true_eq_false, if_false, pyShl, show ¬ n < 0 by omega]
    exact ⟨_, rfl, trivial, rfl⟩

example : primShl (F := F) .rpython (.int 3) (.int 62) = .ok (.big (3 * 2 ^ 62)) ∧
    primShl (F := F) .rpython (.int (-1)) (.int 63) = .ok (.int (-(2 ^ 63))) := ⟨rfl, rfl⟩

/-- **C05**, `>>>` of a non-negative Integer divides by the power of two (RPython: distances up to 63, the word size). -/
theorem C05_shift_right (p : Platform) (x n : Int) (hx : Denotes (F := F) p (.int x) x) (h0 : 0 ≤ x) (hn : 0 ≤ n)
    (hb : p = .rpython → n < 64) : Answers (F := F) p (primShr p (.int x) (.int n)) (x / 2 ^ n.toNat) := by
  have hle : x / 2 ^ n.toNat ≤ x := Int.ediv_le_self _ h0
  have hge : 0 ≤ x / 2 ^ n.toNat := Int.ediv_nonneg h0 (Int.pow_nonneg (by omega))
  cases p with
  | rpython =>
    have hb := hb rfl
    have hx' : -(2 ^ 63) ≤ x ∧ x < 2 ^ 63 := hx.1
    have hmod : x % 2 ^ 64 = x := Int.emod_eq_of_lt h0 (by omega)
    have hc : 0 ≤ n ∧ n < 64 := ⟨hn, hb⟩
    have hlt : x / 2 ^ n.toNat < 2 ^ 63 := by omega
    simp only [primShr, unsignedShr, hc, and_self, if_true, hmod, hlt]
    refine ⟨_, rfl, ?_, rfl⟩
    show -(2 ^ 63) ≤ x / 2 ^ n.toNat ∧ x / 2 ^ n.toNat < 2 ^ 63
    omega
  | cpython =>
    simp only [primShr, unsignedShr, show ¬ n < 0 by omega, if_false]
    exact ⟨_, rfl, trivial, rfl⟩

/-- **C05**, `>>>` of a negative Integer on RPython shifts the 64-bit two's-complement word logically. -/
theorem C05_shift_right_negative_rpython (x n : Int) (hx : Denotes (F := F) .rpython (.int x) x) (h0 : x < 0)
    (hn : 0 < n) (hb : n < 64) : Answers (F := F) .rpython (primShr .rpython (.int x) (.int n)) ((x + 2 ^ 64) / 2 ^ n.toNat) := by
  have hx' : -(2 ^ 63) ≤ x ∧ x < 2 ^ 63 := hx.1
  have hmod : x % 2 ^ 64 = x + 2 ^ 64 := by
    rw [← Int.add_emod_right]; exact Int.emod_eq_of_lt (by omega) (by omega)
  have hc : 0 ≤ n ∧ n < 64 := ⟨by omega, hb⟩
  have hpow : (2 : Int) ≤ 2 ^ n.toNat := by
    have : 2 ^ 1 ≤ 2 ^ n.toNat := Nat.pow_le_pow_right (by omega) (by omega)
    have h2 : ((2 : Int)) ^ n.toNat = ((2 ^ n.toNat : Nat) : Int) := by simp
    rw [h2]; omega
  have hge : 0 ≤ (x + 2 ^ 64) / 2 ^ n.toNat := Int.ediv_nonneg (by omega) (Int.pow_nonneg (by omega))
  have hlt : (x + 2 ^ 64) / 2 ^ n.toNat < 2 ^ 63 := by
    apply Int.ediv_lt_of_lt_mul (by omega)
    have := Int.mul_le_mul_of_nonneg_left hpow (show (0 : Int) ≤ 2 ^ 63 by omega)
    omega
  simp only [primShr, unsignedShr, hc, and_self, if_true, hmod, hlt]
  refine ⟨_, rfl, ?_, rfl⟩
  show -(2 ^ 63) ≤ (x + 2 ^ 64) / 2 ^ n.toNat ∧ (x + 2 ^ 64) / 2 ^ n.toNat < 2 ^ 63
  omega

/-- **C05 violated**: the runtimes disagree on `>>>` of negative receivers; CPython shifts arithmetically. -/
theorem C05_violated_shift_right_platforms : primShr (F := F) .rpython (.int (-1)) (.int 1) = .ok (.int (2 ^ 63 - 1)) ∧
    primShr (F := F) .cpython (.int (-1)) (.int 1) = .ok (.int (-1)) := ⟨rfl, rfl⟩

/-- **C05**, 32-bit views of an Integer: in range and congruent to the receiver modulo `2^32`, on both platforms. -/
theorem C05_32_bit_views (p : Platform) (x : Int) :
    ∃ s u, primAs32Signed (F := F) p (.int x) = .ok (.int s) ∧ primAs32Unsigned (F := F) p (.int x) = .ok (.int u) ∧
      (-(2 ^ 31) ≤ s ∧ s < 2 ^ 31 ∧ ((2 : Int) ^ 32) ∣ (x - s)) ∧ (0 ≤ u ∧ u < 2 ^ 32 ∧ ((2 : Int) ^ 32) ∣ (x - u)) := by
  refine ⟨as32Signed p x, as32Unsigned p x, rfl, rfl, ?_, ?_⟩
  · rw [as32Signed_eq]; split <;> omega
  · have : as32Unsigned p x = x % 2 ^ 32 := by
      cases p with
      | rpython => rfl
      | cpython => exact iand_mask x 32
    rw [this]; omega

/-- These conditions determine the views. -/
theorem C05_32_bit_views_unique (x s s' : Int) (h : -(2 ^ 31) ≤ s ∧ s < 2 ^ 31 ∧ ((2 : Int) ^ 32) ∣ (x - s))
    (h' : -(2 ^ 31) ≤ s' ∧ s' < 2 ^ 31 ∧ ((2 : Int) ^ 32) ∣ (x - s')) : s = s' := by omega

example : -(2 ^ 31) ≤ (-5 : Int) ∧ (-5 : Int) < 2 ^ 31 ∧ ((2 : Int) ^ 32) ∣ ((2 ^ 33 - 5) - (-5)) := by omega

/-- **C05 violated** for BigIntegers: `as32BitSignedValue` answers the low 63 bits of the magnitude, which need not be in
the 32-bit range; `as32BitUnsignedValue`, `<<`, `>>>` and `bitXor:` fail. -/
theorem C05_violated_big :
    primAs32Signed (F := F) .rpython (.big (2 ^ 64 + 2 ^ 40)) = .ok (.int (2 ^ 40)) ∧
    primAs32Signed (F := F) .rpython (.big (-(2 ^ 64) - 5)) = .ok (.int 5) ∧
    primAs32Unsigned (F := F) .rpython (.big (2 ^ 64)) = .error .attribute ∧
    primShl (F := F) .rpython (.big (2 ^ 64)) (.int 1) = .error .attribute ∧
    primShr (F := F) .rpython (.big (2 ^ 64)) (.int 1) = .error .attribute ∧
    primBitXor (F := F) (.big (2 ^ 64)) (.int 1) = .error .attribute ∧
    primBitXor (F := F) (.int 1) (.big (2 ^ 64)) = .error .assertion := ⟨rfl, rfl, rfl, rfl, rfl, rfl, rfl⟩

/-! ## C06 -/

/-- **C06**: printing an integer object and parsing the text answers an integer object denoting the same integer. -/
theorem C06_print_parse (p : Platform) (a : Num F) (x : Int) (ha : Denotes p a x) :
    ∃ s, primAsString p a = .ok s ∧ Answers (F := F) p (primFromString p s) x := by
  have hs : primAsString p a = .ok (pyStr x) := by
    rcases denotes_cases ha with ⟨rfl, _⟩ | ⟨rfl, rfl⟩ <;> rfl
  refine ⟨_, hs, ?_⟩
  simp only [primFromString, parseInt_pyStr]
  have := answers_ovf (F := F) p x
  cases p with
  | cpython => exact this
  | rpython => exact this

example : primAsString (F := F) .rpython (.int (-120)) = .ok ['-', '1', '2', '0'] := by
  have h : digits 120 = ['1', '2', '0'] := by
    rw [digits, if_neg (by omega), digits, if_neg (by omega), digits, if_pos (by omega)]; rfl
  show Except.ok ('-' :: digits 120) = _
  rw [h]

/-- The text is what one expects: an optional minus sign followed by decimal digits without superfluous leading zeros,
so parsing is not trivially inverse to some unrelated encoding. -/
theorem C06_text_is_decimal (n : Nat) : (∀ c ∈ pyStr n, '0' ≤ c ∧ c ≤ '9') ∧
    pyStr (-(n + 1 : Int)) = '-' :: pyStr (n + 1 : Nat) ∧ (n ≠ 0 → (pyStr n).head? ≠ some '0') := by
  refine ⟨?_, ?_, ?_⟩
  · intro c hc
    have := digits_chars n c hc
    constructor
    · show (48 : UInt32) ≤ c.val
      rw [UInt32.le_iff_toNat_le]; exact this.1
    · show c.val ≤ (57 : UInt32)
      rw [UInt32.le_iff_toNat_le]; exact this.2
  · have : (-(n + 1 : Int)) = Int.negSucc n := by omega
    rw [this]; rfl
  · show n ≠ 0 → (digits n).head? ≠ some '0'
    fun_induction digits n with
    | case1 n h =>
      intro h0 hh
      simp only [List.head?_cons, Option.some.injEq] at hh
      have := digitChar_toNat h
      rw [hh] at this
      have h48 : ('0' : Char).toNat = 48 := rfl
      omega
    | case2 n h ih =>
      intro _
      have hne := digits_ne_nil (n / 10)
      have := ih (by omega)
      cases hd : digits (n / 10) with
      | nil => exact absurd hd hne
      | cons c cs => rw [hd] at this; simpa using this

/-! ## C07 -/

/-- **C07** (partial), increments: `prim_inc` answers exactly what `+ 1` answers, for Integers, Doubles (given that `1.0`
is the conversion of 1) and, up to nothing at all, BigIntegers. -/
theorem C07_increment_agrees (p : Platform) (fo : FloatOps F) (a : Num F) (h1 : fo.ofInt 1 = .ok fo.one) :
    primInc p fo a = primAdd p fo a (.int 1) := by
  cases a with
  | int i => rfl
  | big i => rfl
  | dbl f => simp [primInc, primAdd, dblOp, getFloat, h1, bind, Except.bind]
  | obj t => rfl

/-- **C07** (partial), decrements: full statement as for increments; proved for all numbers but BigIntegers. -/
theorem C07_decrement_agrees_partial (p : Platform) (fo : FloatOps F) (a : Num F) (h1 : fo.ofInt 1 = .ok fo.one)
    (hb : ∀ i, a ≠ .big i) : primDec p fo a = primSubtract p fo a (.int 1) := by
  cases a with
  | int i => rfl
  | big i => exact absurd rfl (hb i)
  | dbl f => simp [primDec, primSubtract, dblOp, getFloat, h1, bind, Except.bind]
  | obj t => rfl

/-- **C07 violated** for the decrement of BigIntegers: `(2^64) - 1` compiled as a decrement answers `1 - 2^64`. -/
theorem C07_violated_big_decrement (fo : FloatOps F) :
    primDec .rpython fo (.big (2 ^ 64)) = .ok (.big (1 - 2 ^ 64)) ∧
    primSubtract .rpython fo (.big (2 ^ 64)) (.int 1) = .ok (.big (2 ^ 64 - 1)) := ⟨rfl, rfl⟩

/-! ## A float interpretation for examples

Integer-valued doubles of magnitude below `2^54`, with IEEE round-half-even; `eqInt` is CPython's exact comparison. -/

/-- Rounding of an integer below `2^54` in magnitude to 53 significant bits, ties to even. -/
def round53 (i : Int) : Int :=
  if i.natAbs ≤ 2 ^ 53 ∨ i % 2 = 0 then i else if i % 4 = 1 then i - 1 else i + 1

/-- Integer-valued doubles. -/
def smallFloats : FloatOps Int where
  ofInt i := .ok (round53 i)
  one := 1
  add a b := round53 (a + b)
  sub a b := round53 (a - b)
  mul a b := round53 (a * b)
  div a b := if b = 0 then .error .zeroDiv else .ok (Int.tdiv a b)
  fmod a b := if b = 0 then .error .value else .ok (Int.tmod a b)
  lt a b := decide (a < b)
  le a b := decide (a ≤ b)
  gt a b := decide (a > b)
  ge a b := decide (a ≥ b)
  eq a b := decide (a = b)
  eqInt a b := decide (a = b)
  toInt a := .ok a
  trueDiv a b := if b = 0 then .error .zeroDiv else .ok (Int.tdiv a b)

example : smallFloats.ofInt 1 = .ok smallFloats.one := rfl

/-! ## C48 -/

/-- **C48** (partial): whenever at least one operand is a Double and both are numbers with float values `x` and `y`, every
arithmetic and ordering operation computes the float operation on `x` and `y`.  Full statement: also for `rem:` with a
BigInteger receiver, and for `&`; see `C48_violated_big`. -/
theorem C48_mixed_converts_partial (p : Platform) (fo : FloatOps F) (a b : Num F) (x y : F)
    (ha : Spec.asFloat fo a = .ok x) (hb : Spec.asFloat fo b = .ok y) (hea : Exists p a) (heb : Exists p b)
    (hd : (∃ f, a = .dbl f) ∨ (∃ f, b = .dbl f)) :
    primAdd p fo a b = .ok (.dbl (fo.add x y)) ∧ primSubtract p fo a b = .ok (.dbl (fo.sub x y)) ∧
    primMultiply p fo a b = .ok (.dbl (fo.mul x y)) ∧ primDoubleDiv p fo a b = (fo.div x y).map .dbl ∧
    primIntDiv p fo a b = ((fo.div x y).bind fo.toInt).map .int ∧ primModulo p fo a b = (fo.fmod x y).map .dbl ∧
    ((∀ i, a ≠ .big i) → primRemainder p fo a b = (fo.fmod x y).map .dbl) ∧
    primLessThan p fo a b = .ok (fo.lt x y) ∧ primLessEq p fo a b = .ok (fo.le x y) ∧
    primGreater p fo a b = .ok (fo.gt x y) ∧ primGreaterEq p fo a b = .ok (fo.ge x y) ∧
    ((∀ i, a ≠ .int i) → primEquals p fo a b = .ok (fo.eq x y) ∧ primUnequals p fo a b = .ok (!fo.eq x y)) ∧
    (∀ i, a = .int i → primEquals p fo a b = .ok (fo.eqInt i y) ∧ primUnequals p fo a b = .ok (!fo.eqInt i y)) := by
  cases a with
  | obj t => simp [Spec.asFloat] at ha
  | dbl f =>
    simp only [Spec.asFloat, Except.ok.injEq] at ha; subst ha
    have hg : getFloat p fo b = .ok y := by
      cases b with
      | int i => exact hb
      | big i => cases p with
        | rpython => exact hb
        | cpython => exact heb.elim
      | dbl g => exact hb
      | obj t => simp [Spec.asFloat] at hb
    simp only [primAdd, primSubtract, primMultiply, primDoubleDiv, primIntDiv, primModulo, primRemainder, primLessThan,
      primLessEq, primGreater, primGreaterEq, primEquals, primUnequals, dblOp, hg, bind, Except.bind, dblDiv, dblMod, dblIntDiv]
    refine ⟨trivial, trivial, trivial, ?_, ?_, ?_, fun _ => ?_, trivial, trivial, trivial, trivial, fun _ => ⟨trivial, trivial⟩, nofun⟩
    · cases fo.div f y <;> rfl
    · cases h : fo.div f y with
      | error e => rfl
      | ok v => cases h2 : fo.toInt v <;> simp [h2, Except.map]
    · cases fo.fmod f y <;> rfl
    · cases fo.fmod f y <;> rfl
  | int i =>
    obtain ⟨g, rfl⟩ : ∃ g, b = .dbl g := by rcases hd with ⟨f, h⟩ | h; · cases h
                                            · exact h
    simp only [Spec.asFloat, Except.ok.injEq] at ha hb; subst hb
    simp only [primAdd, primSubtract, primMultiply, primDoubleDiv, primIntDiv, primModulo, primRemainder, primLessThan,
      primLessEq, primGreater, primGreaterEq, primEquals, primUnequals, dblOp, getFloat, intToDbl, ha, bind, Except.bind, dblDiv, dblMod, dblIntDiv]
    refine ⟨trivial, trivial, trivial, ?_, ?_, ?_, fun _ => ?_, trivial, trivial, trivial, trivial, fun h => absurd rfl (h i), ?_⟩
    · cases fo.div x g <;> rfl
    · cases h : fo.div x g with
      | error e => rfl
      | ok v => cases h2 : fo.toInt v <;> simp [h2, Except.map]
    · cases fo.fmod x g <;> rfl
    · cases fo.fmod x g <;> rfl
    · intro j hj; cases hj; exact ⟨rfl, rfl⟩
  | big i =>
    obtain ⟨g, rfl⟩ : ∃ g, b = .dbl g := by rcases hd with ⟨f, h⟩ | h; · cases h
                                            · exact h
    cases p with
    | cpython => exact hea.elim
    | rpython =>
      simp only [Spec.asFloat, Except.ok.injEq] at ha hb; subst hb
      simp only [primAdd, primSubtract, primMultiply, primDoubleDiv, primIntDiv, primModulo, primLessThan,
        primLessEq, primGreater, primGreaterEq, primEquals, primUnequals, dblOp, getFloat, bigToDbl, bigCall, ha, bind, Except.bind, dblDiv, dblMod, dblIntDiv]
      refine ⟨trivial, trivial, trivial, ?_, ?_, ?_, fun h => absurd rfl (h i), trivial, trivial, trivial, trivial, fun _ => ⟨trivial, trivial⟩, nofun⟩
      · cases fo.div x g <;> rfl
      · cases h : fo.div x g with
        | error e => rfl
        | ok v => cases h2 : fo.toInt v <;> simp [h2, Except.map]
      · cases fo.fmod x g <;> rfl

example : Spec.asFloat smallFloats (.int 7) = .ok 7 ∧ Spec.asFloat smallFloats (.dbl (-3)) = .ok (-3) ∧
    Exists (F := Int) .rpython (.big 5) ∧ primIntDiv .rpython smallFloats (.int 7) (.dbl (-3)) = .ok (.int (-2)) :=
  ⟨rfl, rfl, trivial, rfl⟩

/-- **C48**, a non-number operand is an error for every arithmetic and ordering operation, whatever the number. -/
theorem C48_non_number_rejected (p : Platform) (fo : FloatOps F) (t : Nat) (i : Int) (f : F) :
    (∀ op ∈ [primAdd p fo, primSubtract p fo, primMultiply p fo, primDoubleDiv p fo, primIntDiv p fo, primModulo p fo,
        primRemainder p fo],
      op (.dbl f) (.obj t) = .error .value ∧ op (.int i) (.obj t) = .error .attribute ∧
      ∃ e, op (.big i) (.obj t) = .error e) ∧
    (∀ op ∈ [primLessThan p fo, primLessEq p fo, primGreater p fo, primGreaterEq p fo],
      op (.dbl f) (.obj t) = .error .value ∧ op (.int i) (.obj t) = .error .attribute ∧
      ∃ e, op (.big i) (.obj t) = .error e) := by
  constructor
  · intro op hop
    simp only [List.mem_cons, List.not_mem_nil, or_false] at hop
    rcases hop with rfl | rfl | rfl | rfl | rfl | rfl | rfl <;> exact ⟨rfl, rfl, _, rfl⟩
  · intro op hop
    simp only [List.mem_cons, List.not_mem_nil, or_false] at hop
    rcases hop with rfl | rfl | rfl | rfl <;> exact ⟨rfl, rfl, _, rfl⟩

/-- **C48 violated**: BigInteger `& ` Double computes the float modulo instead of refusing, and BigInteger `rem:` Double
fails an assertion instead of converting. -/
theorem C48_violated_big (fo : FloatOps F) (i : Int) (x r : F) (h : fo.ofInt i = .ok x) :
    primAnd .rpython fo (.big i) (.dbl r) = (fo.fmod x r).map .dbl ∧
    primAnd .rpython fo (.int i) (.dbl r) = .error .notImplemented ∧
    primRemainder .rpython fo (.big i) (.dbl r) = .error .assertion := by
  refine ⟨?_, ?_, rfl⟩
  · simp only [primAnd, dblOp, bigToDbl, bigCall, getFloat, h, bind, Except.bind, dblMod]
    cases fo.fmod x r <;> rfl
  · simp [primAnd, intToDbl, h, bind, Except.bind]

example : smallFloats.ofInt (2 ^ 50) = .ok (2 ^ 50) := rfl

/-! ## C49, numbers -/

/-- **C49** (partial), `=` restricted to integers is an equivalence and never confuses representations (it is equality
of the denoted integers by C04); with any non-number it answers false. -/
theorem C49_integer_equality_partial (p : Platform) (fo : FloatOps F) (a b c : Num F) (x y z : Int)
    (ha : Denotes p a x) (hb : Denotes p b y) (hc : Denotes p c z) :
    primEquals p fo a a = .ok true ∧ primEquals p fo a b = primEquals p fo b a ∧
    (primEquals p fo a b = .ok true → primEquals p fo b c = .ok true → primEquals p fo a c = .ok true) ∧
    (∀ t, primEquals p fo a (.obj t) = .ok false) := by
  obtain ⟨_, _, _, _, h1, _, _⟩ := C04_comparisons p fo a a x x ha ha
  obtain ⟨_, _, _, _, h2, _, _⟩ := C04_comparisons p fo a b x y ha hb
  obtain ⟨_, _, _, _, h3, _, _⟩ := C04_comparisons p fo b a y x hb ha
  obtain ⟨_, _, _, _, h4, _, _⟩ := C04_comparisons p fo b c y z hb hc
  obtain ⟨_, _, _, _, h5, _, _⟩ := C04_comparisons p fo a c x z ha hc
  rw [h1, h2, h3, h4, h5]
  simp only [Except.ok.injEq, decide_eq_true_eq, decide_eq_decide]
  refine ⟨trivial, by omega, by omega, ?_⟩
  intro t
  rcases denotes_cases ha with ⟨rfl, _⟩ | ⟨rfl, rfl⟩ <;> rfl

/-- **C49 violated** for numbers: with Doubles `=` is neither symmetric (CPython compares `int == float` exactly but
converts in the other direction) nor transitive, and a Double compared with a non-number raises an error while an
Integer answers false. -/
theorem C49_violated_numbers :
    primEquals .cpython smallFloats (.int (2 ^ 53 + 1)) (.dbl (2 ^ 53)) = .ok false ∧
    primEquals .cpython smallFloats (.dbl (2 ^ 53)) (.int (2 ^ 53 + 1)) = .ok true ∧
    primEquals .cpython smallFloats (.int (2 ^ 53)) (.dbl (2 ^ 53)) = .ok true ∧
    primEquals .cpython smallFloats (.int (2 ^ 53)) (.int (2 ^ 53 + 1)) = .ok false ∧
    primEquals .cpython smallFloats (.dbl 1) (.obj 0) = .error .value ∧
    primEquals .cpython smallFloats (.int 1) (.obj 0) = .ok false := by
  refine ⟨?_, ?_, ?_, ?_, ?_, ?_⟩ <;> decide

/-! ## C53 -/

/-- **C53**, `max:` and `min:` of integer objects answer the operand denoting the larger/smaller integer. -/
theorem C53_max_min (p : Platform) (fo : FloatOps F) (a b : Num F) (x y : Int) (ha : Denotes p a x) (hb : Denotes p b y) :
    Answers p (primMax p fo a b) (max x y) ∧ Answers p (primMin p fo a b) (min x y) ∧
    (primMax p fo a b = .ok a ∨ primMax p fo a b = .ok b) ∧ (primMin p fo a b = .ok a ∨ primMin p fo a b = .ok b) := by
  obtain ⟨h1, _⟩ := C04_comparisons p fo a b x y ha hb
  simp only [primMax, primMin, h1, bind, Except.bind]
  by_cases h : x < y
  · simp only [h, decide_true, if_true]
    refine ⟨⟨b, rfl, ?_⟩, ⟨a, rfl, ?_⟩, Or.inr trivial, Or.inl trivial⟩
    · rw [Int.max_eq_right (by omega)]; exact hb
    · rw [Int.min_eq_left (by omega)]; exact ha
  · simp only [h, decide_false, Bool.false_eq_true, if_false]
    refine ⟨⟨a, rfl, ?_⟩, ⟨b, rfl, ?_⟩, Or.inl trivial, Or.inr trivial⟩
    · rw [Int.max_eq_left (by omega)]; exact ha
    · rw [Int.min_eq_right (by omega)]; exact hb

/-- **C53** (partial), `abs` answers the absolute value of every integer object except the smallest machine integer on
RPython. -/
theorem C53_abs_partial (p : Platform) (a : Num F) (x : Int) (ha : Denotes p a x)
    (h : ¬ (p = .rpython ∧ a = .int (-(2 ^ 63)))) : Answers p (primAbs p a) x.natAbs := by
  rcases denotes_cases ha with ⟨rfl, hx⟩ | ⟨rfl, rfl⟩
  · cases p with
    | cpython => exact ⟨_, rfl, trivial, rfl⟩
    | rpython =>
      have hx := hx rfl
      have hne : x ≠ minInt := by rintro rfl; exact h ⟨rfl, rfl⟩
      simp only [primAbs, hne, if_false]
      simp only [minInt] at hne
      refine ⟨_, rfl, ?_, rfl⟩
      show -(2 ^ 63) ≤ (x.natAbs : Int) ∧ (x.natAbs : Int) < 2 ^ 63
      omega
  · exact answers_big _

example : Denotes (F := F) .rpython (.int (-5)) (-5) ∧ ¬ (Platform.rpython = .rpython ∧ (Num.int (-5) : Num Nat) = .int (-(2 ^ 63))) := by
  refine ⟨⟨?_, rfl⟩, by rintro ⟨_, h⟩; revert h; decide⟩
  show -(2 ^ 63 : Int) ≤ -5 ∧ (-5 : Int) < 2 ^ 63
  omega

/-- **C53 violated**: `abs` of the smallest machine integer on RPython answers that negative integer. -/
theorem C53_violated_abs_min : primAbs (F := F) .rpython (.int (-(2 ^ 63))) = .ok (.int (-(2 ^ 63))) := rfl

end PySOM.Num

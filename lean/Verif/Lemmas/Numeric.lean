import Verif.Spec.Numeric
/-! # Lemmas about the number model -/
set_option autoImplicit false
namespace PySOM.Num
open PySOM Spec

theorem fits_iff (i : Int) : fits i = true ↔ -(2 ^ 63) ≤ i ∧ i < 2 ^ 63 := by
  rw [fits, Bool.and_eq_true, decide_eq_true_iff, decide_eq_true_iff, minInt, maxInt]; omega

/-- An exact integer computed under `ovfcheck`, falling back to a BigInteger. -/
theorem answers_ovf {F : Type} (p : Platform) (v : Int) :
    Answers p (match ovfcheck p v with
      | some r => (.ok (.int r) : Except Err (Num F))
      | none => do .ok (.big (← bigCall p v))) v := by
  cases p with
  | cpython => exact ⟨_, rfl, trivial, rfl⟩
  | rpython =>
    simp only [ovfcheck]
    by_cases h : fits v = true
    · simp only [h, if_true]; exact ⟨_, rfl, (fits_iff v).1 h, rfl⟩
    · rw [if_neg h]; exact ⟨_, rfl, trivial, rfl⟩

theorem answers_big {F : Type} (v : Int) :
    Answers (F := F) .rpython (do .ok (.big (← bigCall .rpython v))) v := ⟨_, rfl, trivial, rfl⟩

theorem floorDivMod_fdiv {a b : Int} (h : b ≠ 0) : FloorDivMod a b (Int.fdiv a b) (Int.fmod a b) := by
  refine ⟨?_, ?_, ?_⟩
  · have := Int.mul_fdiv_add_fmod a b; rw [Int.mul_comm] at this; exact this
  · intro hb; exact ⟨Int.fmod_nonneg_of_pos a hb, Int.fmod_lt_of_pos a hb⟩
  · intro hb
    have h1 : Int.fmod a b = -(Int.fmod (-a) (-b)) := by rw [Int.neg_fmod_neg]; omega
    have h2 := Int.fmod_nonneg_of_pos (-a) (b := -b) (by omega)
    have h3 := Int.fmod_lt_of_pos (-a) (b := -b) (by omega)
    omega

theorem floorDivMod_unique {a b q m q' m' : Int} (hb : b ≠ 0) (h : FloorDivMod a b q m) (h' : FloorDivMod a b q' m') :
    q = q' ∧ m = m' := by
  obtain ⟨h1, h2, h3⟩ := h
  obtain ⟨h1', h2', h3'⟩ := h'
  have key : (q - q') * b = m' - m := by rw [Int.sub_mul]; omega
  have hq : q - q' = 0 := by
    rcases Int.lt_or_gt_of_ne hb with hb | hb
    · have := h3 hb; have := h3' hb
      rcases Int.lt_trichotomy (q - q') 0 with hlt | heq | hgt
      · have := Int.mul_le_mul_of_nonpos_right (show q - q' ≤ -1 by omega) (show b ≤ 0 by omega); omega
      · exact heq
      · have := Int.mul_le_mul_of_nonpos_right (show 1 ≤ q - q' by omega) (show b ≤ 0 by omega); omega
    · have := h2 hb; have := h2' hb
      rcases Int.lt_trichotomy (q - q') 0 with hlt | heq | hgt
      · have := Int.mul_le_mul_of_nonneg_right (show q - q' ≤ -1 by omega) (show 0 ≤ b by omega); omega
      · exact heq
      · have := Int.mul_le_mul_of_nonneg_right (show 1 ≤ q - q' by omega) (show 0 ≤ b by omega); omega
  rw [hq] at key
  omega

theorem truncRem_tmod {a b : Int} (h : b ≠ 0) : TruncRem a b (Int.tmod a b) := by
  refine ⟨⟨Int.tdiv a b, ?_⟩, ?_, ?_, ?_⟩
  · have := Int.mul_tdiv_add_tmod a b; rw [Int.mul_comm] at this; exact this.symm
  · rw [Int.natAbs_tmod]; exact Nat.mod_lt _ (by omega)
  · intro ha; exact Int.tmod_nonneg b ha
  · intro ha
    have h1 : Int.tmod a b = -(Int.tmod (-a) b) := by rw [Int.neg_tmod]; omega
    have := Int.tmod_nonneg b (show 0 ≤ -a by omega)
    omega

theorem fdiv_fits {l r : Int} (hl : -(2 ^ 63) ≤ l ∧ l < 2 ^ 63) (hr : r ≠ 0) (hm : ¬ (l = minInt ∧ r = -1)) :
    -(2 ^ 63) ≤ Int.fdiv l r ∧ Int.fdiv l r < 2 ^ 63 := by
  obtain ⟨h1, h2, h3⟩ := floorDivMod_fdiv (a := l) hr
  generalize Int.fdiv l r = q at *
  generalize Int.fmod l r = m at *
  simp only [minInt] at hm
  rcases Int.lt_or_gt_of_ne hr with hb | hb
  · have h3 := h3 hb
    by_cases hr1 : r = -1
    · subst hr1; omega
    · have hr2 : r ≤ -2 := by omega
      constructor
      · apply Classical.byContradiction; intro hc
        have := Int.mul_le_mul_of_nonpos_right (show q ≤ -(2 ^ 63) - 1 by omega) (show r ≤ 0 by omega)
        rw [Int.sub_mul] at this
        omega
      · apply Classical.byContradiction; intro hc
        have := Int.mul_le_mul_of_nonpos_right (show 2 ^ 63 ≤ q by omega) (show r ≤ 0 by omega)
        have h5 := Int.mul_le_mul_of_nonneg_left (show r ≤ -2 by omega) (show (0 : Int) ≤ 2 ^ 63 by omega)
        omega
  · have h2 := h2 hb
    constructor
    · apply Classical.byContradiction; intro hc
      have := Int.mul_le_mul_of_nonneg_right (show q ≤ -(2 ^ 63) - 1 by omega) (show 0 ≤ r by omega)
      rw [Int.sub_mul] at this
      omega
    · apply Classical.byContradiction; intro hc
      have := Int.mul_le_mul_of_nonneg_right (show 2 ^ 63 ≤ q by omega) (show 0 ≤ r by omega)
      have h5 := Int.mul_le_mul_of_nonneg_left (show 1 ≤ r by omega) (show (0 : Int) ≤ 2 ^ 63 by omega)
      omega

theorem fmod_fits {l r : Int} (hr : -(2 ^ 63) ≤ r ∧ r < 2 ^ 63) (h0 : r ≠ 0) :
    -(2 ^ 63) ≤ Int.fmod l r ∧ Int.fmod l r < 2 ^ 63 := by
  obtain ⟨_, h2, h3⟩ := floorDivMod_fdiv (a := l) h0
  rcases Int.lt_or_gt_of_ne h0 with hb | hb
  · have := h3 hb; omega
  · have := h2 hb; omega

theorem tmod_fits {l r : Int} (hr : -(2 ^ 63) ≤ r ∧ r < 2 ^ 63) (h0 : r ≠ 0) :
    -(2 ^ 63) ≤ Int.tmod l r ∧ Int.tmod l r < 2 ^ 63 := by
  have := (truncRem_tmod (a := l) h0).2.1
  omega

/-- The CPython rendering of the truncating remainder (`llop.py:23-26`). -/
theorem intMod_cpython (l r : Int) (h0 : r ≠ 0) : intMod .cpython l r = .ok (Int.tmod l r) := by
  simp only [intMod, h0, if_false]
  have hf : Int.fmod (l.natAbs : Int) (r.natAbs : Int) = ((l.natAbs % r.natAbs : Nat) : Int) := by
    rw [Int.fmod_eq_emod_of_nonneg _ (by omega), Int.natCast_emod]
  have ht : Int.tmod (l.natAbs : Int) (r.natAbs : Int) = ((l.natAbs % r.natAbs : Nat) : Int) := rfl
  have habs : ∀ x : Int, Int.tmod x (r.natAbs : Int) = Int.tmod x r := by
    intro x
    rcases Int.natAbs_eq r with h | h
    · rw [← h]
    · rw [h]; simp [Int.tmod_neg]
  by_cases hl : l > 0
  · rw [if_pos hl, hf, ← ht, habs]
    have : (l.natAbs : Int) = l := by omega
    rw [this]
  · rw [if_neg hl, hf, ← ht, habs]
    have : (l.natAbs : Int) = -l := by omega
    rw [this, Int.neg_tmod]
    congr 1; omega

/-! ### Bits -/

theorem bit_ofNat (a k : Nat) : bit (Int.ofNat a) k = a.testBit k := by
  unfold bit
  rw [Nat.testBit_eq_decide_div_mod_eq]
  have : (Int.ofNat a : Int) / 2 ^ k % 2 = ((a / 2 ^ k % 2 : Nat) : Int) := by
    simp [Int.natCast_emod, Int.natCast_ediv]
  rw [this]
  generalize a / 2 ^ k % 2 = q
  by_cases h : q = 1
  · subst h; rfl
  · have h' : ¬ ((q : Int) = 1) := by omega
    simp [h, h']

theorem negSucc_ediv_pow (a k : Nat) : (Int.negSucc a) / (2 : Int) ^ k = Int.negSucc (a / 2 ^ k) := by
  have h2 : (2 : Int) ^ k = ((2 ^ k : Nat) : Int) := by simp
  have hpos : 0 < 2 ^ k := Nat.two_pow_pos k
  rw [h2]
  rw [Int.negSucc_ediv a (by omega)]
  simp only [Int.negSucc_eq]
  have : (a : Int).ediv ((2 ^ k : Nat) : Int) = ((a / 2 ^ k : Nat) : Int) := by rw [Int.natCast_ediv]; rfl
  rw [this]

theorem bit_negSucc (a k : Nat) : bit (Int.negSucc a) k = !a.testBit k := by
  unfold bit
  rw [Nat.testBit_eq_decide_div_mod_eq, negSucc_ediv_pow]
  generalize a / 2 ^ k = q
  by_cases h : q % 2 = 1
  · have : ¬ (Int.negSucc q % 2 = 1) := by omega
    simp [h, this]
  · have : (Int.negSucc q % 2 = 1) := by omega
    simp [h, this]

theorem bit_iand (a b : Int) (k : Nat) : bit (iand a b) k = (bit a k && bit b k) := by
  cases a <;> cases b <;> simp only [iand, bit_ofNat, bit_negSucc, Nat.testBit_and, Nat.testBit_xor, Nat.testBit_or] <;>
    (rename_i x y; cases x.testBit k <;> cases y.testBit k <;> rfl)

theorem bit_ixor (a b : Int) (k : Nat) : bit (ixor a b) k = (bit a k != bit b k) := by
  cases a <;> cases b <;> simp only [ixor, bit_ofNat, bit_negSucc, Nat.testBit_xor] <;>
    (rename_i x y; cases x.testBit k <;> cases y.testBit k <;> rfl)

/-- An integer is determined by its bits. -/
theorem bit_ext {a b : Int} (h : ∀ k, bit a k = bit b k) : a = b := by
  have big : ∀ x : Nat, x.testBit x = false := fun x => Nat.testBit_lt_two_pow Nat.lt_two_pow_self
  have big2 : ∀ x y : Nat, x.testBit (x + y) = false := fun x y =>
    Nat.testBit_lt_two_pow (Nat.lt_of_lt_of_le Nat.lt_two_pow_self (Nat.pow_le_pow_right (by omega) (by omega)))
  cases a with
  | ofNat x => cases b with
    | ofNat y =>
      congr 1
      apply Nat.eq_of_testBit_eq; intro k
      have := h k; rwa [bit_ofNat, bit_ofNat] at this
    | negSucc y =>
      have := h (x + y)
      rw [bit_ofNat, bit_negSucc, big2, Nat.add_comm, big2] at this; cases this
  | negSucc x => cases b with
    | ofNat y =>
      have := h (x + y)
      rw [bit_ofNat, bit_negSucc, big2, Nat.add_comm, big2] at this; cases this
    | negSucc y =>
      congr 1
      apply Nat.eq_of_testBit_eq; intro k
      have := h k; rw [bit_negSucc, bit_negSucc] at this
      cases hx : x.testBit k <;> cases hy : y.testBit k <;> simp_all

theorem bit_emod (a : Int) (n k : Nat) : bit (a % 2 ^ n) k = (decide (k < n) && bit a k) := by
  cases a with
  | ofNat x =>
    have : (Int.ofNat x % 2 ^ n) = Int.ofNat (x % 2 ^ n) := by simp [Int.natCast_emod]
    rw [this, bit_ofNat, bit_ofNat, Nat.testBit_mod_two_pow]
  | negSucc x =>
    have hp : 0 < 2 ^ n := Nat.two_pow_pos n
    have hx := Nat.mod_lt x hp
    have : (Int.negSucc x % 2 ^ n) = Int.ofNat (2 ^ n - (x % 2 ^ n + 1)) := by
      have h2 : (2 : Int) ^ n = ((2 ^ n : Nat) : Int) := by simp
      rw [h2, Int.negSucc_emod x (by omega), ← Int.natCast_emod]
      simp only [Int.ofNat_eq_natCast]
      omega
    rw [this, bit_ofNat, bit_negSucc, Nat.testBit_two_pow_sub_succ hx, Nat.testBit_mod_two_pow]
    by_cases hk : k < n <;> simp [hk]

theorem iand_mask (a : Int) (n : Nat) : iand a (2 ^ n - 1) = a % 2 ^ n := by
  apply bit_ext; intro k
  rw [bit_iand, bit_emod]
  have : (2 : Int) ^ n - 1 = Int.ofNat (2 ^ n - 1) := by
    have hp : 0 < 2 ^ n := Nat.two_pow_pos n
    have h2 : (2 : Int) ^ n = ((2 ^ n : Nat) : Int) := by simp
    simp only [Int.ofNat_eq_natCast]; omega
  rw [this, bit_ofNat, Nat.testBit_two_pow_sub_one, Bool.and_comm]

theorem iand_pow (a : Int) (n : Nat) : iand a (2 ^ n) = if bit a n then 2 ^ n else 0 := by
  have h2 : (2 : Int) ^ n = Int.ofNat (2 ^ n) := by simp
  apply bit_ext; intro k
  rw [bit_iand]
  by_cases hb : bit a n = true
  · rw [if_pos hb, h2, bit_ofNat, Nat.testBit_two_pow]
    by_cases hk : n = k
    · subst hk; simp [hb]
    · simp [hk]
  · rw [if_neg hb, h2, bit_ofNat, Nat.testBit_two_pow]
    have : bit 0 k = false := by simp [bit]
    rw [this]
    by_cases hk : n = k
    · subst hk; simp only [Bool.not_eq_true] at hb; simp [hb]
    · simp [hk]

theorem as32Signed_eq (p : Platform) (i : Int) :
    as32Signed p i = if i % 2 ^ 32 < 2 ^ 31 then i % 2 ^ 32 else i % 2 ^ 32 - 2 ^ 32 := by
  cases p with
  | rpython => rfl
  | cpython =>
    have h1 : iand i 0x80000000 = if bit i 31 then 2 ^ 31 else 0 := iand_pow i 31
    have h2 : iand i 0x7FFFFFFF = i % 2 ^ 31 := iand_mask i 31
    simp only [as32Signed, h1, h2]
    by_cases hb : bit i 31 = true
    · rw [if_pos hb]
      simp only [bit, decide_eq_true_eq] at hb
      simp only [Int.reducePow, decide_true, if_true]
      simp only [Int.reducePow] at hb
      rw [if_neg (by omega)]; omega
    · rw [if_neg hb]
      simp only [bit, decide_eq_true_eq] at hb
      simp only [show ¬ ((0 : Int) = 2147483648) by omega, decide_false]
      simp only [Bool.false_eq_true, if_false]
      have hlt : i % 2 ^ 32 < 2 ^ 31 := by omega
      rw [if_pos hlt]; omega

/-! ### Decimal strings -/

theorem digitChar_toNat {d : Nat} (h : d < 10) : (digitChar d).toNat = 48 + d := by
  rcases d with _|_|_|_|_|_|_|_|_|_|d <;> first | rfl | omega

theorem digitVal_digitChar {d : Nat} (h : d < 10) : digitVal (digitChar d) = some d := by
  simp only [digitVal, digitChar_toNat h]
  rw [if_pos (by omega)]; congr 1; omega

theorem parseDigits_append (xs ys : List Char) (acc : Nat) :
    parseDigits (xs ++ ys) acc = (parseDigits xs acc).bind (parseDigits ys) := by
  induction xs generalizing acc with
  | nil => rfl
  | cons c cs ih =>
    simp only [List.cons_append, parseDigits]
    cases digitVal c with
    | none => rfl
    | some d => exact ih _

theorem parseDigits_digits (n : Nat) : parseDigits (digits n) 0 = some n := by
  fun_induction digits n with
  | case1 n h => simp [parseDigits, digitVal_digitChar h]
  | case2 n h ih =>
    rw [parseDigits_append, ih]
    simp only [Option.bind_some, parseDigits, digitVal_digitChar (Nat.mod_lt n (by omega : 10 > 0))]
    congr 1; omega

/-- All characters of a decimal string are digits. -/
theorem digits_chars (n : Nat) : ∀ c ∈ digits n, 48 ≤ c.toNat ∧ c.toNat ≤ 57 := by
  fun_induction digits n with
  | case1 n h => intro c hc; simp only [List.mem_singleton] at hc; subst hc; rw [digitChar_toNat h]; omega
  | case2 n h ih =>
    intro c hc
    simp only [List.mem_append, List.mem_singleton] at hc
    rcases hc with hc | rfl
    · exact ih c hc
    · rw [digitChar_toNat (Nat.mod_lt n (by omega : 10 > 0))]; omega

theorem digits_ne_nil (n : Nat) : digits n ≠ [] := by
  unfold digits; split <;> simp

theorem dropWhile_of_head {α : Type} (q : α → Bool) (c : α) (cs : List α) (h : q c = false) :
    (c :: cs).dropWhile q = c :: cs := by simp [h]

theorem strip_id (s : List Char) (h : ∀ c ∈ s, c ≠ ' ') :
    ((s.dropWhile (· = ' ')).reverse.dropWhile (· = ' ')).reverse = s := by
  have aux : ∀ t : List Char, (∀ c ∈ t, c ≠ ' ') → t.dropWhile (· = ' ') = t := by
    intro t ht
    cases t with
    | nil => rfl
    | cons c cs => apply dropWhile_of_head; simpa using ht c (by simp)
  rw [aux s h, aux s.reverse (by intro c hc; exact h c (by simpa using hc)), List.reverse_reverse]

theorem parseInt_pyStr (i : Int) : parseInt (pyStr i) = some i := by
  have hsp : ∀ n, ∀ c ∈ digits n, c ≠ ' ' := by
    intro n c hc hcc
    have := digits_chars n c hc
    subst hcc; revert this; decide
  cases i with
  | ofNat n =>
    simp only [parseInt, pyStr]
    rw [strip_id _ (hsp n)]
    have hp := parseDigits_digits n
    have hc := digits_chars n
    rcases hd : digits n with _ | ⟨c, cs⟩
    · exact absurd hd (digits_ne_nil n)
    · rw [hd] at hp hc
      have hcc := hc c (by simp)
      have hm : c ≠ '-' := by intro h; subst h; revert hcc; decide
      have hp' : c ≠ '+' := by intro h; subst h; revert hcc; decide
      split <;> simp_all
  | negSucc n =>
    simp only [parseInt, pyStr]
    have hs : ∀ c ∈ '-' :: digits (n + 1), c ≠ ' ' := by
      intro c hc
      rcases List.mem_cons.1 hc with rfl | hc
      · decide
      · exact hsp _ c hc
    rw [strip_id _ hs]
    have hp := parseDigits_digits (n + 1)
    rcases hd : digits (n + 1) with _ | ⟨c, cs⟩
    · exact absurd hd (digits_ne_nil _)
    · rw [hd] at hp
      simp only [hp]
      rfl

end PySOM.Num

import Verif.Lemmas.DoubleLarge
/-!
# Comparing Integers and Doubles
-/
set_option autoImplicit false
namespace PySOM.F64
open PySOM Spec

attribute [local irreducible] one hf below huge rnd half

theorem number_fin (a : Bool) (n : Nat) : number (.dbl (.fin a n)) = some (.units (signed a n)) := by cases a <;> rfl

theorem Ext.irrefl (a : Ext) : ¬ a.lt a := by
  cases a with
  | bottom => exact id
  | units v => exact Int.lt_irrefl v
  | top => exact id

theorem Ext.trans {a b c : Ext} (h : a.lt b) (h' : b.lt c) : a.lt c := by
  cases a <;> cases b <;> cases c <;> first | exact h.elim | exact h'.elim | trivial | exact Int.lt_trans h h'

theorem Ext.total (a b : Ext) : a.lt b ∨ a = b ∨ b.lt a := by
  cases a <;> cases b
  · exact .inr (.inl rfl)
  · exact .inl trivial
  · exact .inl trivial
  · exact .inr (.inr trivial)
  · rename_i v w
    rcases Int.lt_trichotomy v w with h | rfl | h
    · exact .inl h
    · exact .inr (.inl rfl)
    · exact .inr (.inr h)
  · exact .inl trivial
  · exact .inr (.inr trivial)
  · exact .inr (.inr trivial)
  · exact .inr (.inl rfl)

theorem Ext.not_lt {a b : Ext} : ¬ b.lt a ↔ a.lt b ∨ a = b := by
  constructor
  · intro h
    rcases Ext.total a b with h' | h' | h'
    · exact .inl h'
    · exact .inr h'
    · exact absurd h' h
  · rintro (h | rfl) h'
    · exact Ext.irrefl _ (Ext.trans h h')
    · exact Ext.irrefl _ h'

theorem lt_number {x y : Float} {a b : Ext} (hx : number (.dbl x) = some a) (hy : number (.dbl y) = some b) : lt x y = true ↔ a.lt b := by
  cases x with
  | nan => exact nomatch hx
  | inf s =>
    cases y with
    | nan => exact nomatch hy
    | inf t => cases s <;> cases t <;> cases hx <;> cases hy <;> simp [lt, Ext.lt]
    | fin t m =>
      rw [number_fin] at hy
      cases s <;> cases hx <;> cases hy <;> simp [lt, Ext.lt]
  | fin s n =>
    rw [number_fin] at hx
    cases hx
    cases y with
    | nan => exact nomatch hy
    | inf t => cases t <;> cases hy <;> simp [lt, Ext.lt]
    | fin t m =>
      rw [number_fin] at hy
      cases hy
      show decide (signed s n < signed t m) = true ↔ signed s n < signed t m
      exact decide_eq_true_iff

theorem eq_number {x y : Float} {a b : Ext} (hx : number (.dbl x) = some a) (hy : number (.dbl y) = some b) : eq x y = true ↔ a = b := by
  cases x with
  | nan => exact nomatch hx
  | inf s =>
    cases y with
    | nan => exact nomatch hy
    | inf t => cases s <;> cases t <;> cases hx <;> cases hy <;> simp [eq]
    | fin t m =>
      rw [number_fin] at hy
      cases s <;> cases hx <;> cases hy <;> simp [eq]
  | fin s n =>
    rw [number_fin] at hx
    cases hx
    cases y with
    | nan => exact nomatch hy
    | inf t => cases t <;> cases hy <;> simp [eq]
    | fin t m =>
      rw [number_fin] at hy
      cases hy
      show decide (signed s n = signed t m) = true ↔ Ext.units (signed s n) = Ext.units (signed t m)
      rw [Ext.units.injEq]
      exact decide_eq_true_iff

theorem le_number {x y : Float} {a b : Ext} (hx : number (.dbl x) = some a) (hy : number (.dbl y) = some b) : le x y = true ↔ ¬ b.lt a := by
  show (lt x y || eq x y) = true ↔ _
  rw [Bool.or_eq_true, lt_number hx hy, eq_number hx hy, Ext.not_lt]

theorem eqInt_number {i : Int} {y : Float} {b : Ext} (hy : number (.dbl y) = some b) : eqInt i y = true ↔ Ext.units (i * one) = b := by
  cases y with
  | nan => exact nomatch hy
  | inf t => cases t <;> cases hy <;> simp [eqInt]
  | fin t m =>
    rw [number_fin] at hy
    cases hy
    show decide (i * one = signed t m) = true ↔ _
    rw [Ext.units.injEq]
    exact decide_eq_true_iff

/-- A small Integer and the Double it is converted to are the same number. -/
theorem small_number {i : Int} (h : Small (.int i)) : ∃ x, ofInt i = .ok x ∧ number (.dbl x) = some (.units (i * one)) := by
  have h' : i.natAbs ≤ 2 ^ 53 := by
    obtain ⟨h1, h2⟩ := h
    simp only [Int.reducePow, Nat.reducePow] at *
    omega
  refine ⟨_, ofInt_small h', ?_⟩
  rw [number_fin, signed_units]

theorem mul_one_lt {i j : Int} : i * one < j * one ↔ i < j := Int.mul_lt_mul_right (Int.natCast_pos.2 one_pos)
theorem mul_one_inj {i j : Int} : i * one = j * one ↔ i = j :=
  ⟨fun h => Int.eq_of_mul_eq_mul_right (Int.ne_of_gt (Int.natCast_pos.2 one_pos)) h, fun h => by rw [h]⟩

/-- Rounding does not cross a number: what is converted to less than a Double, is less. -/
theorem ofInt_lt {i : Int} {x y : Float} {b : Ext} (h : ofInt i = .ok x) (hy : Ok y) (hb : number (.dbl y) = some b) :
    (lt x y = true → (Ext.units (i * one)).lt b) ∧ (lt y x = true → b.lt (Ext.units (i * one))) := by
  have hl : i.natAbs < (2 ^ 54 - 1) * 2 ^ 970 := Nat.lt_of_not_le fun h' => by rw [ofInt_large h'] at h; exact nomatch h
  rw [ofInt_fits hl] at h
  cases h
  cases y with
  | nan => exact nomatch hb
  | inf t => cases t <;> cases hb <;> simp [lt, Ext.lt]
  | fin t m =>
    rw [number_fin] at hb
    cases hb
    have hr := rnd_rep (i.natAbs * one) 1 (by decide)
    have up : ∀ t, Rep t → t ≤ i.natAbs * one → t ≤ rnd (i.natAbs * one) 1 := fun t ht h => le_rnd (by decide) ht (by omega)
    have dn : ∀ t, Rep t → i.natAbs * one ≤ t → rnd (i.natAbs * one) 1 ≤ t := fun t ht h => rnd_le (by decide) ht (by omega)
    have h0 : i.natAbs * one = 0 → rnd (i.natAbs * one) 1 = 0 := fun h => Nat.le_zero.1 (dn 0 .zero (Nat.le_of_eq h))
    have u := up m hy.1
    have d := dn m hy.1
    have su := signed_units i one
    show (decide (signed (decide (i < 0)) (rnd (i.natAbs * one) 1) < signed t m) = true → i * one < signed t m) ∧
      (decide (signed t m < signed (decide (i < 0)) (rnd (i.natAbs * one) 1)) = true → signed t m < i * one)
    rw [decide_eq_true_iff, decide_eq_true_iff, ← su]
    have hz : decide (i < 0) = true → 0 < i.natAbs * one := fun h => Nat.mul_pos (by have := of_decide_eq_true h; omega) one_pos
    clear su
    generalize i.natAbs * one = N at *
    generalize rnd N 1 = r at *
    generalize decide (i < 0) = s at *
    have o := one_pos
    cases s <;> cases t <;> simp only [signed, if_true, if_false, Bool.false_eq_true] at * <;> constructor <;> intro h <;> omega

end PySOM.F64

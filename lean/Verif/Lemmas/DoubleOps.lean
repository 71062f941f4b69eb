import Verif.Lemmas.RoundFloat
/-!
# Doubles: what is kept, and what is converted exactly
-/
set_option autoImplicit false
namespace PySOM.F64
open PySOM Spec

attribute [local irreducible] one hf below huge rnd half

theorem mk_ok {a : Bool} {r : Nat} (h : Rep r) : Ok (mk a r) := by
  by_cases hr : r < huge
  · rw [mk_fin hr]; exact ⟨h, hr⟩
  · rw [mk_inf (Nat.not_lt.1 hr)]; trivial

theorem ofUnits_ok (z : Bool) (v : Int) : Ok (ofUnits z v) := by
  unfold ofUnits
  split
  · exact ⟨.zero, huge_pos⟩
  · exact mk_ok (rnd_rep _ _ (by decide))

theorem neg_ok {x : Float} (h : Ok x) : Ok (neg x) := by cases x <;> exact h
theorem abs_ok {x : Float} (h : Ok x) : Ok (abs x) := by cases x <;> exact h

theorem add_ok {x y : Float} : Ok (add x y) := by
  match x, y with
  | .nan, _ => exact trivial
  | .inf _, .nan => exact trivial
  | .fin _ _, .nan => exact trivial
  | .inf a, .inf b =>
    show Ok (if a = b then .inf a else .nan)
    split <;> exact trivial
  | .inf a, .fin _ _ => exact trivial
  | .fin _ _, .inf b => exact trivial
  | .fin a n, .fin b m => exact ofUnits_ok _ _

theorem mul_ok {x y : Float} : Ok (mul x y) := by
  match x, y with
  | .nan, _ => exact trivial
  | .inf _, .nan => exact trivial
  | .fin _ _, .nan => exact trivial
  | .inf a, .inf b => exact trivial
  | .inf a, .fin b m =>
    show Ok (if m = 0 then .nan else .inf (a != b))
    split <;> exact trivial
  | .fin a n, .inf b =>
    show Ok (if n = 0 then .nan else .inf (a != b))
    split <;> exact trivial
  | .fin a n, .fin b m => exact mk_ok (rnd_rep _ _ one_pos)

theorem div_ok {x y z : Float} (h : div x y = .ok z) : Ok z := by
  match x, y, h with
  | .nan, .nan, h => cases h; trivial
  | .nan, .inf _, h => cases h; trivial
  | .nan, .fin _ (_ + 1), h => cases h; trivial
  | .inf _, .nan, h => cases h; trivial
  | .fin _ _, .nan, h => cases h; trivial
  | .inf _, .inf _, h => cases h; trivial
  | .inf _, .fin _ (_ + 1), h => cases h; trivial
  | .fin _ _, .inf _, h => cases h; exact ⟨.zero, huge_pos⟩
  | .fin a n, .fin b (m + 1), h =>
    have h' : Except.ok (ε := Err) (mk (a != b) (rnd (n * one) (m + 1))) = .ok z := h
    cases h'
    exact mk_ok (rnd_rep _ _ (Nat.succ_pos _))

/-- The rest of a division has 53 bits. -/
theorem Spec.Rep.mod {n m : Nat} (hn : Rep n) (hm : Rep m) : Rep (n % m) := by
  obtain ⟨a, j, ha, rfl⟩ := hn
  obtain ⟨b, k, hb, rfl⟩ := hm
  by_cases h : k ≤ j
  · obtain ⟨i, rfl⟩ := Nat.exists_eq_add_of_le h
    rw [Nat.pow_add, Nat.mul_comm (2 ^ k), ← Nat.mul_assoc, Nat.mul_mod_mul_right]
    by_cases h0 : b = 0
    · subst h0
      rw [Nat.mod_zero, Nat.mul_assoc, ← Nat.pow_add]
      exact ⟨a, _, ha, rfl⟩
    · exact ⟨_, k, Nat.lt_trans (Nat.mod_lt _ (Nat.pos_of_ne_zero h0)) hb, rfl⟩
  · obtain ⟨i, rfl⟩ := Nat.exists_eq_add_of_le (Nat.le_of_not_le h)
    rw [Nat.pow_add, Nat.mul_comm (2 ^ j), ← Nat.mul_assoc, Nat.mul_mod_mul_right]
    exact ⟨_, j, Nat.lt_of_le_of_lt (Nat.mod_le _ _) ha, rfl⟩

theorem fmod_ok {x y z : Float} (hx : Ok x) (hy : Ok y) (h : fmod x y = .ok z) : Ok z := by
  match x, y, h with
  | .nan, _, h => cases h; trivial
  | .inf _, .nan, h => cases h; trivial
  | .fin _ _, .nan, h => cases h; trivial
  | .fin a n, .inf _, h => cases h; exact hx
  | .fin a n, .fin _ (m + 1), h =>
    have h' : Except.ok (ε := Err) (Float.fin a (n % (m + 1))) = .ok z := h
    cases h'
    exact ⟨hx.1.mod hy.1, Nat.lt_of_le_of_lt (Nat.mod_le _ _) hx.2⟩

theorem finite_ok {x y : Float} (hx : Ok x) (h : finite x = .ok y) : Ok y := by
  cases x with
  | nan => exact nomatch h
  | inf _ => exact nomatch h
  | fin a n => cases h; exact hx

theorem ofInt_ok {i : Int} {x : Float} (h : ofInt i = .ok x) : Ok x := finite_ok (mk_ok (rnd_rep _ _ (by decide))) h

theorem trueDiv_ok {i j : Int} {x : Float} (h : trueDiv i j = .ok x) : Ok x := by
  unfold trueDiv at h
  split at h
  · exact nomatch h
  · exact finite_ok (mk_ok (rnd_rep _ _ (by omega))) h

/-- An integer that is a number with 53 bits. -/
theorem ofInt_exact {i : Int} (h : Rep (i.natAbs * one)) (hlt : i.natAbs * one < huge) : ofInt i = .ok (.fin (decide (i < 0)) (i.natAbs * one)) := by
  show finite (mk (decide (i < 0)) (rnd (i.natAbs * one) 1)) = _
  rw [rnd_self h, mk_fin hlt]
  rfl

theorem small_huge {i : Nat} (h : i ≤ 2 ^ 53) : i * one < huge := by
  obtain ⟨p, hp, ehf, eone, ebelow, ehuge⟩ := exps
  have e : (2 : Nat) ^ (p + 1025) = 2 ^ (p + 1) * 2 ^ 1024 := by rw [← Nat.pow_add]
  rw [ehuge, e, eone, Nat.mul_comm]
  refine Nat.mul_lt_mul_of_pos_left (Nat.lt_of_le_of_lt h ?_) (Nat.two_pow_pos _)
  exact Nat.pow_lt_pow_right (by decide) (by decide)

theorem ofInt_small {i : Int} (h : i.natAbs ≤ 2 ^ 53) : ofInt i = .ok (.fin (decide (i < 0)) (i.natAbs * one)) := ofInt_exact (rep_mul_one h) (small_huge h)

theorem signed_units (i : Int) (u : Nat) : signed (decide (i < 0)) (i.natAbs * u) = i * u := by
  unfold signed
  by_cases h : i < 0
  · rw [if_pos (decide_eq_true h), Int.natCast_mul, ← Int.neg_mul]
    congr 1
    omega
  · rw [if_neg (by simp [h]), Int.natCast_mul]
    congr 1
    omega

theorem signed_natAbs (i : Int) : signed (decide (i < 0)) i.natAbs = i := by
  have := signed_units i 1
  rwa [Nat.mul_one, Int.natCast_one, Int.mul_one] at this

end PySOM.F64

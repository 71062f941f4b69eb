import Verif.Lemmas.DoubleOps
/-!
# Integers that are too large to become Doubles
-/
set_option autoImplicit false
namespace PySOM.F64
open PySOM Spec

attribute [local irreducible] one hf below huge rnd half

/-- Rounding reaches `2 ^ 53 * g` from half-way between the two last numbers with 53 bits. -/
theorem rnd_top {m k : Nat} : 2 ^ 53 * 2 ^ (k + 1) ≤ rnd m 1 ↔ (2 ^ 54 - 1) * 2 ^ k ≤ m := by
  have near := rnd_nearest m 1 (by decide)
  have e : (2 : Nat) ^ (k + 1) = 2 * 2 ^ k := by rw [Nat.pow_succ, Nat.mul_comm]
  have g := gap (q := 2 ^ 53 - 1) (k := k + 1) (.inr (by decide)) near.rep
  have n1 := near.near ((2 ^ 53 - 1) * 2 ^ (k + 1)) (.mk (by decide))
  have n2 := near.near (2 ^ 53 * 2 ^ (k + 1)) (.mk (Nat.le_refl _))
  have ev := near.even (2 ^ 53 * 2 ^ (k + 1)) (.mk (Nat.le_refl _))
  have odd : ¬ EvenRep ((2 ^ 53 - 1) * 2 ^ (k + 1)) := fun h => by
    have := (even_iff (q := 2 ^ 53 - 1) (by decide) (.inr (by decide))).1 h
    exact absurd this (by decide)
  rw [dist_one, dist_one] at n1 n2 ev
  have gp : 0 < 2 ^ k := Nat.two_pow_pos k
  have eq' : rnd m 1 = (2 ^ 53 - 1) * 2 ^ (k + 1) → ¬ EvenRep (rnd m 1) := fun h => by rw [h]; exact odd
  rw [e] at *
  generalize (2 : Nat) ^ k = G at *
  generalize rnd m 1 = r at *
  clear near odd e
  simp only [Nat.reducePow, Nat.reduceSub, Nat.reduceAdd] at *
  constructor
  · intro h
    omega
  · intro h
    refine Nat.le_of_not_lt fun hlt => ?_
    have hr : r ≤ 9007199254740991 * (2 * G) := by omega
    have hr' : r = 9007199254740991 * (2 * G) := by omega
    exact eq' hr' (ev (by omega) (by omega))

theorem huge_le_rnd (i : Nat) : huge ≤ rnd (i * one) 1 ↔ (2 ^ 54 - 1) * 2 ^ 970 ≤ i := by
  obtain ⟨p, hp, ehf, eone, ebelow, ehuge⟩ := exps
  have e1 : huge = 2 ^ 53 * 2 ^ (970 + (p + 1) + 1) := ehuge.trans (pow_split (by omega))
  have e2 : (2 ^ 54 - 1) * 2 ^ (970 + (p + 1)) = (2 ^ 54 - 1) * 2 ^ 970 * one := by rw [eone, Nat.mul_assoc, ← Nat.pow_add]
  rw [e1, rnd_top, e2]
  exact ⟨fun h => Nat.le_of_mul_le_mul_right h one_pos, fun h => Nat.mul_le_mul_right _ h⟩

theorem ofInt_large {i : Int} (h : (2 ^ 54 - 1) * 2 ^ 970 ≤ i.natAbs) : ofInt i = .error .other := by
  show finite (mk (decide (i < 0)) (rnd (i.natAbs * one) 1)) = _
  rw [mk_inf ((huge_le_rnd _).2 h)]
  rfl

theorem ofInt_fits {i : Int} (h : i.natAbs < (2 ^ 54 - 1) * 2 ^ 970) : ofInt i = .ok (.fin (decide (i < 0)) (rnd (i.natAbs * one) 1)) := by
  show finite (mk (decide (i < 0)) (rnd (i.natAbs * one) 1)) = _
  rw [mk_fin (Nat.lt_of_not_le fun h' => Nat.not_le.2 h ((huge_le_rnd _).1 h'))]
  rfl

end PySOM.F64

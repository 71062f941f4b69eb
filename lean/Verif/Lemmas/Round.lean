import Verif.Lemmas.Binary64
/-!
# `round`
-/
set_option autoImplicit false
namespace PySOM.F64
open PySOM Spec

/-- One half, in units. -/
def hf : Nat := 2 ^ 1073

/-- The number below one half, 0.49999999999999994. -/
def below : Nat := (2 ^ 53 - 1) * 2 ^ 1020

theorem one_eq : one = 2 * hf := by unfold one hf; rw [← Nat.pow_succ']

/-- The exponents, so that the powers are not computed. -/
theorem exps : ∃ p, p = 1073 ∧ hf = 2 ^ p ∧ one = 2 ^ (p + 1) ∧ below = (2 ^ 53 - 1) * 2 ^ (p - 53) ∧ huge = 2 ^ (p + 1025) := by
  have pow : ∀ a b : Nat, a = b → (2 : Nat) ^ a = 2 ^ b := fun _ _ h => by rw [h]
  have e : ∀ a b c : Nat, b = c → a * 2 ^ b = a * 2 ^ c := fun _ _ _ h => by rw [h]
  exact ⟨1073, rfl, pow 1073 1073 rfl, pow 1074 (1073 + 1) rfl, e (2 ^ 53 - 1) 1020 (1073 - 53) rfl, pow 2098 (1073 + 1025) rfl⟩

theorem hf_pos : 0 < hf := Nat.two_pow_pos _

attribute [local irreducible] one hf below huge

theorem pow_split {a b c : Nat} (h : a = b + c) : (2 : Nat) ^ a = 2 ^ b * 2 ^ c := by rw [h, Nat.pow_add]

theorem rep_mul_one {i : Nat} (h : i ≤ 2 ^ 53) : Rep (i * one) := by
  obtain ⟨p, hp, ehf, eone, ebelow, ehuge⟩ := exps
  rw [eone]
  exact .mk h

theorem dist_one (n r : Nat) : dist n 1 r = ((n : Int) - r).natAbs := by
  unfold dist
  rw [Int.natCast_one, Int.mul_one]

/-- Below 2^52, adding one half and leaving the fraction out rounds, but for one number. -/
theorem round_small {n : Nat} (hn : Rep n) (hlt : n < 2 ^ 52 * one) (hb : n ≠ below) : rnd (n + hf) 1 / one = (n + hf) / one := by
  have h1 := one_pos
  obtain ⟨p, hp, ehf, eone, ebelow, ehuge⟩ := exps
  have hI : (n + hf) / one * one ≤ n + hf := Nat.div_mul_le_self _ _
  have hI2 : n + hf < ((n + hf) / one + 1) * one := by
    rw [Nat.add_mul, Nat.one_mul, Nat.mul_comm]
    have := Nat.div_add_mod (n + hf) one
    have := Nat.mod_lt (n + hf) h1
    omega
  have hIle : (n + hf) / one ≤ 2 ^ 52 := by
    refine Nat.le_of_lt_succ ((Nat.div_lt_iff_lt_mul h1).2 ?_)
    rw [Nat.succ_mul]
    have := one_eq
    omega
  generalize hi : (n + hf) / one = I at *
  have lo : I * one ≤ rnd (n + hf) 1 := le_rnd (by decide) (rep_mul_one (Nat.le_trans hIle (by decide))) (by rw [Nat.mul_one]; exact hI)
  -- a number with 53 bits between
  have up : ∃ t, Rep t ∧ n + hf ≤ t ∧ t < (I + 1) * one := by
    by_cases h0 : I = 0
    · subst h0
      have hlt' : n < hf := by have := one_eq; omega
      have e1 : hf = 2 ^ 53 * 2 ^ (p - 53) := ehf.trans (pow_split (by omega))
      have e2 : one = 2 ^ 53 * 2 ^ (p - 52) := eone.trans (pow_split (by omega))
      have e3 : (2 : Nat) ^ (p - 52) = 2 * 2 ^ (p - 53) := by rw [← Nat.pow_succ']; congr 1; omega
      have eb := ebelow
      have g1 := gap (q := 2 ^ 53 - 1) (k := p - 53) (.inr (by decide)) hn
      have g2 := gap (q := 2 ^ 53 - 2) (k := p - 53) (.inr (by decide)) hn
      refine ⟨(2 ^ 53 - 1) * 2 ^ (p - 52), .mk (by decide), ?_, ?_⟩
      · rw [e3]
        rw [eb] at hb
        rw [e1] at hlt' ⊢
        generalize (2 : Nat) ^ (p - 53) = g at *
        omega
      · rw [e2]
        have : 0 < 2 ^ (p - 52) := Nat.two_pow_pos _
        generalize (2 : Nat) ^ (p - 52) = g at *
        omega
    · by_cases h52 : I = 2 ^ 52
      · subst h52
        have e1 : one = 2 * hf := one_eq
        have g1 := gap (q := 2 ^ 53 - 1) (k := p) (.inr (by decide)) hn
        rw [← ehf] at g1
        have := hf_pos
        refine ⟨2 ^ 52 * one, rep_mul_one (by decide), ?_, ?_⟩
        · rw [e1] at hlt ⊢
          omega
        · rw [e1]
          omega
      · have he : I.log2 ≤ 51 := by
          have : I < 2 ^ 52 := Nat.lt_of_le_of_ne hIle h52
          exact Nat.le_of_lt_succ ((Nat.log2_lt h0).2 this)
        obtain ⟨f, hf'⟩ := Nat.exists_eq_add_of_le he
        have l1 : 2 ^ I.log2 ≤ I := Nat.log2_self_le h0
        have l2 : I < 2 ^ (I.log2 + 1) := Nat.lt_log2_self
        generalize I.log2 = e at *
        -- units of the last bit
        have eh : hf = 2 ^ f * 2 ^ (p - 51 + e) := ehf.trans (pow_split (by omega))
        have eo : one = 2 ^ (f + 1) * 2 ^ (p - 51 + e) := eone.trans (pow_split (by omega))
        have p1 : (2 : Nat) ^ 52 = 2 ^ (e + 1) * 2 ^ f := pow_split (by omega)
        have p2 : (2 : Nat) ^ 53 = 2 ^ (e + 1) * 2 ^ (f + 1) := pow_split (by omega)
        have p3 : (2 : Nat) ^ (f + 1) = 2 * 2 ^ f := Nat.pow_succ'
        have p4 : (2 : Nat) ^ (e + 1) = 2 * 2 ^ e := Nat.pow_succ'
        have fp : 0 < 2 ^ f := Nat.two_pow_pos f
        have gp : 0 < 2 ^ (p - 51 + e) := Nat.two_pow_pos _
        -- (2 I + 1) / 2
        have q1 : 2 ^ 52 + 2 ^ f ≤ (2 * I + 1) * 2 ^ f := by
          rw [p1, Nat.add_mul, Nat.one_mul]
          exact Nat.add_le_add_right (Nat.mul_le_mul_right _ (by omega)) _
        have q2 : (I + 1) * 2 ^ (f + 1) ≤ 2 ^ 53 := by
          rw [p2]
          exact Nat.mul_le_mul_right _ l2
        have g1 := gap (q := (2 * I + 1) * 2 ^ f - 1) (k := p - 51 + e) (.inr (by omega)) hn
        refine ⟨((I + 1) * 2 ^ (f + 1) - 1) * 2 ^ (p - 51 + e), .mk (by omega), ?_, ?_⟩
        · rw [eo] at hI2
          rw [eh] at hI2 ⊢
          have hB : (I + 1) * (2 ^ (f + 1) * 2 ^ (p - 51 + e)) = ((2 * I + 1) * 2 ^ f + 2 ^ f) * 2 ^ (p - 51 + e) := by
            rw [← Nat.mul_assoc, p3]
            congr 1
            have : (2 * I + 1) * 2 ^ f + 2 ^ f = (2 * I + 2) * 2 ^ f := by rw [← Nat.succ_mul]
            rw [this, ← Nat.mul_assoc]
            congr 1
            omega
          rw [hB, Nat.add_mul] at hI2
          have hlt' : n < (2 * I + 1) * 2 ^ f * 2 ^ (p - 51 + e) := by omega
          have g2 : n ≤ ((2 * I + 1) * 2 ^ f - 1) * 2 ^ (p - 51 + e) := by
            rcases g1 with h | h
            · exact h
            · rw [show (2 * I + 1) * 2 ^ f - 1 + 1 = (2 * I + 1) * 2 ^ f by omega] at h
              exact absurd hlt' (Nat.not_lt.2 h)
          refine Nat.le_trans (Nat.add_le_add_right g2 _) ?_
          rw [← Nat.add_mul]
          refine Nat.mul_le_mul_right _ ?_
          have : (I + 1) * 2 ^ (f + 1) = (2 * I + 1) * 2 ^ f + 2 ^ f := by
            rw [p3, ← Nat.succ_mul, ← Nat.mul_assoc]
            congr 1
            omega
          omega
        · rw [eo, ← Nat.mul_assoc]
          have : 0 < (I + 1) * 2 ^ (f + 1) := Nat.mul_pos (Nat.succ_pos _) (Nat.two_pow_pos _)
          exact Nat.mul_lt_mul_of_pos_right (by omega) gp
  obtain ⟨t, t1, t2, t3⟩ := up
  have hi' : rnd (n + hf) 1 ≤ t := rnd_le (by decide) t1 (by rw [Nat.mul_one]; exact t2)
  refine Nat.le_antisymm (Nat.le_of_lt_succ ((Nat.div_lt_iff_lt_mul h1).2 (Nat.lt_of_le_of_lt hi' t3))) ((Nat.le_div_iff_mul_le h1).2 lo)

/-- From 2^52 on there are only integers, and adding one half gives this one or the next one. -/
theorem round_large {n : Nat} (hn : Rep n) (hge : 2 ^ 52 * one ≤ n) : ∃ N, n = N * one ∧ (n + hf) / one = N ∧ (rnd (n + hf) 1 / one = N ∨ rnd (n + hf) 1 = (N + 1) * one) := by
  have h1 := one_pos
  obtain ⟨p, hp, ehf, eone, ebelow, ehuge⟩ := exps
  have hd : ∃ N, n = N * one := by
    obtain ⟨m, j, hm, rfl⟩ := hn
    by_cases hj : p + 1 ≤ j
    · obtain ⟨i, rfl⟩ := Nat.exists_eq_add_of_le hj
      exact ⟨m * 2 ^ i, by rw [eone, Nat.pow_add, Nat.mul_comm (2 ^ (p + 1)), Nat.mul_assoc]⟩
    · have a : m * 2 ^ j < 2 ^ 53 * 2 ^ j := Nat.mul_lt_mul_of_pos_right hm (Nat.two_pow_pos _)
      have b : 2 ^ 53 * 2 ^ j ≤ 2 ^ 52 * one := by
        rw [eone, ← Nat.pow_add, ← Nat.pow_add]
        exact Nat.pow_le_pow_right (by decide) (by omega)
      omega
  obtain ⟨N, rfl⟩ := hd
  refine ⟨N, rfl, ?_, ?_⟩
  · have := one_eq
    have := hf_pos
    exact Nat.le_antisymm (Nat.le_of_lt_succ ((Nat.div_lt_iff_lt_mul h1).2 (by rw [Nat.succ_mul]; omega))) ((Nat.le_div_iff_mul_le h1).2 (by omega))
  · have lo : N * one ≤ rnd (N * one + hf) 1 := le_rnd (by decide) hn (by omega)
    have near := (rnd_nearest (N * one + hf) 1 (by decide)).near _ hn
    rw [dist_one, dist_one] at near
    clear ehf eone ebelow ehuge hge
    have e := one_eq
    have hi : rnd (N * one + hf) 1 ≤ N * one + one := by omega
    rcases Nat.lt_or_ge (rnd (N * one + hf) 1) ((N + 1) * one) with h | h
    · exact .inl (Nat.le_antisymm (Nat.le_of_lt_succ ((Nat.div_lt_iff_lt_mul h1).2 h)) ((Nat.le_div_iff_mul_le h1).2 lo))
    · refine .inr (Nat.le_antisymm ?_ h)
      rw [Nat.succ_mul]
      exact hi

/-- Adding one half does not make a number too large. -/
theorem half_fits {n : Nat} (hn : Rep n) (hlt : n < huge) : rnd (n + hf) 1 < huge := by
  obtain ⟨p, hp, ehf, eone, ebelow, ehuge⟩ := exps
  have eh : huge = 2 ^ 53 * 2 ^ (p + 972) := ehuge.trans (pow_split (by omega))
  have g1 := gap (q := 2 ^ 53 - 1) (k := p + 972) (.inr (by decide)) hn
  have near := (rnd_nearest (n + hf) 1 (by decide)).near ((2 ^ 53 - 1) * 2 ^ (p + 972)) (.mk (by decide))
  rw [dist_one, dist_one] at near
  have e : (2 : Nat) ^ (p + 972) = hf * 2 ^ 972 := by rw [ehf]; exact Nat.pow_add 2 p 972
  have p3 : 3 * hf ≤ hf * 2 ^ 972 := by
    rw [Nat.mul_comm]
    refine Nat.mul_le_mul_left _ ?_
    have : (2 : Nat) ^ 2 ≤ 2 ^ 972 := Nat.pow_le_pow_right (by decide) (by decide)
    exact Nat.le_trans (by decide) this
  rw [← e] at p3
  rw [eh] at hlt ⊢
  have := hf_pos
  clear ehf eone ebelow ehuge eh
  generalize (2 : Nat) ^ (p + 972) = g at *
  clear e hp
  generalize hr : rnd (n + hf) 1 = r at *
  omega

end PySOM.F64

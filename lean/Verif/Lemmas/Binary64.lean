import Verif.Spec.Binary64
/-!
# Rounding
-/
set_option autoImplicit false
namespace PySOM.F64
open PySOM Spec

theorem one_pos : 0 < one := Nat.two_pow_pos _
theorem huge_pos : 0 < huge := Nat.two_pow_pos _

/-- How `rnd` cuts `n / d`: `q` units of `2 ^ k`, and a rest. -/
theorem rnd_parts (n d : Nat) (hd : 0 < d) : ∃ k q r, n = q * (d * 2 ^ k) + r ∧ r < d * 2 ^ k ∧ q < 2 ^ 53 ∧ (k = 0 ∨ 2 ^ 52 ≤ q) ∧
    rnd n d = (if d * 2 ^ k < 2 * r ∨ (d * 2 ^ k = 2 * r ∧ q % 2 = 1) then q + 1 else q) * 2 ^ k := by
  refine ⟨_, _, _, (Nat.div_add_mod' n _).symm, Nat.mod_lt _ (Nat.mul_pos hd (Nat.two_pow_pos _)), ?_, ?_, rfl⟩
  · split
    · rename_i h
      rw [Nat.pow_zero, Nat.mul_one]
      exact h
    · rename_i h
      rw [← Nat.div_div_eq_div_mul]
      refine (Nat.div_lt_iff_lt_mul (Nat.two_pow_pos _)).2 ?_
      have h1 : 53 ≤ (n / d).log2 := (Nat.le_log2 (by intro h0; rw [h0] at h; exact h (Nat.two_pow_pos _))).2 (Nat.not_lt.1 h)
      rw [← Nat.pow_add, show 53 + ((n / d).log2 - 52) = (n / d).log2 + 1 by omega]
      exact Nat.lt_log2_self
  · split
    · exact .inl rfl
    · rename_i h
      refine .inr ?_
      rw [← Nat.div_div_eq_div_mul]
      refine (Nat.le_div_iff_mul_le (Nat.two_pow_pos _)).2 ?_
      have h0 : n / d ≠ 0 := by intro h0; rw [h0] at h; exact h (Nat.two_pow_pos _)
      have h1 : 53 ≤ (n / d).log2 := (Nat.le_log2 h0).2 (Nat.not_lt.1 h)
      rw [← Nat.pow_add, show 52 + ((n / d).log2 - 52) = (n / d).log2 by omega]
      exact Nat.log2_self_le h0

theorem Spec.Rep.mk {m k : Nat} (h : m ≤ 2 ^ 53) : Rep (m * 2 ^ k) := by
  by_cases h' : m = 2 ^ 53
  · exact ⟨2 ^ 52, k + 1, by decide, by rw [h', ← Nat.pow_add, ← Nat.pow_add]; congr 1; omega⟩
  · exact ⟨m, k, Nat.lt_of_le_of_ne h h', rfl⟩

/-- There is nothing between two numbers with the same exponent. -/
theorem gap {q k s : Nat} (hk : k = 0 ∨ 2 ^ 52 ≤ q) (hs : Rep s) : s ≤ q * 2 ^ k ∨ (q + 1) * 2 ^ k ≤ s := by
  obtain ⟨m, j, hm, rfl⟩ := hs
  by_cases hj : k ≤ j
  · obtain ⟨i, rfl⟩ := Nat.exists_eq_add_of_le hj
    rw [Nat.pow_add, Nat.mul_comm (2 ^ k), ← Nat.mul_assoc]
    rcases Nat.lt_or_ge q (m * 2 ^ i) with h | h
    · exact .inr (Nat.mul_le_mul_right _ h)
    · exact .inl (Nat.mul_le_mul_right _ h)
  · refine .inl ?_
    rcases hk with rfl | hq
    · exact absurd (Nat.zero_le _) hj
    · obtain ⟨i, hi⟩ := Nat.exists_eq_add_of_le (Nat.not_le.1 hj)
      have h1 : m * 2 ^ j ≤ 2 ^ 53 * 2 ^ j := Nat.mul_le_mul_right _ (Nat.le_of_lt hm)
      have h2 : 2 ^ 52 * 2 ^ k ≤ q * 2 ^ k := Nat.mul_le_mul_right _ hq
      have h3 : 2 ^ 53 * 2 ^ j ≤ 2 ^ 52 * 2 ^ k := by
        rw [← Nat.pow_add, ← Nat.pow_add]
        exact Nat.pow_le_pow_right (by decide) (by omega)
      exact Nat.le_trans h1 (Nat.le_trans h3 h2)

theorem even_iff {q k : Nat} (hq : q < 2 ^ 53) (hk : k = 0 ∨ 2 ^ 52 ≤ q) : EvenRep (q * 2 ^ k) ↔ q % 2 = 0 := by
  constructor
  · rintro ⟨m, j, hm, h⟩
    have hj : k ≤ j := by
      rcases hk with rfl | hq
      · exact Nat.zero_le _
      · refine Nat.le_of_not_lt fun hlt => ?_
        have h1 : 2 ^ 52 * 2 ^ k ≤ q * 2 ^ k := Nat.mul_le_mul_right _ hq
        have h2 : m * 2 ^ (j + 1) < 2 ^ 52 * 2 ^ (j + 1) := Nat.mul_lt_mul_of_pos_right hm (Nat.two_pow_pos _)
        have h3 : 2 ^ 52 * 2 ^ (j + 1) ≤ 2 ^ 52 * 2 ^ k := Nat.mul_le_mul_left _ (Nat.pow_le_pow_right (by decide) hlt)
        omega
    obtain ⟨i, rfl⟩ := Nat.exists_eq_add_of_le hj
    rw [show k + i + 1 = (i + 1) + k by omega, Nat.pow_add, ← Nat.mul_assoc] at h
    have := Nat.eq_of_mul_eq_mul_right (Nat.two_pow_pos k) h
    rw [this, Nat.pow_succ, ← Nat.mul_assoc]
    exact Nat.mul_mod_left _ _
  · intro h
    refine ⟨q / 2, k, by omega, ?_⟩
    rw [Nat.pow_succ, Nat.mul_comm (2 ^ k), ← Nat.mul_assoc]
    rw [show q / 2 * 2 = q by omega]

theorem even_succ {q k : Nat} (hq : q < 2 ^ 53) (hk : k = 0 ∨ 2 ^ 52 ≤ q) : EvenRep ((q + 1) * 2 ^ k) ↔ q % 2 = 1 := by
  by_cases h : q + 1 = 2 ^ 53
  · rw [h]
    refine ⟨fun _ => by omega, fun _ => ⟨2 ^ 51, k + 1, by decide, ?_⟩⟩
    rw [← Nat.pow_add, ← Nat.pow_add]
    congr 1
    omega
  · rw [even_iff (by omega) (by omega)]
    omega

/-- Rounding gives the nearest number. -/
theorem rnd_nearest (n d : Nat) (hd : 0 < d) : Nearest n d (rnd n d) := by
  obtain ⟨k, q, r, hn, hr, hq, hk, e⟩ := rnd_parts n d hd
  have key : ∀ s, Rep s → s * d ≤ q * (d * 2 ^ k) ∨ q * (d * 2 ^ k) + d * 2 ^ k ≤ s * d := fun s hs => by
    rcases gap hk hs with h | h
    · refine .inl ?_
      have := Nat.mul_le_mul_right d h
      rwa [Nat.mul_assoc, Nat.mul_comm (2 ^ k)] at this
    · refine .inr ?_
      have := Nat.mul_le_mul_right d h
      rwa [Nat.mul_assoc, Nat.mul_comm (2 ^ k), Nat.add_mul, Nat.one_mul] at this
  have lo : q * 2 ^ k * d = q * (d * 2 ^ k) := by rw [Nat.mul_assoc, Nat.mul_comm (2 ^ k)]
  have hi : (q + 1) * 2 ^ k * d = q * (d * 2 ^ k) + d * 2 ^ k := by rw [Nat.mul_assoc, Nat.mul_comm (2 ^ k), Nat.add_mul, Nat.one_mul]
  have sd : ∀ s : Nat, dist n d s = ((n : Int) - ((s * d : Nat) : Int)).natAbs := fun s => by unfold dist; rw [Int.natCast_mul]
  generalize hE : d * 2 ^ k = E at *
  generalize hQ : q * E = Q at *
  have inj : ∀ s t : Nat, s * d = t * d → s = t := fun s t h => Nat.eq_of_mul_eq_mul_right hd h
  rw [e]
  by_cases hup : E < 2 * r ∨ (E = 2 * r ∧ q % 2 = 1)
  · rw [if_pos hup]
    refine ⟨.mk (by omega), fun s hs => ?_, fun s hs hne heq => ?_⟩
    · rw [sd, sd, hi]
      have := key s hs
      omega
    · rw [sd, sd, hi] at heq
      have := key s hs
      have hne' : s * d ≠ Q + E := fun h => hne (inj _ _ (h.trans hi.symm))
      exact (even_succ hq hk).2 (by omega)
  · rw [if_neg hup]
    refine ⟨.mk (by omega), fun s hs => ?_, fun s hs hne heq => ?_⟩
    · rw [sd, sd, lo]
      have := key s hs
      omega
    · rw [sd, sd, lo] at heq
      have := key s hs
      have hne' : s * d ≠ Q := fun h => hne (inj _ _ (h.trans lo.symm))
      exact (even_iff hq hk).2 (by omega)

/-- There is one nearest number. -/
theorem nearest_unique {n d : Nat} (hd : 0 < d) {s : Nat} (h : Nearest n d s) : s = rnd n d := by
  obtain ⟨k, q, r, hn, hr, hq, hk, e⟩ := rnd_parts n d hd
  have h' := rnd_nearest n d hd
  refine Classical.byContradiction fun hne => ?_
  have h1 : dist n d s = dist n d (rnd n d) := Nat.le_antisymm (h.near _ h'.rep) (h'.near _ h.rep)
  have e1 := h.even _ h'.rep (Ne.symm hne) h1.symm
  have e2 := h'.even _ h.rep hne h1
  have key : ∀ s, Rep s → s * d ≤ q * (d * 2 ^ k) ∨ q * (d * 2 ^ k) + d * 2 ^ k ≤ s * d := fun s hs => by
    rcases gap hk hs with h | h
    · refine .inl ?_
      have := Nat.mul_le_mul_right d h
      rwa [Nat.mul_assoc, Nat.mul_comm (2 ^ k)] at this
    · refine .inr ?_
      have := Nat.mul_le_mul_right d h
      rwa [Nat.mul_assoc, Nat.mul_comm (2 ^ k), Nat.add_mul, Nat.one_mul] at this
  have lo : q * 2 ^ k * d = q * (d * 2 ^ k) := by rw [Nat.mul_assoc, Nat.mul_comm (2 ^ k)]
  have hi : (q + 1) * 2 ^ k * d = q * (d * 2 ^ k) + d * 2 ^ k := by rw [Nat.mul_assoc, Nat.mul_comm (2 ^ k), Nat.add_mul, Nat.one_mul]
  have sd : ∀ s : Nat, dist n d s = ((n : Int) - ((s * d : Nat) : Int)).natAbs := fun s => by unfold dist; rw [Int.natCast_mul]
  have kl := h.near _ (.mk (k := k) (Nat.le_of_lt hq))
  have ku := h.near _ (.mk (k := k) hq)
  have ks := key s h.rep
  have a1 := even_iff hq hk
  have a2 := even_succ hq hk
  have inj : ∀ s t : Nat, s * d = t * d → s = t := fun s t h => Nat.eq_of_mul_eq_mul_right hd h
  rw [e] at h1 e2 hne
  rw [sd, sd] at h1 kl
  rw [sd, sd] at ku
  rw [lo] at kl
  have ku' : ((n : Int) - ((s * d : Nat) : Int)).natAbs ≤ ((n : Int) - ((q * (d * 2 ^ k) + d * 2 ^ k : Nat) : Int)).natAbs := by rw [← hi]; exact ku
  clear ku key sd
  by_cases hup : d * 2 ^ k < 2 * r ∨ (d * 2 ^ k = 2 * r ∧ q % 2 = 1)
  · rw [if_pos hup] at h1 e2 hne
    rw [hi] at h1
    have hs : s * d = q * (d * 2 ^ k) := by
      have : s * d ≠ q * (d * 2 ^ k) + d * 2 ^ k := fun h => hne (inj _ _ (h.trans hi.symm))
      generalize d * 2 ^ k = E at *
      generalize q * E = Q at *
      omega
    have := inj _ _ (hs.trans lo.symm)
    rw [this] at e1
    have := a1.1 e1
    have := a2.1 e2
    omega
  · rw [if_neg hup] at h1 e2 hne
    rw [lo] at h1
    have hs : s * d = q * (d * 2 ^ k) + d * 2 ^ k := by
      have : s * d ≠ q * (d * 2 ^ k) := fun h => hne (inj _ _ (h.trans lo.symm))
      generalize d * 2 ^ k = E at *
      generalize q * E = Q at *
      omega
    have := inj _ _ (hs.trans hi.symm)
    rw [this] at e1
    have := a1.1 e2
    have := a2.1 e1
    omega

theorem rnd_rep (n d : Nat) (hd : 0 < d) : Rep (rnd n d) := (rnd_nearest n d hd).rep

theorem rnd_le {n d t : Nat} (hd : 0 < d) (ht : Rep t) (h : n ≤ t * d) : rnd n d ≤ t := by
  have h1 := (rnd_nearest n d hd).near t ht
  unfold dist at h1
  refine Nat.le_of_not_lt fun hlt => ?_
  have h2 : t * d < rnd n d * d := Nat.mul_lt_mul_of_pos_right hlt hd
  rw [← Int.natCast_mul, ← Int.natCast_mul] at h1
  omega

theorem le_rnd {n d t : Nat} (hd : 0 < d) (ht : Rep t) (h : t * d ≤ n) : t ≤ rnd n d := by
  have h1 := (rnd_nearest n d hd).near t ht
  unfold dist at h1
  refine Nat.le_of_not_lt fun hlt => ?_
  have h2 : rnd n d * d < t * d := Nat.mul_lt_mul_of_pos_right hlt hd
  rw [← Int.natCast_mul, ← Int.natCast_mul] at h1
  omega

/-- Numbers with 53 bits are not changed. -/
theorem rnd_exact {t d : Nat} (hd : 0 < d) (ht : Rep t) : rnd (t * d) d = t := Nat.le_antisymm (rnd_le hd ht (Nat.le_refl _)) (le_rnd hd ht (Nat.le_refl _))

theorem rnd_self {t : Nat} (ht : Rep t) : rnd t 1 = t := by
  have := rnd_exact (d := 1) (by decide) ht
  rwa [Nat.mul_one] at this

/-- Rounding keeps the order. -/
theorem rnd_mono {n m d : Nat} (hd : 0 < d) (h : n ≤ m) : rnd n d ≤ rnd m d := by
  have h1 := rnd_nearest n d hd
  have h2 := rnd_nearest m d hd
  refine Nat.le_of_not_lt fun hlt => ?_
  have h3 : rnd m d * d < rnd n d * d := Nat.mul_lt_mul_of_pos_right hlt hd
  have h4 := h1.near _ h2.rep
  have h5 := h2.near _ h1.rep
  unfold dist at h4 h5
  rw [← Int.natCast_mul, ← Int.natCast_mul] at h4 h5
  have : n = m := by omega
  subst this
  omega

theorem Spec.Rep.zero : Rep 0 := ⟨0, 0, by decide, rfl⟩

end PySOM.F64

import Verif.Lemmas.DoubleOps
/-!
# Square roots
-/
set_option autoImplicit false
namespace PySOM.F64
open PySOM Spec

attribute [local irreducible] one hf below huge rnd half

theorem isqrt_spec (b n : Nat) (h : n < 4 ^ b) : isqrt b n * isqrt b n ≤ n ∧ n < (isqrt b n + 1) * (isqrt b n + 1) := by
  induction b generalizing n with
  | zero =>
    have : n = 0 := by simpa using h
    subst this
    exact ⟨Nat.le_refl _, by decide⟩
  | succ b ih =>
    have h4 : n / 4 < 4 ^ b := by
      rw [Nat.pow_succ] at h
      omega
    obtain ⟨h1, h2⟩ := ih _ h4
    show (let s := 2 * isqrt b (n / 4); if (s + 1) * (s + 1) ≤ n then s + 1 else s) * (let s := 2 * isqrt b (n / 4); if (s + 1) * (s + 1) ≤ n then s + 1 else s) ≤ n ∧
      n < ((let s := 2 * isqrt b (n / 4); if (s + 1) * (s + 1) ≤ n then s + 1 else s) + 1) * ((let s := 2 * isqrt b (n / 4); if (s + 1) * (s + 1) ≤ n then s + 1 else s) + 1)
    dsimp only
    generalize isqrt b (n / 4) = t at h1 h2 ⊢
    have e1 : 2 * t * (2 * t) = 4 * (t * t) := by grind
    have e2 : (2 * t + 1 + 1) * (2 * t + 1 + 1) = 4 * ((t + 1) * (t + 1)) := by grind
    split
    · rename_i hs
      exact ⟨hs, by rw [e2]; omega⟩
    · rename_i hs
      exact ⟨by rw [e1]; omega, Nat.lt_of_not_le hs⟩

/-- The root that `sqrt` computes. -/
theorem isqrt_units (N : Nat) : isqrt (N.log2 / 2 + 1) N * isqrt (N.log2 / 2 + 1) N ≤ N ∧ N < (isqrt (N.log2 / 2 + 1) N + 1) * (isqrt (N.log2 / 2 + 1) N + 1) := by
  refine isqrt_spec _ _ (Nat.lt_of_lt_of_le Nat.lt_log2_self ?_)
  rw [show (4 : Nat) = 2 ^ 2 by decide, ← Nat.pow_mul]
  exact Nat.pow_le_pow_right (by decide) (by omega)

/-- What `sqrt` answers, with the root without fraction. -/
theorem sqrt_pos {n : Nat} (hn : n ≠ 0) : ∃ s, s * s ≤ n * one ∧ n * one < (s + 1) * (s + 1) ∧
    sqrt (.fin false n) = .ok (mk false (if s * s = n * one then rnd s 1 else rnd (2 * s + 1) 2)) := by
  refine ⟨_, (isqrt_units (n * one)).1, (isqrt_units (n * one)).2, ?_⟩
  show (if n = 0 then _ else _) = _
  rw [if_neg hn]
  rfl

theorem sq_lt {a b : Nat} (h : a * a < b * b) : a < b := Nat.lt_of_not_le fun h' => Nat.not_le.2 h (Nat.mul_le_mul h' h')
theorem sq_le {a b : Nat} (h : a * a ≤ b * b) : a ≤ b := Nat.le_of_not_lt fun h' => Nat.not_lt.2 h (Nat.mul_lt_mul_of_lt_of_lt h' h')

theorem sq_inj {a b : Nat} (h : a * a = b * b) : a = b := Nat.le_antisymm (sq_le (Nat.le_of_eq h)) (sq_le (Nat.le_of_eq h.symm))

theorem one_split : ∃ g, 0 < g ∧ one = 2 ^ 27 * g ∧ ∀ m, m ≤ 2 ^ 53 → Rep (m * g) := by
  obtain ⟨p, hp, ehf, eone, ebelow, ehuge⟩ := exps
  exact ⟨2 ^ (p - 26), Nat.two_pow_pos _, eone.trans (pow_split (by omega)), fun m hm => .mk hm⟩

/-- The root of a square. -/
theorem sqrt_square {j : Nat} (hj : j ≤ 2 ^ 53) : sqrt (.fin false (j * j * one)) = .ok (.fin false (j * one)) := by
  have h1 := one_pos
  by_cases h0 : j = 0
  · subst h0
    simp only [Nat.zero_mul]
    rfl
  · have hp : 0 < j * j * one := Nat.mul_pos (Nat.mul_pos (Nat.pos_of_ne_zero h0) (Nat.pos_of_ne_zero h0)) h1
    obtain ⟨s, a, b, e⟩ := sqrt_pos (Nat.ne_of_gt hp)
    have e1 : j * j * one * one = j * one * (j * one) := by grind
    rw [e1] at a b e
    have hs : s = j * one := by
      have := sq_le a
      have := sq_lt b
      omega
    rw [e, hs, if_pos rfl, rnd_self (rep_mul_one hj), mk_fin (small_huge hj)]

theorem root_small {j : Nat} (hj : j < 2 ^ 26) : j * 2 ^ 27 + 1 ≤ 2 ^ 53 := by
  simp only [Nat.reducePow] at *
  omega

theorem root_low {i j : Nat} (hj : j < 2 ^ 26) (hlo : j * j < i) : j * j * 2 ^ 54 + j * 2 ^ 28 + 1 ≤ i * 2 ^ 54 := by
  generalize j * j = J at *
  simp only [Nat.reducePow] at *
  omega

/-- Other roots are not integers. -/
theorem sqrt_between {i j : Nat} (hlo : j * j < i) (hhi : i < (j + 1) * (j + 1)) (hj : j < 2 ^ 26) :
    ∃ r, sqrt (.fin false (i * one)) = .ok (.fin false r) ∧ j * one < r ∧ r < (j + 1) * one := by
  have h1 := one_pos
  have hp : 0 < i * one := Nat.mul_pos (by omega) h1
  obtain ⟨s, a, b, e⟩ := sqrt_pos (Nat.ne_of_gt hp)
  obtain ⟨g, hg, eg, hrep⟩ := one_split
  have hjl : (j + 1) * 2 ^ 27 ≤ 2 ^ 53 := by omega
  have q1 : j * 2 ^ 27 + 1 ≤ 2 ^ 53 := root_small hj
  obtain ⟨k, hk⟩ : ∃ k, k + 1 = (j + 1) * 2 ^ 27 := ⟨(j + 1) * 2 ^ 27 - 1, Nat.sub_add_cancel (Nat.mul_pos (Nat.succ_pos _) (Nat.two_pow_pos _))⟩
  have eN : i * one * one = i * 2 ^ 54 * (g * g) := by rw [eg]; grind
  have t1 : (j * 2 ^ 27 + 1) * g ≤ s := by
    have hlt : (j * 2 ^ 27 + 1) * g * ((j * 2 ^ 27 + 1) * g) ≤ i * one * one := by
      have e1 : (j * 2 ^ 27 + 1) * g * ((j * 2 ^ 27 + 1) * g) = (j * j * 2 ^ 54 + j * 2 ^ 28 + 1) * (g * g) := by grind
      rw [e1, eN]
      exact Nat.mul_le_mul_right _ (root_low hj hlo)
    have := sq_lt (Nat.lt_of_le_of_lt hlt b)
    omega
  have t2 : s + 1 ≤ k * g := by
    have hlt : i * one * one < k * g * (k * g) := by
      have e1 : k * g * (k * g) = k * k * (g * g) := by grind
      rw [e1, eN]
      refine Nat.mul_lt_mul_of_pos_right ?_ (Nat.mul_pos hg hg)
      have e2 : (k + 1) * (k + 1) = (j + 1) * (j + 1) * 2 ^ 54 := by rw [hk, Nat.mul_mul_mul_comm, ← Nat.pow_add]
      have e3 : (k + 1) * (k + 1) = k * k + 2 * k + 1 := by grind
      generalize k * k = K at *
      generalize (j + 1) * (j + 1) = J at *
      omega
    exact sq_lt (Nat.lt_of_le_of_lt a hlt)
  have r1 : Rep ((j * 2 ^ 27 + 1) * g) := hrep _ q1
  have r2 : Rep (k * g) := hrep _ (Nat.le_trans (Nat.le_succ _) (Nat.le_trans (Nat.le_of_eq hk) hjl))
  have bounds : ∀ r, (j * 2 ^ 27 + 1) * g ≤ r → r ≤ k * g → j * one < r ∧ r < (j + 1) * one := fun r h h' => by
    rw [eg]
    constructor
    · have : j * (2 ^ 27 * g) + g = (j * 2 ^ 27 + 1) * g := by rw [Nat.add_mul, Nat.one_mul, Nat.mul_assoc]
      omega
    · have : k * g + g = (j + 1) * (2 ^ 27 * g) := by
        rw [← Nat.mul_assoc, ← hk, Nat.succ_mul]
      omega
  have hl : (j + 1) * one < huge := small_huge (by omega)
  by_cases hsq : s * s = i * one * one
  · rw [if_pos hsq] at e
    have l := bounds (rnd s 1) (le_rnd (by decide) r1 (by omega)) (rnd_le (by decide) r2 (by omega))
    exact ⟨_, by rw [e, mk_fin (Nat.lt_trans l.2 hl)], l⟩
  · rw [if_neg hsq] at e
    have l := bounds (rnd (2 * s + 1) 2) (le_rnd (by decide) r1 (by omega)) (rnd_le (by decide) r2 (by omega))
    exact ⟨_, by rw [e, mk_fin (Nat.lt_trans l.2 hl)], l⟩

theorem primSqrt_bind (i : Int) : primSqrt i = (ofInt i).bind fun x => (sqrt x).bind fun res => (toInt res).bind fun j => (ofInt j).bind fun y =>
    if eq res y then .ok (.inl j) else .ok (.inr res) := rfl

theorem primSqrt_square {j : Nat} (h : j ≤ 2 ^ 26) : primSqrt ((j * j : Nat) : Int) = .ok (.inl j) := by
  have hj : j ≤ 2 ^ 53 := by omega
  have hjj : j * j ≤ 2 ^ 53 := Nat.le_trans (Nat.mul_le_mul h h) (by decide)
  have ho : ofInt (j : Int) = .ok (.fin false (j * one)) := ofInt_nat (rep_mul_one hj) (small_huge hj)
  have he : eq (.fin false (j * one)) (.fin false (j * one)) = true := decide_eq_true rfl
  rw [primSqrt_bind, ofInt_nat (rep_mul_one hjj) (small_huge hjj), bind_value, sqrt_square hj, bind_value, toInt_fin, bind_value]
  show (ofInt (j : Int)).bind _ = _
  rw [ho, bind_value, if_pos he]
  rfl

theorem primSqrt_other {i : Nat} (hi : i ≤ 2 ^ 52) (hn : ∀ j, j * j ≠ i) : ∃ r, primSqrt (i : Int) = .ok (.inr r) := by
  have h1 := one_pos
  have hi' : i ≤ 2 ^ 53 := Nat.le_trans hi (by decide)
  obtain ⟨a, b⟩ := isqrt_units i
  generalize isqrt (i.log2 / 2 + 1) i = j at a b
  have hlo : j * j < i := Nat.lt_of_le_of_ne a (hn j)
  have hj : j < 2 ^ 26 := sq_lt (Nat.lt_of_lt_of_le hlo (Nat.le_trans hi (by decide)))
  obtain ⟨r, e, l1, l2⟩ := sqrt_between hlo b hj
  have hr : r / one = j := Nat.div_eq_of_lt_le (Nat.le_of_lt l1) l2
  have hj' : j ≤ 2 ^ 53 := by omega
  have ht : toInt (.fin false r) = .ok (j : Int) := by
    show Except.ok ((r / one : Nat) : Int) = _
    rw [hr]
  have he : eq (.fin false r) (.fin false (j * one)) = false := by
    show decide ((r : Int) = ((j * one : Nat) : Int)) = false
    exact decide_eq_false (by omega)
  refine ⟨.fin false r, ?_⟩
  rw [primSqrt_bind, ofInt_nat (rep_mul_one hi') (small_huge hi'), bind_value, e, bind_value, ht, bind_value, ofInt_nat (rep_mul_one hj') (small_huge hj'), bind_value, he]
  rfl

/-- `sqrt` keeps what values of `float` are. -/
theorem sqrt_ok {x y : Float} (h : sqrt x = .ok y) : Ok y := by
  cases x with
  | nan => cases h; trivial
  | inf a => cases a with
    | true => exact nomatch h
    | false => cases h; trivial
  | fin a n =>
    by_cases hn : n = 0
    · subst hn
      cases h
      exact ⟨.zero, huge_pos⟩
    · cases a with
      | true =>
        have : sqrt (.fin true n) = .error .value := by
          show (if n = 0 then _ else _) = _
          rw [if_neg hn]
          rfl
        rw [this] at h
        exact nomatch h
      | false =>
        obtain ⟨s, a, b, e⟩ := sqrt_pos hn
        rw [e] at h
        cases h
        refine mk_ok ?_
        split
        · exact rnd_rep _ _ (by decide)
        · exact rnd_rep _ _ (by decide)

/-- Large numbers with 53 bits are even. -/
theorem rep_even {t : Nat} (h : Rep t) (hl : 2 ^ 53 ≤ t) : t % 2 = 0 := by
  obtain ⟨m, k, hm, rfl⟩ := h
  cases k with
  | zero => rw [Nat.pow_zero, Nat.mul_one] at hl; exact absurd hm (Nat.not_lt.2 hl)
  | succ k => rw [Nat.pow_succ, ← Nat.mul_assoc]; exact Nat.mul_mod_left _ _

theorem mk_result (a : Bool) (r : Nat) : Result a r (mk a r) := by
  by_cases h : r < huge
  · exact .inl ⟨h, mk_fin h⟩
  · exact .inr ⟨Nat.not_lt.1 h, mk_inf (Nat.not_lt.1 h)⟩

/-- The root is rounded to the nearest. -/
theorem sqrt_nearest {n : Nat} (hn : n ≠ 0) : ∃ r x, sqrt (.fin false n) = .ok x ∧ Result false r x ∧ NearestRoot (n * one) r := by
  obtain ⟨s, a, b, e⟩ := sqrt_pos hn
  by_cases hsq : s * s = n * one
  · rw [if_pos hsq] at e
    refine ⟨_, _, e, mk_result _ _, ?_⟩
    have near := rnd_nearest s 1 (by decide)
    have key : ∀ t, Rep t → ((s : Int) - (rnd s 1 : Nat)).natAbs ≤ ((s : Int) - t).natAbs := fun t ht => by
      have := near.near t ht
      rwa [dist_one, dist_one] at this
    have rep := near.rep
    clear near
    generalize rnd s 1 = r at *
    have e4 : 4 * (n * one) = 2 * s * (2 * s) := by rw [← hsq]; grind
    refine ⟨rep, fun t ht h => ?_, fun t ht h => ?_⟩
    · have := key t ht
      rw [e4]
      exact Nat.mul_le_mul (by omega) (by omega)
    · have := key t ht
      rw [e4]
      exact Nat.mul_le_mul (by omega) (by omega)
  · rw [if_neg hsq] at e
    refine ⟨_, _, e, mk_result _ _, ?_⟩
    have near := rnd_nearest (2 * s + 1) 2 (by decide)
    have key : ∀ t, Rep t → (((2 * s + 1 : Nat) : Int) - (rnd (2 * s + 1) 2 : Nat) * 2).natAbs ≤ (((2 * s + 1 : Nat) : Int) - t * 2).natAbs := fun t ht => near.near t ht
    have rep := near.rep
    have hs : 2 ^ 54 ≤ s := by
      obtain ⟨p, hp, ehf, eone, ebelow, ehuge⟩ := exps
      have h1 : 2 ^ 54 * 2 ^ 54 ≤ n * one := by
        have : (2 : Nat) ^ 54 * 2 ^ 54 ≤ one := by rw [eone, ← Nat.pow_add]; exact Nat.pow_le_pow_right (by decide) (by omega)
        exact Nat.le_trans this (Nat.le_mul_of_pos_left _ (Nat.pos_of_ne_zero hn))
      exact Nat.le_of_lt_succ (sq_lt (Nat.lt_of_le_of_lt h1 b))
    have hr : 2 ^ 54 ≤ rnd (2 * s + 1) 2 := le_rnd (by decide) (by have := Rep.mk (m := 2 ^ 53) (k := 1) (Nat.le_refl _); rwa [← Nat.pow_succ] at this) (by
      simp only [Nat.reducePow] at *
      omega)
    have re := rep_even rep (Nat.le_trans (by decide) hr)
    have r53 : Rep (2 ^ 53) := by have := Rep.mk (m := 1) (k := 53) (by decide); rwa [Nat.one_mul] at this
    have k53 := key _ r53
    clear near
    generalize rnd (2 * s + 1) 2 = r at *
    have lo : 2 * s * (2 * s) ≤ 4 * (n * one) := by
      have : 2 * s * (2 * s) = 4 * (s * s) := by grind
      rw [this]
      exact Nat.mul_le_mul_left _ a
    have hi : 4 * (n * one) ≤ (2 * s + 2) * (2 * s + 2) := by
      have : (2 * s + 2) * (2 * s + 2) = 4 * ((s + 1) * (s + 1)) := by grind
      rw [this]
      exact Nat.mul_le_mul_left _ (Nat.le_of_lt b)
    clear a b hsq e
    refine ⟨rep, fun t ht h => ?_, fun t ht h => ?_⟩
    · have hk := key t ht
      have te := rep_even ht (Nat.le_trans (Nat.le_trans (by decide) hr) (Nat.le_of_lt h))
      have : 2 * s + 2 ≤ r + t := by clear hs hr k53 lo hi; omega
      exact Nat.le_trans hi (Nat.mul_le_mul this this)
    · have hk := key t ht
      have : r + t ≤ 2 * s := by
        by_cases hl : 2 ^ 53 ≤ t
        · have te := rep_even ht hl
          clear hs hr k53 lo hi hl
          omega
        · clear lo hi key
          simp only [Nat.reducePow] at *
          omega
      exact Nat.le_trans (Nat.mul_le_mul this this) lo

end PySOM.F64

import Verif.Lemmas.Round
/-!
# `round`, on values of `float`
-/
set_option autoImplicit false
namespace PySOM.F64
open PySOM Spec

theorem half_eq : half = .fin false hf := rfl

theorem one_lt_huge : one < huge := by
  obtain ⟨p, hp, ehf, eone, ebelow, ehuge⟩ := exps
  rw [eone, ehuge]
  exact Nat.pow_lt_pow_right (by decide) (by omega)

theorem rep_one : Rep one := by
  have := rep_mul_one (i := 1) (by decide)
  rwa [Nat.one_mul] at this

theorem rep_hf : Rep hf := by
  obtain ⟨p, hp, ehf, eone, ebelow, ehuge⟩ := exps
  have := Rep.mk (m := 1) (k := p) (by decide)
  rwa [Nat.one_mul, ← ehf] at this

attribute [local irreducible] one hf below huge rnd half

theorem mk_fin {a : Bool} {r : Nat} (h : r < huge) : mk a r = .fin a r := by unfold mk; rw [if_pos h]
theorem mk_inf {a : Bool} {r : Nat} (h : huge ≤ r) : mk a r = .inf a := by unfold mk; rw [if_neg (Nat.not_lt.2 h)]

theorem ofInt_nat {i : Nat} (h : Rep (i * one)) (hlt : i * one < huge) : ofInt i = .ok (.fin false (i * one)) := by
  have e : rnd ((i : Int).natAbs * one) 1 = i * one := by rw [Int.natAbs_natCast]; exact rnd_self h
  show finite (mk (decide ((i : Int) < 0)) (rnd ((i : Int).natAbs * one) 1)) = _
  rw [e, mk_fin hlt, decide_eq_false (Int.not_lt.2 (Int.natCast_nonneg i))]
  rfl

theorem ofUnits_pos {z : Bool} {v : Nat} (h : 0 < v) : ofUnits z (v : Int) = mk false (rnd v 1) := by
  unfold ofUnits
  rw [if_neg (by omega), decide_eq_false (by omega), Int.natAbs_natCast]

theorem ofUnits_neg {z : Bool} {v : Nat} (h : 0 < v) : ofUnits z (-(v : Int)) = mk true (rnd v 1) := by
  unfold ofUnits
  rw [if_neg (by omega), decide_eq_true (by omega), Int.natAbs_neg, Int.natAbs_natCast]

theorem add_half {n : Nat} (hn : Rep n) (hlt : n < huge) : add (.fin false n) half = .fin false (rnd (n + hf) 1) := by
  have := hf_pos
  rw [half_eq]
  show ofUnits (false && false) ((n : Int) + (hf : Int)) = _
  rw [← Int.natCast_add, ofUnits_pos (by omega), mk_fin (half_fits hn hlt)]

/-- Not more than one half is less than one. -/
theorem lt_one {z : Bool} {v : Int} (h : v ≤ hf) : lt (ofUnits z v) (.fin false one) = true := by
  have h1 := one_pos
  have h2 := one_eq
  have h3 := hf_pos
  rcases Int.lt_trichotomy v 0 with hv | rfl | hv
  · obtain ⟨m, rfl⟩ : ∃ m : Nat, v = -(m : Int) := ⟨v.natAbs, by omega⟩
    rw [ofUnits_neg (by omega)]
    by_cases hm : rnd m 1 < huge
    · rw [mk_fin hm]
      show decide (-((rnd m 1 : Nat) : Int) < (one : Int)) = true
      exact decide_eq_true (by omega)
    · rw [mk_inf (Nat.not_lt.1 hm)]
      rfl
  · unfold ofUnits
    rw [if_pos rfl]
    cases z
    · show decide ((0 : Nat) < (one : Int)) = true
      exact decide_eq_true (by omega)
    · show decide (-((0 : Nat) : Int) < (one : Int)) = true
      exact decide_eq_true (by omega)
  · obtain ⟨m, rfl⟩ : ∃ m : Nat, v = (m : Int) := ⟨v.natAbs, by omega⟩
    have hle : rnd m 1 ≤ hf := rnd_le (by decide) rep_hf (by omega)
    have hh := one_lt_huge
    rw [ofUnits_pos (by omega), mk_fin (by omega)]
    show decide (((rnd m 1 : Nat) : Int) < (one : Int)) = true
    exact decide_eq_true (by omega)

/-- The difference of an integer and a number. -/
theorem sub_units (m n : Nat) : sub (.fin false m) (.fin false n) = ofUnits false ((m : Int) - n) := by
  show ofUnits (false && !false) ((m : Int) + -(n : Int)) = _
  rw [Bool.false_and, ← Int.sub_eq_add_neg]

theorem roundDouble_bind (x : Float) : roundDouble x = (floor (add (abs x) half)).bind fun r => (ofInt r).bind fun y =>
    if lt (sub y (abs x)) (.fin false one) then copysign r x else .ok x := rfl

theorem bind_value {α β : Type} (v : α) (f : α → Except Err β) : (Except.ok v).bind f = f v := rfl

theorem primRound_bind (x : Float) : primRound x = (roundDouble x).bind toInt := rfl

theorem roundDouble_eq {a : Bool} {n I : Nat} (hn : Rep n) (hlt : n < huge) (hI : rnd (n + hf) 1 / one = I) (hr : Rep (I * one)) :
    roundDouble (.fin a n) = if lt (ofUnits false (((I * one : Nat) : Int) - n)) (.fin false one) then .ok (.fin a (I * one)) else .ok (.fin a n) := by
  have hl : I * one < huge := by
    rw [← hI]
    exact Nat.lt_of_le_of_lt (Nat.div_mul_le_self _ _) (half_fits hn hlt)
  have hf' : floor (add (.fin false n) half) = .ok (I : Int) := by
    rw [add_half hn hlt]
    show Except.ok (((rnd (n + hf) 1 : Nat) : Int) / (one : Int)) = _
    rw [← Int.natCast_ediv, hI]
  have hc : copysign (I : Int) (.fin a n) = .ok (.fin a (I * one)) := by
    show (ofInt (I : Int) >>= fun y => Except.ok (withSign y (.fin a n))) = _
    rw [ofInt_nat hr hl]
    rfl
  rw [roundDouble_bind]
  have ha : abs (.fin a n) = .fin false n := rfl
  rw [ha, hf', bind_value, ofInt_nat hr hl, bind_value, hc, sub_units]

theorem toInt_fin (a : Bool) (I : Nat) : toInt (.fin a (I * one)) = .ok (signed a I) := by
  show Except.ok (signed a (I * one / one)) = _
  rw [Nat.mul_div_cancel _ one_pos]

/-- `round` of all numbers but one. -/
theorem primRound_eq {a : Bool} {n : Nat} (hn : Rep n) (hlt : n < huge) (hb : n ≠ below) : primRound (.fin a n) = .ok (signed a ((n + hf) / one)) := by
  have h1 := one_pos
  have h2 := one_eq
  have h3 := hf_pos
  by_cases hs : n < 2 ^ 52 * one
  · have e := round_small hn hs hb
    have hIle : (n + hf) / one ≤ 2 ^ 53 := by
      refine Nat.le_of_lt ((Nat.div_lt_iff_lt_mul h1).2 ?_)
      omega
    have hI : (n + hf) / one * one ≤ n + hf := Nat.div_mul_le_self _ _
    rw [primRound_bind]
    rw [roundDouble_eq hn hlt e (rep_mul_one hIle), if_pos (lt_one (by omega))]
    exact toInt_fin _ _
  · obtain ⟨N, rfl, e, hr⟩ := round_large hn (Nat.not_lt.1 hs)
    rw [e]
    rcases hr with hr | hr
    · rw [primRound_bind]
      rw [roundDouble_eq hn hlt hr hn, if_pos (lt_one (by omega))]
      exact toInt_fin _ _
    · have hr' : rnd (N * one + hf) 1 / one = N + 1 := by rw [hr, Nat.mul_div_cancel _ h1]
      have hrep : Rep ((N + 1) * one) := hr ▸ rnd_rep _ _ (by decide)
      rw [primRound_bind]
      rw [roundDouble_eq hn hlt hr' hrep]
      have hd : (((N + 1) * one : Nat) : Int) - ((N * one : Nat) : Int) = (one : Int) := by rw [Nat.succ_mul]; omega
      have hl : lt (ofUnits false (one : Int)) (.fin false one) = false := by
        rw [ofUnits_pos h1, rnd_self rep_one, mk_fin one_lt_huge]
        show decide ((one : Int) < (one : Int)) = false
        exact decide_eq_false (Int.lt_irrefl _)
      rw [hd, hl]
      exact toInt_fin _ _

end PySOM.F64

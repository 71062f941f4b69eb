import Verif.Model.Clock
import Verif.Lemmas.DoubleOps
/-!
# C86: the clock of a program

What does not hold: when the clock of the system is set back, that of the program goes back, too.
-/
set_option autoImplicit false
namespace PySOM.Clock
open PySOM F64 F64.Spec

/-- The moment `n * 2^-1074` seconds after the epoch.  Clocks that show less than 2^60 seconds are meant. -/
def moment (n : Nat) : F64.Float := .fin false n

/-- 2^-22 seconds. -/
def grain : Nat := 2 ^ 1052

theorem rep_pow (k : Nat) : Rep (2 ^ k) := ⟨1, k, by decide, (Nat.one_mul _).symm⟩

/-- A bound for the differences, and one for the products. -/
theorem bounds : ∃ t u, Rep t ∧ Rep u ∧ 2 ^ 60 * one ≤ t ∧ t * 2 ^ 20 ≤ u ∧ t < huge ∧ u < huge :=
  ⟨2 ^ 1134, 2 ^ 1154, rep_pow _, rep_pow _, by decide +kernel, by decide +kernel, by decide +kernel, by decide +kernel⟩

theorem one_grain : one = 2 ^ 22 * grain ∧ 0 < grain ∧ 0 < one := by decide +kernel

theorem rep_grain {m : Nat} (h : m ≤ 2 ^ 53) : Rep (m * grain) := by
  unfold grain
  exact Rep.mk h

theorem rnd_zero : rnd 0 1 = 0 := rnd_self Rep.zero

theorem factor_ok (f : Nat) (h : f = 1000 ∨ f = 1000000) : ofInt f = .ok (.fin false (f * one)) := by
  rcases h with rfl | rfl <;> decide +kernel

attribute [local irreducible] one huge rnd grain

theorem sub_moment {s n : Nat} (h : s ≤ n) (hn : n ≤ 2 ^ 60 * one) : sub (moment n) (moment s) = .fin false (rnd (n - s) 1) := by
  have hv : signed false n + signed (!false) s = ((n - s : Nat) : Int) := by
    show (n : Int) + -(s : Int) = _
    omega
  show ofUnits (false && !false) (signed false n + signed (!false) s) = _
  rw [hv]
  unfold ofUnits
  by_cases h0 : n - s = 0
  · rw [h0, if_pos (by rfl), rnd_zero]; rfl
  · rw [if_neg (by omega), show decide (((n - s : Nat) : Int) < 0) = false from decide_eq_false (by omega), Int.natAbs_natCast]
    unfold mk
    obtain ⟨t, -, ht, -, h1, -, h2, -⟩ := bounds
    have h3 : rnd (n - s) 1 ≤ t := rnd_le (by decide) ht (by rw [Nat.mul_one]; exact Nat.le_trans (Nat.sub_le _ _) (Nat.le_trans hn h1))
    rw [if_pos (Nat.lt_of_le_of_lt h3 h2)]

theorem rnd_scale (a : Nat) {c : Nat} (hc : 0 < c) : rnd (a * c) c = rnd a 1 := by
  have hd : ∀ r, dist (a * c) c r = dist a 1 r * c := fun r => by
    unfold dist
    rw [Int.natCast_mul, ← Int.sub_mul, Int.natAbs_mul, Int.natAbs_natCast, Int.natCast_one, Int.mul_one]
  have h := rnd_nearest a 1 (by decide)
  refine (nearest_unique hc ⟨h.rep, fun s hs => ?_, fun s hs hne he => h.even s hs hne ?_⟩).symm
  · rw [hd, hd]
    exact Nat.mul_le_mul_right c (h.near s hs)
  · rw [hd, hd] at he
    exact Nat.eq_of_mul_eq_mul_right hc he

theorem ok_bind {α β : Type} (x : α) (g : α → Except Err β) : (Except.ok x >>= g) = g x := rfl

theorem toInt_pos (r : Nat) : toInt (.fin false r) = .ok ((r / one : Nat) : Int) := rfl

theorem mk_pos {r : Nat} (h : r < huge) : mk (false != false) r = .fin false r := if_pos h

/-- What both primitives answer. -/
theorem since_value {s n f : Nat} (hf : f = 1000 ∨ f = 1000000) (h : s ≤ n) (hn : n ≤ 2 ^ 60 * one) : sinceStart f (moment s) (moment n) = .ok ((rnd (rnd (n - s) 1 * f) 1 / one : Nat) : Int) := by
  have hx : mul (.fin false (rnd (n - s) 1)) (.fin false (f * one)) = .fin false (rnd (rnd (n - s) 1 * f) 1) := by
    unfold mul
    dsimp only
    rw [← Nat.mul_assoc, rnd_scale _ one_grain.2.2]
    obtain ⟨t, u, ht, hu, h1, h2, -, h3⟩ := bounds
    have h4 : rnd (n - s) 1 ≤ t := rnd_le (by decide) ht (by rw [Nat.mul_one]; exact Nat.le_trans (Nat.sub_le _ _) (Nat.le_trans hn h1))
    have h5 : rnd (rnd (n - s) 1 * f) 1 ≤ u := rnd_le (by decide) hu (by
      rw [Nat.mul_one]
      exact Nat.le_trans (Nat.mul_le_mul h4 (by rcases hf with rfl | rfl <;> decide)) h2)
    exact mk_pos (Nat.lt_of_le_of_lt h5 h3)
  unfold sinceStart
  rw [factor_ok f hf, sub_moment h hn]
  rw [ok_bind, hx, toInt_pos]

/-- C86: both answer the number of milliseconds and of microseconds since the start: the difference and then the product are rounded to the nearest Double, and the fraction is left out. -/
theorem C86_value {s n : Nat} (h : s ≤ n) (hn : n ≤ 2 ^ 60 * one) : ∃ d ms us, Nearest (n - s) 1 d ∧ Nearest (d * 1000) 1 ms ∧ Nearest (d * 1000000) 1 us ∧
    primTime (moment s) (moment n) = .ok ((ms / one : Nat) : Int) ∧ primTicks (moment s) (moment n) = .ok ((us / one : Nat) : Int) :=
  ⟨_, _, _, rnd_nearest _ _ (by decide), rnd_nearest _ _ (by decide), rnd_nearest _ _ (by decide), since_value (f := 1000) (.inl rfl) h hn, since_value (f := 1000000) (.inr rfl) h hn⟩

/-- C86: at the start, both are 0. -/
theorem C86_start {s : Nat} (hs : s ≤ 2 ^ 60 * one) : primTime (moment s) (moment s) = .ok 0 ∧ primTicks (moment s) (moment s) = .ok 0 := by
  have h0 : rnd (rnd (s - s) 1 * 1000) 1 = 0 ∧ rnd (rnd (s - s) 1 * 1000000) 1 = 0 := by rw [Nat.sub_self, rnd_zero, Nat.zero_mul, rnd_zero]; exact ⟨rfl, rfl⟩
  refine ⟨(since_value (f := 1000) (.inl rfl) (Nat.le_refl _) hs).trans ?_, (since_value (f := 1000000) (.inr rfl) (Nat.le_refl _) hs).trans ?_⟩
  · rw [h0.1, Nat.zero_div]; rfl
  · rw [h0.2, Nat.zero_div]; rfl

/-- C86, partial: as long as the clock of the system does not go back, neither `time` nor `ticks` does, and neither is negative.  Missing: the same when the system's clock is set back. -/
theorem C86_forward_partial {s n m : Nat} (h : s ≤ n) (hnm : n ≤ m) (hm : m ≤ 2 ^ 60 * one) : ∃ i j i' j' : Nat, primTime (moment s) (moment n) = .ok i ∧ primTime (moment s) (moment m) = .ok j ∧ i ≤ j ∧
    primTicks (moment s) (moment n) = .ok i' ∧ primTicks (moment s) (moment m) = .ok j' ∧ i' ≤ j' := by
  have hn : n ≤ 2 ^ 60 * one := Nat.le_trans hnm hm
  have key : ∀ f, rnd (rnd (n - s) 1 * f) 1 / one ≤ rnd (rnd (m - s) 1 * f) 1 / one := fun f =>
    Nat.div_le_div_right (rnd_mono (by decide) (Nat.mul_le_mul_right f (rnd_mono (by decide) (Nat.sub_le_sub_right hnm s))))
  exact ⟨_, _, _, _, since_value (f := 1000) (.inl rfl) h hn, since_value (f := 1000) (.inl rfl) (Nat.le_trans h hnm) hm, key _, since_value (f := 1000000) (.inr rfl) h hn,
    since_value (f := 1000000) (.inr rfl) (Nat.le_trans h hnm) hm, key _⟩

/-- C86: between clocks that show multiples of 2^-22 seconds, as Doubles for the years from 2004 to 2038 are, nothing is lost in the first 34 minutes: both answer the exact number of milliseconds and microseconds, and a
millisecond has a thousand ticks. -/
theorem C86_exact {a b : Nat} (h : b ≤ a) (hd : a - b ≤ 2 ^ 33) (ha : a ≤ 2 ^ 82) : primTime (moment (b * grain)) (moment (a * grain)) = .ok (((a - b) * 1000 / 2 ^ 22 : Nat) : Int) ∧
    primTicks (moment (b * grain)) (moment (a * grain)) = .ok (((a - b) * 1000000 / 2 ^ 22 : Nat) : Int) ∧ (a - b) * 1000 / 2 ^ 22 = (a - b) * 1000000 / 2 ^ 22 / 1000 := by
  have h1 := one_grain.1
  have hle : b * grain ≤ a * grain := Nat.mul_le_mul_right _ h
  have hn : a * grain ≤ 2 ^ 60 * one := by
    rw [h1, ← Nat.mul_assoc]
    exact Nat.mul_le_mul_right _ (by rw [← Nat.pow_add]; exact ha)
  have key : ∀ f, f ≤ 1000000 → rnd (rnd (a * grain - b * grain) 1 * f) 1 / one = (a - b) * f / 2 ^ 22 := by
    intro f hf
    rw [← Nat.sub_mul, rnd_self (rep_grain (Nat.le_trans hd (by decide))), Nat.mul_right_comm, rnd_self (rep_grain ?_), h1, Nat.mul_div_mul_right _ _ one_grain.2.1]
    exact Nat.le_trans (Nat.mul_le_mul hd hf) (by decide)
  refine ⟨(since_value (f := 1000) (.inl rfl) hle hn).trans ?_, (since_value (f := 1000000) (.inr rfl) hle hn).trans ?_, ?_⟩
  · rw [key 1000 (by decide)]
  · rw [key 1000000 (by decide)]
  · rw [Nat.div_div_eq_div_mul, show (a - b) * 1000000 = (a - b) * 1000 * 1000 by omega, Nat.mul_comm (2 ^ 22) 1000, Nat.mul_comm _ 1000, Nat.mul_comm _ 1000, Nat.mul_div_mul_left _ _ (by decide)]

/-- 1.5 seconds after a start in November 2025; and C86 violated: the clock of the system is set back by a second, and that of the program goes back, even behind its start. -/
theorem C86_violated_set_back : primTime (moment (1763430000 * one)) (moment (1763430001 * one + one / 2)) = .ok 1500 ∧ primTime (moment (1763430000 * one)) (moment (1763430000 * one + one / 2)) = .ok 500 ∧
    primTime (moment (1763430000 * one)) (moment (1763429999 * one)) = .ok (-1000) := by decide +kernel

/-- The premises of the theorems hold for such moments. -/
example : 1763430000 * one ≤ 1763430001 * one + one / 2 ∧ 1763430001 * one + one / 2 ≤ 2 ^ 60 * one ∧ 1763430000 * one = 1763430000 * 2 ^ 22 * grain ∧ 1763430000 * 2 ^ 22 ≤ 2 ^ 82 := by decide +kernel

end PySOM.Clock

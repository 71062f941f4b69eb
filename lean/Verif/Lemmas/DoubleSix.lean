import Verif.Lemmas.DoubleCompare
/-!
# The comparisons, for the operations of binary64

The operations are kept apart from what they are: `Same fo` says that `fo` are the ones of binary64.
-/
set_option autoImplicit false
namespace PySOM.F64
open PySOM Spec

structure Same (fo : Num.FloatOps Float) : Prop where
  ofInt : fo.ofInt = ofInt
  lt : fo.lt = lt
  le : fo.le = le
  gt : ∀ x y, fo.gt x y = F64.lt y x
  ge : ∀ x y, fo.ge x y = F64.le y x
  eq : fo.eq = eq
  eqInt : fo.eqInt = eqInt

attribute [local irreducible] one hf below huge rnd half ofInt lt le eq eqInt

theorem same_ops : Same ops.toFloatOps := ⟨rfl, rfl, rfl, fun _ _ => rfl, fun _ _ => rfl, rfl, rfl⟩

theorem tells_not {v : Bool} {P : Prop} (h : v = true ↔ P) : (!v) = true ↔ ¬ P := by
  rw [← h]
  cases v <;> decide

open PySOM.Num

variable {fo : FloatOps Float}

/-- The six comparisons of two values answer what the order of two numbers says. -/
def Compared (fo : FloatOps Float) (x y : Num Float) (a b : Ext) : Prop :=
  Tells (primLessThan .cpython fo x y) (a.lt b) ∧ Tells (primGreater .cpython fo x y) (b.lt a) ∧
  Tells (primLessEq .cpython fo x y) (¬ b.lt a) ∧ Tells (primGreaterEq .cpython fo x y) (¬ a.lt b) ∧
  Tells (primEquals .cpython fo x y) (a = b) ∧ Tells (primUnequals .cpython fo x y) (a ≠ b)

theorem tells_bind {r : Except Err Float} {z : Float} (c : r = .ok z) {f : Float → Bool} {P : Prop} (h : f z = true ↔ P) : Tells (r >>= fun z => .ok (f z)) P := by
  subst c
  exact ⟨_, rfl, h⟩

theorem compared_int (fo : FloatOps Float) (i j : Int) : Compared fo (.int i) (.int j) (.units (i * one)) (.units (j * one)) := by
  have l : ∀ i j : Int, (Ext.units (i * one)).lt (.units (j * one)) ↔ i < j := fun _ _ => mul_one_lt
  have e : Ext.units (i * one) = Ext.units (j * one) ↔ i = j := by rw [Ext.units.injEq]; exact mul_one_inj
  refine ⟨?_, ?_, ?_, ?_, ?_, ?_⟩
  · exact ⟨decide (i < j), rfl, decide_eq_true_iff.trans (l i j).symm⟩
  · exact ⟨decide (i > j), rfl, decide_eq_true_iff.trans (l j i).symm⟩
  · exact ⟨decide (i ≤ j), rfl, decide_eq_true_iff.trans (Int.not_lt.symm.trans (not_congr (l j i).symm))⟩
  · exact ⟨decide (i ≥ j), rfl, decide_eq_true_iff.trans (Int.not_lt.symm.trans (not_congr (l i j).symm))⟩
  · exact ⟨decide (i = j), rfl, decide_eq_true_iff.trans e.symm⟩
  · exact ⟨decide (i ≠ j), rfl, decide_eq_true_iff.trans (not_congr e.symm)⟩

theorem compared_int_dbl (hf : Same fo) {i : Int} {d : Float} {b : Ext} (sx : Small (.int i)) (hy : number (.dbl d) = some b) : Compared fo (.int i) (.dbl d) (.units (i * one)) b := by
  obtain ⟨x, ex, hx⟩ := small_number sx
  have c : fo.ofInt i = .ok x := by rw [hf.ofInt, ex]
  refine ⟨?_, ?_, ?_, ?_, ?_, ?_⟩
  · exact tells_bind (f := fun x => fo.lt x d) c (by rw [hf.lt]; exact lt_number hx hy)
  · exact tells_bind (f := fun x => fo.gt x d) c (by rw [hf.gt]; exact lt_number hy hx)
  · exact tells_bind (f := fun x => fo.le x d) c (by rw [hf.le]; exact le_number hx hy)
  · exact tells_bind (f := fun x => fo.ge x d) c (by rw [hf.ge]; exact le_number hy hx)
  · exact ⟨fo.eqInt i d, rfl, by rw [hf.eqInt]; exact eqInt_number hy⟩
  · exact ⟨!fo.eqInt i d, rfl, by rw [hf.eqInt]; exact tells_not (eqInt_number hy)⟩

theorem compared_dbl (hf : Same fo) {d z : Float} {y : Num Float} {a b : Ext} (hx : number (.dbl d) = some a) (c : getFloat .cpython fo y = .ok z) (hz : number (.dbl z) = some b) :
    Compared fo (.dbl d) y a b := by
  refine ⟨?_, ?_, ?_, ?_, ?_, ?_⟩
  · exact tells_bind (f := fun z => fo.lt d z) c (by rw [hf.lt]; exact lt_number hx hz)
  · exact tells_bind (f := fun z => fo.gt d z) c (by rw [hf.gt]; exact lt_number hz hx)
  · exact tells_bind (f := fun z => fo.le d z) c (by rw [hf.le]; exact le_number hx hz)
  · exact tells_bind (f := fun z => fo.ge d z) c (by rw [hf.ge]; exact le_number hz hx)
  · exact tells_bind (f := fun z => fo.eq d z) c (by rw [hf.eq]; exact eq_number hx hz)
  · exact tells_bind (f := fun z => !fo.eq d z) c (by rw [hf.eq]; exact tells_not (eq_number hx hz))

theorem getFloat_small (hf : Same fo) {y : Num Float} (sy : Small y) : ∃ z, getFloat .cpython fo y = .ok z ∧ number (.dbl z) = number y := by
  cases y with
  | big _ => exact sy.elim
  | obj _ => exact sy.elim
  | int j =>
    obtain ⟨z, c, hz⟩ := small_number sy
    exact ⟨z, by rw [← hf.ofInt] at c; exact c, hz⟩
  | dbl z => exact ⟨z, rfl, rfl⟩

theorem compared_small (hf : Same fo) {x y : Num Float} {a b : Ext} (hx : number x = some a) (hy : number y = some b) (sx : Small x) (sy : Small y) : Compared fo x y a b := by
  cases x with
  | big _ => exact sx.elim
  | obj _ => exact sx.elim
  | int i =>
    cases hx
    cases y with
    | big _ => exact sy.elim
    | obj _ => exact sy.elim
    | int j =>
      cases hy
      exact compared_int fo i j
    | dbl d => exact compared_int_dbl hf sx hy
  | dbl d =>
    obtain ⟨z, c, hz⟩ := getFloat_small hf sy
    exact compared_dbl hf hx c (hz.trans hy)

theorem says_yes {r : Except Err Float} {f : Float → Bool} (h : (r >>= fun x => Except.ok (f x)) = .ok true) : ∃ x, r = .ok x ∧ f x = true := by
  cases r with
  | error _ => exact nomatch h
  | ok x => exact ⟨x, rfl, Except.ok.inj h⟩

theorem less_yes (hf : Same fo) {i : Int} {y : Float} {b : Ext} (hy : Ok y) (hb : number (.dbl y) = some b) :
    (primLessThan .cpython fo (.int i) (.dbl y) = .ok true → (Ext.units (i * one)).lt b) ∧
    (primGreater .cpython fo (.int i) (.dbl y) = .ok true → b.lt (Ext.units (i * one))) ∧
    (primLessThan .cpython fo (.dbl y) (.int i) = .ok true → b.lt (Ext.units (i * one))) ∧
    (primGreater .cpython fo (.dbl y) (.int i) = .ok true → (Ext.units (i * one)).lt b) := by
  refine ⟨fun h => ?_, fun h => ?_, fun h => ?_, fun h => ?_⟩
  · obtain ⟨x, e, l⟩ := says_yes (r := fo.ofInt i) (f := fun x => fo.lt x y) h
    rw [hf.ofInt] at e
    rw [hf.lt] at l
    exact (ofInt_lt e hy hb).1 l
  · obtain ⟨x, e, l⟩ := says_yes (r := fo.ofInt i) (f := fun x => fo.gt x y) h
    rw [hf.ofInt] at e
    rw [hf.gt] at l
    exact (ofInt_lt e hy hb).2 l
  · obtain ⟨x, e, l⟩ := says_yes (r := fo.ofInt i) (f := fun x => fo.lt y x) h
    rw [hf.ofInt] at e
    rw [hf.lt] at l
    exact (ofInt_lt e hy hb).2 l
  · obtain ⟨x, e, l⟩ := says_yes (r := fo.ofInt i) (f := fun x => fo.gt y x) h
    rw [hf.ofInt] at e
    rw [hf.gt] at l
    exact (ofInt_lt e hy hb).1 l

theorem equal_int (hf : Same fo) {i : Int} {y : Float} {b : Ext} (hb : number (.dbl y) = some b) :
    Tells (primEquals .cpython fo (.int i) (.dbl y)) (Ext.units (i * one) = b) ∧ Tells (primUnequals .cpython fo (.int i) (.dbl y)) (Ext.units (i * one) ≠ b) :=
  ⟨⟨fo.eqInt i y, rfl, by rw [hf.eqInt]; exact eqInt_number hb⟩, ⟨!fo.eqInt i y, rfl, by rw [hf.eqInt]; exact tells_not (eqInt_number hb)⟩⟩

theorem lt_nan (z : Float) : F64.lt z .nan = false := by unfold F64.lt; cases z <;> rfl
theorem nan_lt (z : Float) : F64.lt .nan z = false := by unfold F64.lt; cases z <;> rfl
theorem eq_nan (z : Float) : F64.eq z .nan = false := by unfold F64.eq; cases z <;> rfl
theorem nan_eq (z : Float) : F64.eq .nan z = false := by unfold F64.eq; cases z <;> rfl
theorem le_nan (z : Float) : F64.le z .nan = false := by unfold F64.le; rw [lt_nan, eq_nan]; rfl
theorem nan_le (z : Float) : F64.le .nan z = false := by unfold F64.le; rw [nan_lt, nan_eq]; rfl

theorem bind_const {r : Except Err Float} {z : Float} (c : r = .ok z) {f : Float → Bool} {v : Bool} (h : f z = v) : (r >>= fun z => Except.ok (f z)) = .ok v := by
  subst c h
  rfl

theorem nan_compared (hf : Same fo) {y : Num Float} (hy : Small y) :
    primLessThan .cpython fo (.dbl .nan) y = .ok false ∧ primGreater .cpython fo (.dbl .nan) y = .ok false ∧
    primLessEq .cpython fo (.dbl .nan) y = .ok false ∧ primGreaterEq .cpython fo (.dbl .nan) y = .ok false ∧
    primEquals .cpython fo (.dbl .nan) y = .ok false ∧ primUnequals .cpython fo (.dbl .nan) y = .ok true := by
  obtain ⟨z, c, -⟩ := getFloat_small hf hy
  refine ⟨?_, ?_, ?_, ?_, ?_, ?_⟩
  · exact bind_const c (f := fun z => fo.lt .nan z) (by rw [hf.lt]; exact nan_lt z)
  · exact bind_const c (f := fun z => fo.gt .nan z) (by rw [hf.gt]; exact lt_nan z)
  · exact bind_const c (f := fun z => fo.le .nan z) (by rw [hf.le]; exact nan_le z)
  · exact bind_const c (f := fun z => fo.ge .nan z) (by rw [hf.ge]; exact le_nan z)
  · exact bind_const c (f := fun z => fo.eq .nan z) (by rw [hf.eq]; exact nan_eq z)
  · exact bind_const c (f := fun z => !fo.eq .nan z) (by rw [hf.eq, nan_eq]; rfl)

end PySOM.F64

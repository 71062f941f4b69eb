import Verif.Model.Hash
/-!
# C88: equal objects have equal hash codes

This is what dictionaries and sets rely on.  It holds for texts and for objects that are compared by identity, but not for numbers.
-/
set_option autoImplicit false
namespace PySOM.Hash
open PySOM PySOM.Num

variable {F : Type} {p : Platform} {fo : FloatOps F} {ident : Nat → Int} {hash : List Char → Int}

/-- Two objects of one run: at one address there is one object. -/
def Together (a b : Obj F) : Prop := a.addr = b.addr → a = b

/-- C88, partial: if the receiver is no number and `=` answers true, the hash codes are the same.  Missing: numbers. -/
theorem C88_equal_partial {a b : Obj F} (h : Together a b) (ha : ∀ n, a.val ≠ .num n) (he : equals p fo a b = .ok true) : hashcode ident hash a = hashcode ident hash b := by
  obtain ⟨aa, av⟩ := a
  obtain ⟨ba, bv⟩ := b
  cases av with
  | num n => exact absurd rfl (ha n)
  | plain => rw [h (of_decide_eq_true (Except.ok.inj he))]
  | str s =>
    cases bv with
    | str t => exact congrArg hash (of_decide_eq_true (Except.ok.inj he))
    | sym t => exact congrArg hash (of_decide_eq_true (Except.ok.inj he))
    | num n => cases he
    | plain => cases he
  | sym s =>
    cases bv with
    | str t => exact congrArg hash (of_decide_eq_true (Except.ok.inj he))
    | sym t =>
      by_cases hst : s = t
      · exact congrArg hash hst
      · have h2 : (if s = t then Except.ok true else Except.ok (decide (s = t)) : Except Err Bool) = .ok true := he
        rw [if_neg hst, decide_eq_false hst] at h2
        cases h2
    | num n => cases he
    | plain => cases he

/-- C88: for texts, `=` answers whether the characters are the same, and only these count for the hash code. -/
theorem C88_texts {a b : Obj F} {s t : List Char} (ha : a.val = .str s ∨ a.val = .sym s) (hb : b.val = .str t ∨ b.val = .sym t) :
    equals p fo a b = .ok (decide (s = t)) ∧ hashcode ident hash a = hash s := by
  obtain ⟨aa, av⟩ := a
  obtain ⟨ba, bv⟩ := b
  rcases ha with rfl | rfl <;> rcases hb with rfl | rfl
  · exact ⟨rfl, rfl⟩
  · exact ⟨rfl, rfl⟩
  · exact ⟨rfl, rfl⟩
  · refine ⟨?_, rfl⟩
    show (if s = t then Except.ok true else Except.ok (decide (s = t)) : Except Err Bool) = _
    by_cases hst : s = t
    · rw [if_pos hst, decide_eq_true hst]
    · rw [if_neg hst]

/-- C88: objects of their own have different hash codes if the identities have. -/
theorem C88_identity (hi : ∀ i j, ident i = ident j → i = j) {a b : Obj F} (ha : a.val = .plain) (hb : b.val = .plain) (he : equals p fo a b = .ok false) : hashcode ident hash a ≠ hashcode ident hash b := by
  obtain ⟨aa, av⟩ := a
  obtain ⟨ba, bv⟩ := b
  cases ha
  cases hb
  exact fun h => of_decide_eq_false (Except.ok.inj he) (hi _ _ h)

/-- The whole number that an object holds, if any. -/
def Obj.whole (o : Obj F) : Option Int := match o.val with
  | .num (.int k) => some k
  | .num (.big k) => some k
  | _ => none

/-- C88: `==` of Integers is by value; it is by identity for all other receivers, also for Doubles. -/
theorem C88_identical (a b : Obj F) : (a.whole = none → identical p fo a b = .ok (decide (a.addr = b.addr))) ∧
    ∀ k, a.whole = some k → ∀ r, identical p fo a b = .ok r → (r = true ↔ b.whole = some k) := by
  obtain ⟨aa, av⟩ := a
  obtain ⟨ba, bv⟩ := b
  refine ⟨fun h => ?_, fun k hk r hr => ?_⟩
  · rcases av with (_ | _ | _ | _) | _ | _ | _ <;> first | rfl | cases h
  · rcases av with (k' | k' | _ | _) | _ | _ | _ <;> cases hk <;> cases p <;> rcases bv with (m | m | _ | _) | _ | _ | _ <;>
      first
      | (have h2 : (Except.error Err.attribute : Except Err Bool) = .ok r := hr
         cases h2)
      | (have h2 : (Except.ok (decide (k = m)) : Except Err Bool) = .ok r := hr
         cases h2
         rw [decide_eq_true_iff]
         exact ⟨fun e => congrArg some e.symm, fun e => (Option.some.inj e).symm⟩)
      | (have h2 : (Except.ok false : Except Err Bool) = .ok r := hr
         cases h2
         exact ⟨fun e => (nomatch e), fun e => (nomatch e)⟩)

/-- C88, partial: if the receiver is no whole number and `==` answers true, the hash codes are the same.  Missing: Integers. -/
theorem C88_identical_partial {a b : Obj F} (h : Together a b) (ha : a.whole = none) (he : identical p fo a b = .ok true) : hashcode ident hash a = hashcode ident hash b := by
  rw [(C88_identical a b).1 ha] at he
  rw [h (of_decide_eq_true (Except.ok.inj he))]

/-- C88 violated: even `==` answers true for two Integers whose hash codes differ. -/
theorem C88_violated_identical (hi : ∀ i j, ident i = ident j → i = j) {i j : Nat} (hij : i ≠ j) (k : Int) :
    identical p fo (⟨i, .num (.int k)⟩ : Obj F) ⟨j, .num (.int k)⟩ = .ok true ∧ hashcode ident hash (⟨i, .num (.int k)⟩ : Obj F) ≠ hashcode ident hash (⟨j, .num (.int k)⟩ : Obj F) := by
  refine ⟨?_, fun h => hij (hi i j h)⟩
  show (Except.ok (decide (k = k)) : Except Err Bool) = _
  rw [decide_eq_true rfl]

/-- C88 violated, for all Doubles but NaN and all Integers: two objects with the same number are equal, and their hash codes differ. -/
theorem C88_violated_numbers (hi : ∀ i j, ident i = ident j → i = j) {i j : Nat} (hij : i ≠ j) :
    (∀ x : F, fo.eq x x = true → equals p fo ⟨i, .num (.dbl x)⟩ ⟨j, .num (.dbl x)⟩ = .ok true ∧ hashcode ident hash ⟨i, .num (.dbl x)⟩ ≠ hashcode ident hash (⟨j, .num (.dbl x)⟩ : Obj F)) ∧
    ∀ k : Int, equals p fo (⟨i, .num (.int k)⟩ : Obj F) ⟨j, .num (.int k)⟩ = .ok true ∧ hashcode ident hash (⟨i, .num (.int k)⟩ : Obj F) ≠ hashcode ident hash (⟨j, .num (.int k)⟩ : Obj F) := by
  refine ⟨fun x hx => ⟨?_, fun h => hij (hi i j h)⟩, fun k => ⟨?_, fun h => hij (hi i j h)⟩⟩
  · show (do .ok (fo.eq x (← getFloat p fo (.dbl x))) : Except Err Bool) = _
    show (Except.ok (fo.eq x x) : Except Err Bool) = _
    rw [hx]
  · show (Except.ok (decide (k = k)) : Except Err Bool) = _
    rw [decide_eq_true rfl]

example (fo : FloatOps F) (hash : List Char → Int) : hashcode (F := F) (fun i => i) hash ⟨1, .str "ab".toList⟩ = hashcode (fun i => i) hash (⟨2, .sym "ab".toList⟩ : Obj F) :=
  C88_equal_partial (p := .cpython) (fo := fo) (fun h => absurd (show (1 : Nat) = 2 from h) (Nat.ne_of_lt (Nat.lt_succ_self 1))) (fun _ h => (nomatch h)) (by rfl)

example (fo : FloatOps F) (x : F) : identical .cpython fo ⟨1, .num (.int 7)⟩ ⟨2, .num (.int 7)⟩ = .ok true ∧ identical .cpython fo ⟨1, .num (.dbl x)⟩ ⟨2, .num (.dbl x)⟩ = .ok false ∧
    hashcode (F := F) (fun i => i) (fun _ => 0) ⟨1, .num (.int 7)⟩ = 1 := ⟨rfl, rfl, rfl⟩

end PySOM.Hash

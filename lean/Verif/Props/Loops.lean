import Verif.Spec.Loops
import Verif.Lemmas.Array
/-!
# Properties C38 (counting loops), C39 (while loops) and C52 (array iteration)
-/
set_option autoImplicit false
namespace PySOM.Loop
open PySOM

variable {E σ : Type}

theorem progression_succ (i step : Int) (m : Nat) :
    Spec.progression i step (m + 1) = i :: Spec.progression (i + step) step m := by
  simp only [Spec.progression, List.range_succ_eq_map, List.map_cons, List.map_map]
  congr 1
  · simp
  · apply List.map_congr_left
    intro k _
    simp only [Function.comp, Int.natCast_succ, Int.add_mul]; omega

/-- Enough fuel: the loop is the fold. -/
theorem toDo_each (p : Platform) (step : Int) (cont : Int → Bool) (body : Int → σ → Res E σ Unit) (m : Nat) :
    ∀ (i : Int), (∀ k : Nat, k < m → cont (i + k * step) = true) → cont (i + m * step) = false →
    (∀ k : Nat, k < m → wrap p (i + k * step + step) = i + k * step + step) →
    ∀ fuel, m < fuel → ∀ s, toDo p step cont body fuel i s = Spec.each body (Spec.progression i step m) s := by
  induction m with
  | zero =>
    intro i _ h2 _ fuel hf s
    obtain ⟨n, rfl⟩ : ∃ n, fuel = n + 1 := ⟨fuel - 1, by omega⟩
    simp only [Int.natCast_zero, Int.zero_mul, Int.add_zero] at h2
    simp [toDo, h2, Spec.progression, Spec.each]
  | succ m ih =>
    intro i h1 h2 h3 fuel hf s
    obtain ⟨n, rfl⟩ : ∃ n, fuel = n + 1 := ⟨fuel - 1, by omega⟩
    have hc : cont i = true := by have := h1 0 (by omega); simpa using this
    have hw : wrap p (i + step) = i + step := by have := h3 0 (by omega); simpa using this
    rw [progression_succ]
    simp only [toDo, hc, if_true, Spec.each, hw]
    cases body i s with
    | none => rfl
    | some r =>
      cases r with
      | error e => rfl
      | ok x =>
        have e1 : ∀ k : Nat, i + step + (k : Int) * step = i + ((k + 1 : Nat) : Int) * step := by
          intro k; rw [Int.natCast_succ, Int.add_mul]; omega
        refine ih (i + step) ?_ ?_ ?_ n (by omega) x.2
        · intro k hk; rw [e1]; exact h1 (k + 1) (by omega)
        · rw [e1]; exact h2
        · intro k hk; rw [e1]; exact h3 (k + 1) (by omega)

theorem toDo_mono (p : Platform) (step : Int) (cont : Int → Bool) (body : Int → σ → Res E σ Unit) (fuel : Nat) :
    ∀ i s r, toDo p step cont body fuel i s = some r → ∀ k, toDo p step cont body (fuel + k) i s = some r := by
  induction fuel with
  | zero => intro i s r h; cases h
  | succ n ih =>
    intro i s r h k
    rw [Nat.succ_add]
    simp only [toDo] at h ⊢
    cases hc : cont i with
    | false => simpa [hc] using h
    | true =>
      simp only [hc, if_true] at h ⊢
      cases hb : body i s with
      | none => simp [hb] at h
      | some x =>
        cases x with
        | error e => simpa [hb] using h
        | ok y => simp only [hb] at h ⊢; exact ih _ _ _ h k

/-- A terminating loop: finishing with some fuel is the same as the fold finishing. -/
theorem toDo_iff (p : Platform) (step : Int) (cont : Int → Bool) (body : Int → σ → Res E σ Unit) (m : Nat)
    (i : Int) (h1 : ∀ k : Nat, k < m → cont (i + k * step) = true) (h2 : cont (i + m * step) = false)
    (h3 : ∀ k : Nat, k < m → wrap p (i + k * step + step) = i + k * step + step) (s : σ) (r : Except E (Unit × σ)) :
    (∃ fuel, toDo p step cont body fuel i s = some r) ↔ Spec.each body (Spec.progression i step m) s = some r := by
  have key := toDo_each p step cont body m i h1 h2 h3
  constructor
  · rintro ⟨fuel, h⟩
    rw [← key (fuel + (m + 1)) (by omega) s]
    exact toDo_mono _ _ _ _ _ _ _ _ h _
  · intro h; exact ⟨m + 1, by rw [key _ (by omega)]; exact h⟩

/-- Downward loops are upward loops with the negated step. -/
theorem downToDo_eq (p : Platform) (step : Int) (cont : Int → Bool) (body : Int → σ → Res E σ Unit) (fuel : Nat) :
    ∀ i s, downToDo p step cont body fuel i s = toDo p (-step) cont body fuel i s := by
  induction fuel with
  | zero => intro i s; rfl
  | succ n ih =>
    intro i s
    simp only [downToDo, toDo, ih, Int.sub_eq_add_neg]

theorem thenAnswer_some {α : Type} (a : α) (x : Res E σ Unit) (r : Except E (α × σ)) :
    thenAnswer a x = some r ↔ ∃ q, x = some q ∧ r = q.map fun y => (a, y.2) := by
  cases x with
  | none => simp [thenAnswer]
  | some q => simp only [thenAnswer, Option.map_some, Option.some.injEq]; constructor
              · intro h; exact ⟨q, rfl, h.symm⟩
              · rintro ⟨_, rfl, h⟩; exact h.symm

theorem thenAnswer_iff {α : Type} (a : α) (f : Nat → Res E σ Unit) (x : Res E σ Unit) (h : ∀ q, (∃ n, f n = some q) ↔ x = some q)
    (r : Except E (α × σ)) : (∃ n, thenAnswer a (f n) = some r) ↔ thenAnswer a x = some r := by
  constructor
  · rintro ⟨n, hn⟩
    obtain ⟨q, h1, h2⟩ := (thenAnswer_some _ _ _).1 hn
    exact (thenAnswer_some _ _ _).2 ⟨q, (h q).1 ⟨n, h1⟩, h2⟩
  · intro hx
    obtain ⟨q, h1, h2⟩ := (thenAnswer_some _ _ _).1 hx
    obtain ⟨n, hn⟩ := (h q).2 h1
    exact ⟨n, (thenAnswer_some _ _ _).2 ⟨q, hn, h2⟩⟩

theorem wrap_id (p : Platform) (i : Int) (h : p = .cpython ∨ (Num.minInt ≤ i ∧ i ≤ Num.maxInt)) : wrap p i = i := by
  cases p with
  | cpython => rfl
  | rpython =>
    rcases h with h | ⟨h1, h2⟩
    · cases h
    · simp only [Num.minInt, Num.maxInt] at h1 h2
      simp only [wrap]; omega

/-- The count: the first `count` members do not exceed the limit, the next one does. -/
theorem count_spec (lo hi step : Int) (hs : 0 < step) :
    (∀ k : Nat, k < Spec.count lo hi step → lo + k * step ≤ hi) ∧ ¬ lo + Spec.count lo hi step * step ≤ hi := by
  simp only [Spec.count]
  by_cases h : lo ≤ hi
  · simp only [h, if_true]
    have hq := Int.mul_ediv_add_emod (hi - lo) step
    have hm := Int.emod_nonneg (hi - lo) (by omega : step ≠ 0)
    have hl := Int.emod_lt_of_pos (hi - lo) hs
    have hn : 0 ≤ (hi - lo) / step := Int.ediv_nonneg (by omega) (by omega)
    constructor
    · intro k hk
      have : (k : Int) ≤ (hi - lo) / step := by omega
      have := Int.mul_le_mul_of_nonneg_right this (by omega : 0 ≤ step)
      rw [Int.mul_comm step] at hq; omega
    · rw [Int.natCast_succ, Int.toNat_of_nonneg hn, Int.add_mul]
      rw [Int.mul_comm step] at hq; omega
  · simp only [h, if_false]
    exact ⟨by omega, by simpa using h⟩

/-- The list over which the loops run, described without arithmetic: strictly increasing, and its members are exactly the
numbers `lo + k * step` not above `hi`. -/
theorem C38_progression (lo hi step : Int) (hs : 0 < step) :
    (Spec.progression lo step (Spec.count lo hi step)).Pairwise (· < ·) ∧
    ∀ x, x ∈ Spec.progression lo step (Spec.count lo hi step) ↔ x ≤ hi ∧ ∃ k : Nat, x = lo + k * step := by
  obtain ⟨h1, h2⟩ := count_spec lo hi step hs
  constructor
  · simp only [Spec.progression, List.pairwise_map]
    apply List.Pairwise.imp _ List.pairwise_lt_range
    intro a b hab
    have := Int.mul_lt_mul_of_pos_right (by omega : (a : Int) < b) hs
    omega
  · intro x
    simp only [Spec.progression, List.mem_map, List.mem_range]
    constructor
    · rintro ⟨k, hk, rfl⟩; exact ⟨h1 k hk, k, rfl⟩
    · rintro ⟨hx, k, rfl⟩
      refine ⟨k, ?_, rfl⟩
      apply Decidable.byContradiction
      intro hk
      have := Int.mul_le_mul_of_nonneg_right (by omega : (Spec.count lo hi step : Int) ≤ k) (by omega : 0 ≤ step)
      omega

/-! ## C38 -/

/-- **C38** (partial), Integer limit.  Full statement: for all bounds and all non-zero steps the loops evaluate the block
for exactly the numbers of the progression and answer the receiver.  Proved: for all positive steps, on CPython for all
bounds, on RPython provided limit plus step is still a machine integer.  The loop finishes (with some fuel) exactly if
the fold over the list finishes, with the same result, state and exception. -/
theorem C38_to_by_do_partial (p : Platform) (lo hi step : Int) (hs : 0 < step)
    (hp : p = .cpython ∨ (Num.minInt ≤ lo ∧ hi + step ≤ Num.maxInt)) (body : Int → σ → Res E σ Unit) (s : σ) (r : Except E (Int × σ)) :
    (∃ fuel, primToByDo p fuel lo (.int hi) step body s = some r) ↔
      thenAnswer lo (Spec.each body (Spec.progression lo step (Spec.count lo hi step)) s) = some r := by
  obtain ⟨h1, h2⟩ := count_spec lo hi step hs
  refine thenAnswer_iff lo _ _ (fun q => ?_) r
  refine toDo_iff p step _ body _ lo (fun k hk => by simpa using h1 k hk) (by simpa using h2) (fun k hk => ?_) s q
  apply wrap_id
  rcases hp with hp | ⟨a, b⟩
  · exact Or.inl hp
  · right
    have := h1 k hk
    have hk0 : 0 ≤ (k : Int) * step := Int.mul_nonneg (by omega) (by omega)
    omega

/-- **C38** (partial): `to:do:` is `to:by:do:` with step 1. -/
theorem C38_to_do_partial (p : Platform) (lo hi : Int) (hp : p = .cpython ∨ (Num.minInt ≤ lo ∧ hi < Num.maxInt))
    (body : Int → σ → Res E σ Unit) (s : σ) (r : Except E (Int × σ)) :
    (∃ fuel, primToDo p fuel lo (.int hi) body s = some r) ↔
      thenAnswer lo (Spec.each body (Spec.progression lo 1 (Spec.count lo hi 1)) s) = some r :=
  C38_to_by_do_partial p lo hi 1 (by omega) (hp.imp id fun h => ⟨h.1, by omega⟩) body s r

/-- **C38** (partial): `downTo:do:` runs over `hi, hi - 1, …, lo`. -/
theorem C38_down_to_do_partial (p : Platform) (lo hi : Int) (hp : p = .cpython ∨ (Num.minInt < lo ∧ hi ≤ Num.maxInt))
    (body : Int → σ → Res E σ Unit) (s : σ) (r : Except E (Int × σ)) :
    (∃ fuel, primDownToDo p fuel hi (.int lo) body s = some r) ↔
      thenAnswer hi (Spec.each body (Spec.progression hi (-1) (Spec.count lo hi 1)) s) = some r := by
  have hc := count_spec lo hi 1 (by omega)
  refine thenAnswer_iff hi _ _ (fun q => ?_) r
  simp only [downToDo_eq]
  refine toDo_iff p (-1) _ body _ hi (fun k hk => ?_) ?_ (fun k hk => ?_) s q
  · have := hc.1 k hk; simp; omega
  · have := hc.2; simp; omega
  · apply wrap_id
    have := hc.1 k hk
    rcases hp with hp | ⟨a, b⟩
    · exact Or.inl hp
    · right; omega

/-- **C38** (partial), Double limit: `leI i` is Python's `i <= limit`.  If exactly the first `m` numbers of the progression
pass the test, the loop runs over exactly these. -/
theorem C38_double_limit_partial (p : Platform) (lo step : Int) (leI geI : Int → Bool) (m : Nat)
    (h1 : ∀ k : Nat, k < m → leI (lo + k * step) = true) (h2 : leI (lo + m * step) = false)
    (hp : p = .cpython ∨ ∀ k : Nat, k ≤ m → Num.minInt ≤ lo + k * step ∧ lo + k * step ≤ Num.maxInt)
    (body : Int → σ → Res E σ Unit) (s : σ) (r : Except E (Int × σ)) :
    (∃ fuel, primToByDo p fuel lo (.dbl leI geI) step body s = some r) ↔
      thenAnswer lo (Spec.each body (Spec.progression lo step m) s) = some r := by
  refine thenAnswer_iff lo _ _ (fun q => ?_) r
  refine toDo_iff p step _ body m lo h1 h2 (fun k hk => ?_) s q
  apply wrap_id
  rcases hp with hp | h
  · exact Or.inl hp
  · right
    have := h (k + 1) (by omega)
    rw [Int.natCast_succ, Int.add_mul] at this; omega

/-- **C38** (partial), Double limit downwards. -/
theorem C38_double_limit_down_partial (p : Platform) (hi : Int) (leI geI : Int → Bool) (m : Nat)
    (h1 : ∀ k : Nat, k < m → geI (hi - k) = true) (h2 : geI (hi - m) = false)
    (hp : p = .cpython ∨ ∀ k : Nat, k ≤ m → Num.minInt ≤ hi - k ∧ hi - k ≤ Num.maxInt)
    (body : Int → σ → Res E σ Unit) (s : σ) (r : Except E (Int × σ)) :
    (∃ fuel, primDownToDo p fuel hi (.dbl leI geI) body s = some r) ↔
      thenAnswer hi (Spec.each body (Spec.progression hi (-1) m) s) = some r := by
  have e : ∀ k : Nat, hi + (k : Int) * (-1) = hi - k := by intro k; omega
  refine thenAnswer_iff hi _ _ (fun q => ?_) r
  simp only [downToDo_eq]
  refine toDo_iff p (-1) _ body m hi (fun k hk => by rw [e]; exact h1 k hk) (by rw [e]; exact h2) (fun k hk => ?_) s q
  apply wrap_id
  rcases hp with hp | h
  · exact Or.inl hp
  · right
    have := h (k + 1) (by omega)
    omega

/-- A body that logs the numbers it gets. -/
def logBody (i : Int) (s : List Int) : Res Err (List Int) Unit := some (.ok ((), s ++ [i]))

example : primToByDo .cpython 20 3 (.int 11) 4 logBody [] = some (.ok (3, [3, 7, 11])) ∧
    primDownToDo .rpython 20 3 (.int 1) logBody [] = some (.ok (3, [3, 2, 1])) ∧
    primToDo .rpython 20 3 (.dbl (fun i => i ≤ 5) (fun i => i ≥ 5)) logBody [] = some (.ok (3, [3, 4, 5])) ∧
    Spec.progression 3 4 (Spec.count 3 11 4) = [3, 7, 11] ∧ (3 : Int) + 4 ≤ Num.maxInt := by decide

theorem toDo_diverges (p : Platform) (step : Int) (cont : Int → Bool) (body : Int → σ → Res E σ Unit) (P : Int → Prop)
    (h1 : ∀ i, P i → cont i = true) (h2 : ∀ i, P i → P (wrap p (i + step))) (hb : ∀ i s, ∃ s', body i s = some (.ok ((), s'))) (fuel : Nat) :
    ∀ i s, P i → toDo p step cont body fuel i s = none := by
  induction fuel with
  | zero => intros; rfl
  | succ n ih =>
    intro i s hi
    obtain ⟨s', hs⟩ := hb i s
    simp only [toDo, h1 i hi, if_true, hs]
    exact ih _ _ (h2 i hi)

/-- **C38 violated**: with a step of 0 or a negative step a loop that starts at or below its limit never ends (for any
block that always returns normally); a descending `10 to: 1 by: -1` evaluates nothing. -/
theorem C38_violated_step (lo hi step : Int) (h : lo ≤ hi) (hs : step ≤ 0) (body : Int → σ → Res E σ Unit)
    (hb : ∀ i s, ∃ s', body i s = some (.ok ((), s'))) (fuel : Nat) (s : σ) :
    primToByDo .cpython fuel lo (.int hi) step body s = none := by
  have := toDo_diverges .cpython step (fun i => decide (i ≤ hi)) body (fun i => i ≤ hi) (by simp) (by intro i hi'; simp only [wrap]; omega) hb fuel lo s h
  simp only [primToByDo, this, thenAnswer, Option.map_none]

theorem C38_violated_descending (hi lo step : Int) (h : lo < hi) (body : Int → σ → Res E σ Unit) (s : σ) :
    primToByDo .cpython 1 hi (.int lo) step body s = some (.ok (hi, s)) := by
  have : ¬ hi ≤ lo := by omega
  simp [primToByDo, toDo, this, thenAnswer, Except.map]

/-- **C38 violated**: on RPython a loop up to the largest machine integer never ends (the counter wraps around). -/
theorem C38_violated_maxint (lo : Int) (h : lo ≤ Num.maxInt) (body : Int → σ → Res E σ Unit)
    (hb : ∀ i s, ∃ s', body i s = some (.ok ((), s'))) (fuel : Nat) (s : σ) :
    primToDo .rpython fuel lo (.int Num.maxInt) body s = none := by
  have := toDo_diverges .rpython 1 (fun i => decide (i ≤ Num.maxInt)) body (fun i => i ≤ Num.maxInt) (by simp)
    (by intro i _; simp only [wrap, Num.maxInt]; omega) hb fuel lo s h
  simp only [primToDo, this, thenAnswer, Option.map_none]

example : ∀ i s, ∃ s', logBody i s = some (.ok ((), s')) := fun _ _ => ⟨_, rfl⟩

/-! ## C39 -/

/-- **C39**: `whileTrue:`/`whileFalse:` as primitives finish exactly when the textbook meaning of the loop finishes, with the
same state or exception. -/
theorem C39_primitive (want : Cond) (cond : σ → Res E σ Cond) (body : σ → Res E σ Unit) (s : σ) (r : Except E (Unit × σ)) :
    (∃ fuel, whilePrim want cond body fuel s = some r) ↔ Spec.While want cond body s r := by
  constructor
  · rintro ⟨fuel, h⟩
    induction fuel generalizing s with
    | zero => cases h
    | succ n ih =>
      simp only [whilePrim] at h
      split at h
      · cases h
      · cases h; exact .condRaises _ _ (by assumption)
      · rename_i c s' hc
        split at h
        · rename_i hw; subst hw
          split at h
          · cases h
          · cases h; exact .bodyRaises _ _ _ hc (by assumption)
          · rename_i x s'' hb; exact .again _ _ _ _ hc hb (ih _ h)
        · cases h; exact .stop _ _ _ hc (by assumption)
  · intro h
    induction h with
    | stop s s' c hc hw => exact ⟨1, by simp [whilePrim, hc, hw]⟩
    | condRaises s e hc => exact ⟨1, by simp [whilePrim, hc]⟩
    | bodyRaises s s' e hc hb => exact ⟨1, by simp [whilePrim, hc, hb]⟩
    | again s s' s'' r hc hb _ ih =>
      obtain ⟨n, hn⟩ := ih
      exact ⟨n + 1, by simp [whilePrim, hc, hb, hn]⟩

/-- **C39**: the inlined loop of the AST interpreter is the primitive as long as the condition answers Booleans. -/
theorem C39_ast_node (want : Bool) (ni : E) (cond : σ → Res E σ Cond) (hc : ∀ s c s', cond s = some (.ok (c, s')) → c ≠ .other)
    (body : σ → Res E σ Unit) (fuel : Nat) (s : σ) :
    whileNode ni (if want then .true else .false) (if want then .false else .true) cond body fuel s =
      whilePrim (if want then .true else .false) cond body fuel s := by
  induction fuel generalizing s with
  | zero => rfl
  | succ n ih =>
    simp only [whileNode, whilePrim, ih]
    split
    · rfl
    · rfl
    · rename_i c s' h
      have := hc _ _ _ h
      cases c <;> cases want <;> simp at this ⊢ <;> rfl

/-- **C39 violated**: if a condition answers something else, the inlined loop raises while the primitive just ends. -/
theorem C39_violated_non_boolean (ni : E) (s : σ) (body : σ → Res E σ Unit) (cond : σ → Res E σ Cond) (h : cond s = some (.ok (.other, s))) :
    whilePrim .true cond body 1 s = some (.ok ((), s)) ∧ whileNode ni .true .false cond body 1 s = some (.error ni) := by
  simp [whilePrim, whileNode, h]

/-- A loop that counts down. -/
example : whilePrim (E := Err) .true (fun (n : Nat) => some (.ok (if 0 < n then .true else .false, n))) (fun n => some (.ok ((), n - 1))) 10 4 =
    some (.ok ((), 0)) := by decide

/-! ## C52 -/

theorem arrayDo_mono (raise : Err → E) (arr : σ → Arr.Store) (body : Arr.Val → σ → Res E σ Unit) (len : Int) (fuel : Nat) :
    ∀ i s r, arrayDo raise arr body len fuel i s = some r → ∀ k, arrayDo raise arr body len (fuel + k) i s = some r := by
  induction fuel with
  | zero => intro i s r h; cases h
  | succ n ih =>
    intro i s r h k
    rw [Nat.succ_add]
    simp only [arrayDo] at h ⊢
    by_cases hc : i < len
    · simp only [hc, if_true] at h ⊢
      cases hg : Arr.getIdx (arr s) i with
      | error e => simpa [hg] using h
      | ok v =>
        simp only [hg] at h ⊢
        cases hb : body v s with
        | none => simp [hb] at h
        | some x =>
          cases x with
          | error e => simpa [hb] using h
          | ok y => simp only [hb] at h ⊢; exact ih _ _ _ h k
    · simpa [hc] using h

theorem arrayDo_each (raise : Err → E) (arr : σ → Arr.Store) (body : Arr.Val → σ → Res E σ Unit) (n : Nat)
    (hk : ∀ v s s', Arr.Inv (arr s) → (Arr.asArguments (arr s)).length = n → body v s = some (.ok ((), s')) →
      Arr.Inv (arr s') ∧ (Arr.asArguments (arr s')).length = n) (m : Nat) :
    ∀ k s, k + m = n → Arr.Inv (arr s) → (Arr.asArguments (arr s)).length = n → ∀ fuel, m < fuel →
      arrayDo raise arr body n fuel k s = Spec.eachElement (fun s => Arr.asArguments (arr s)) body (List.range' k m) s := by
  induction m with
  | zero =>
    intro k s hkn _ _ fuel hf
    obtain ⟨f, rfl⟩ : ∃ f, fuel = f + 1 := ⟨fuel - 1, by omega⟩
    have : ¬ (k : Int) < n := by omega
    simp [arrayDo, this, Spec.eachElement]
  | succ m ih =>
    intro k s hkn hi hl fuel hf
    obtain ⟨f, rfl⟩ : ∃ f, fuel = f + 1 := ⟨fuel - 1, by omega⟩
    have hlt : (k : Int) < n := by omega
    have hg := Arr.getIdx_spec hi (i := (k : Int) + 1) (by omega)
    have e0 : ((k : Int) + 1 - 1) = k := by omega
    have hat : Arr.Spec.at? (Arr.asArguments (arr s)) ((k : Int) + 1) = (Arr.asArguments (arr s))[k]? := by
      simp only [Arr.Spec.at?]
      rw [if_pos (by omega)]
      have : ((k : Int) + 1 - 1).toNat = k := by omega
      rw [this]
    have hsome : (Arr.asArguments (arr s))[k]? = some ((Arr.asArguments (arr s))[k]'(by omega)) := List.getElem?_eq_getElem (by omega)
    rw [e0, hat, hsome] at hg
    simp only [arrayDo, hlt, if_true, hg, List.range'_succ, Spec.eachElement, hsome]
    cases hb : body ((Arr.asArguments (arr s))[k]'(by omega)) s with
    | none => rfl
    | some x =>
      cases x with
      | error e => rfl
      | ok y =>
        obtain ⟨u, s'⟩ := y
        obtain ⟨h1, h2⟩ := hk _ _ _ hi hl hb
        have := ih (k + 1) s' (by omega) h1 h2 f (by omega)
        simpa using this

theorem arrayDo_iff (raise : Err → E) (arr : σ → Arr.Store) (body : Arr.Val → σ → Res E σ Unit) (s : σ) (hi : Arr.Inv (arr s))
    (hk : ∀ v s₁ s₂, Arr.Inv (arr s₁) → (Arr.asArguments (arr s₁)).length = (Arr.asArguments (arr s)).length →
      body v s₁ = some (.ok ((), s₂)) → Arr.Inv (arr s₂) ∧ (Arr.asArguments (arr s₂)).length = (Arr.asArguments (arr s)).length)
    (r : Except E (Unit × σ)) :
    (∃ fuel, arrayDo raise arr body (Arr.getSize (arr s)) fuel 0 s = some r) ↔
    Spec.eachElement (fun s => Arr.asArguments (arr s)) body (List.range (Arr.asArguments (arr s)).length) s = some r := by
  have key := arrayDo_each raise arr body _ hk (Arr.asArguments (arr s)).length 0 s (by omega) hi rfl
  rw [Arr.getSize_abs hi]
  rw [← List.range_eq_range'] at key
  constructor
  · rintro ⟨fuel, h⟩
    rw [← key (fuel + ((Arr.asArguments (arr s)).length + 1)) (by omega)]
    exact arrayDo_mono _ _ _ _ _ _ _ _ h _
  · intro h; exact ⟨_, by rw [← h]; exact key ((Arr.asArguments (arr s)).length + 1) (by omega)⟩

theorem eachElement_const (content : σ → List Arr.Val) (body : Arr.Val → σ → Res E σ Unit) (xs : List Arr.Val)
    (hk : ∀ v s s', content s = xs → body v s = some (.ok ((), s')) → content s' = xs) (ys : List Arr.Val) :
    ∀ k s, content s = xs → xs.drop k = ys → Spec.eachElement content body (List.range' k ys.length) s = Spec.each body ys s := by
  induction ys with
  | nil => intro k s _ _; rfl
  | cons y ys ih =>
    intro k s hs hd
    have hlt : k < xs.length := by
      apply Decidable.byContradiction; intro h
      rw [List.drop_eq_nil_of_le (by omega)] at hd; cases hd
    rw [List.drop_eq_getElem_cons hlt] at hd
    injection hd with h1 h2
    simp only [List.length_cons, List.range'_succ, Spec.eachElement, Spec.each, hs, List.getElem?_eq_getElem hlt, h1]
    cases hb : body y s with
    | none => rfl
    | some x =>
      cases x with
      | error e => rfl
      | ok z => exact ih (k + 1) z.2 (hk _ _ _ hs hb) h2

theorem arrayDo_unchanged_iff (raise : Err → E) (arr : σ → Arr.Store) (body : Arr.Val → σ → Res E σ Unit) (s : σ) (hi : Arr.Inv (arr s))
    (hk : ∀ v s₁ s₂, arr s₁ = arr s → body v s₁ = some (.ok ((), s₂)) → arr s₂ = arr s) (r : Except E (Unit × σ)) :
    (∃ fuel, arrayDo raise arr body (Arr.getSize (arr s)) fuel 0 s = some r) ↔ Spec.each body (Arr.asArguments (arr s)) s = some r := by
  -- freeze the array in the view of the loop
  have frz : ∀ fuel i s₁, arr s₁ = arr s → arrayDo raise arr body (Arr.getSize (arr s)) fuel i s₁ =
      arrayDo raise (fun _ => arr s) body (Arr.getSize (arr s)) fuel i s₁ := by
    intro fuel
    induction fuel with
    | zero => intros; rfl
    | succ n ih =>
      intro i s₁ h1
      simp only [arrayDo, h1]
      split
      · cases Arr.getIdx (arr s) i with
        | error e => rfl
        | ok v =>
          dsimp only
          cases hb : body v s₁ with
          | none => rfl
          | some x =>
            cases x with
            | error e => rfl
            | ok y => exact ih _ _ (hk _ _ _ h1 hb)
      · rfl
  have h1 := arrayDo_iff raise (fun _ => arr s) body s hi (fun _ _ _ a b _ => ⟨a, b⟩) r
  have h2 := eachElement_const (fun _ => Arr.asArguments (arr s)) body (Arr.asArguments (arr s)) (fun _ _ _ _ _ => rfl)
    (Arr.asArguments (arr s)) 0 s rfl rfl
  rw [← List.range_eq_range'] at h2
  rw [h2] at h1
  rw [← h1]
  constructor
  · rintro ⟨f, h⟩; exact ⟨f, by rw [← frz f 0 s rfl]; exact h⟩
  · rintro ⟨f, h⟩; exact ⟨f, by rw [frz f 0 s rfl]; exact h⟩

theorem arrayDoIndexes_iff (body : Int → σ → Res E σ Unit) (n : Nat) (s : σ) (r : Except E (Unit × σ)) :
    (∃ fuel, arrayDoIndexes body n fuel 1 s = some r) ↔
    Spec.each body ((List.range n).map fun (k : Nat) => (k : Int) + 1) s = some r := by
  have eq : ∀ fuel i s, arrayDoIndexes body n fuel i s = toDo .cpython 1 (fun i => decide (i ≤ (n : Int))) body fuel i s := by
    intro fuel
    induction fuel with
    | zero => intros; rfl
    | succ f ih => intro i s; simp only [arrayDoIndexes, toDo, ih, wrap, decide_eq_true_eq]
  have hp : (List.range n).map (fun (k : Nat) => (k : Int) + 1) = Spec.progression 1 1 n := by
    simp only [Spec.progression]; apply List.map_congr_left; intro k _; omega
  rw [hp, ← toDo_iff .cpython 1 (fun i => decide (i ≤ (n : Int))) body n 1 (by intro k hk; simp; omega) (by simp; omega) (fun _ _ => rfl) s r]
  simp only [eq]

/-- **C52** (partial), `do:`.  Full statement: the block is evaluated once per element in order, and the send answers an
ordinary object.  Proved: the first part, for every representation and every block that may store into the array (stores
keep the representation invariant and the length, C08/C09): the `k`-th evaluation gets what is then the element at `k`. -/
theorem C52_do_partial (raise : Err → E) (arr : σ → Arr.Store) (body : Arr.Val → σ → Res E σ Unit) (s : σ) (hi : Arr.Inv (arr s))
    (hk : ∀ v s₁ s₂, Arr.Inv (arr s₁) → (Arr.asArguments (arr s₁)).length = (Arr.asArguments (arr s)).length →
      body v s₁ = some (.ok ((), s₂)) → Arr.Inv (arr s₂) ∧ (Arr.asArguments (arr s₂)).length = (Arr.asArguments (arr s)).length)
    (r : Except E (Arr.Val × σ)) :
    (∃ fuel, primArrayDo raise arr body fuel s = some r) ↔
    thenAnswer .pyNone (Spec.eachElement (fun s => Arr.asArguments (arr s)) body (List.range (Arr.asArguments (arr s)).length) s) = some r :=
  thenAnswer_iff _ _ _ (fun q => arrayDo_iff raise arr body s hi hk q) r

/-- **C52** (partial): if the block does not change the array, it is evaluated for exactly the array's elements in order. -/
theorem C52_do_unchanged_partial (raise : Err → E) (arr : σ → Arr.Store) (body : Arr.Val → σ → Res E σ Unit) (s : σ) (hi : Arr.Inv (arr s))
    (hk : ∀ v s₁ s₂, arr s₁ = arr s → body v s₁ = some (.ok ((), s₂)) → arr s₂ = arr s) (r : Except E (Arr.Val × σ)) :
    (∃ fuel, primArrayDo raise arr body fuel s = some r) ↔ thenAnswer .pyNone (Spec.each body (Arr.asArguments (arr s)) s) = some r :=
  thenAnswer_iff _ _ _ (fun q => arrayDo_unchanged_iff raise arr body s hi hk q) r

/-- **C52** (partial), `doIndexes:`: the block is evaluated for exactly `1, 2, …, length`. -/
theorem C52_doIndexes_partial (arr : σ → Arr.Store) (body : Int → σ → Res E σ Unit) (s : σ) (hi : Arr.Inv (arr s)) (r : Except E (Arr.Val × σ)) :
    (∃ fuel, primArrayDoIndexes arr body fuel s = some r) ↔
    thenAnswer .pyNone (Spec.each body ((List.range (Arr.asArguments (arr s)).length).map fun (k : Nat) => (k : Int) + 1) s) = some r := by
  simp only [primArrayDoIndexes, Arr.getSize_abs hi]
  exact thenAnswer_iff _ _ _ (fun q => arrayDoIndexes_iff body _ s q) r

example : arrayDo (σ := Arr.Store × List Arr.Val) (E := Err) id (·.1) (fun v s => some (.ok ((), (s.1, s.2 ++ [v])))) 3 10 0 (.part [.int 4, .nil, .int 5] 1 .long, []) =
    some (.ok ((), (.part [.int 4, .nil, .int 5] 1 .long, [.int 4, .nil, .int 5]))) ∧ Arr.Inv (.part [.int 4, .nil, .int 5] 1 .long) := by
  refine ⟨by decide, by simp [Arr.Inv, Arr.nils, Arr.Typed, Arr.Val.isSom, Arr.Spec.isInt]⟩

/-- **C52 violated**: whenever `do:` or `doIndexes:` finishes normally, its answer is not a SOM object. -/
theorem C52_violated_answer (raise : Err → E) (arr : σ → Arr.Store) (body : Arr.Val → σ → Res E σ Unit) (ibody : Int → σ → Res E σ Unit)
    (fuel : Nat) (s s' : σ) (v : Arr.Val) :
    (primArrayDo raise arr body fuel s = some (.ok (v, s')) → v.isSom = false) ∧
    (primArrayDoIndexes arr ibody fuel s = some (.ok (v, s')) → v.isSom = false) := by
  constructor <;> intro h <;> obtain ⟨q, _, h2⟩ := (thenAnswer_some _ _ _).1 h <;>
    (cases q <;> simp only [Except.map, Except.ok.injEq, Prod.mk.injEq, reduceCtorEq] at h2; rw [h2.1]; rfl)

end PySOM.Loop

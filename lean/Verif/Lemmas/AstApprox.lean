import Verif.Lemmas.AstBlock
/-!
# Meanings that agree except for exceptions of one kind
-/
set_option autoImplicit false
namespace PySOM.BC
open PySOM

section
variable {W E : Type} {bad : E → Prop}

theorem Approx.refl (R : Src.Rel W E) : Approx bad R R := ⟨fun _ _ _ h => .inl h, fun _ _ _ h => .inl h⟩

theorem Approx.of_eq {R S : Src.Rel W E} (h : R = S) : Approx bad R S := h ▸ .refl R

theorem Approx.bind {p2 p1 : Src.Rel W E} {k2 k1 : Val → Src.Rel W E} (hp : Approx bad p2 p1) (hk : ∀ v, Approx bad (k2 v) (k1 v)) :
    Approx bad (Src.bind p2 k2) (Src.bind p1 k1) := by
  refine ⟨?_, ?_⟩
  · rintro w r w' (⟨v, w1, h1, h2⟩ | ⟨h, hr⟩)
    · rcases hp.1 _ _ _ h1 with h1 | ⟨e, he, _⟩
      · rcases (hk v).1 _ _ _ h2 with h2 | h2
        · exact .inl (.inl ⟨v, w1, h1, h2⟩)
        · exact .inr h2
      · cases he
    · rcases hp.1 _ _ _ h with h | h
      · exact .inl (.inr ⟨h, hr⟩)
      · exact .inr h
  · rintro w r w' (⟨v, w1, h1, h2⟩ | ⟨h, hr⟩)
    · rcases hp.2 _ _ _ h1 with h1 | ⟨e, w2, hb, h1⟩
      · rcases (hk v).2 _ _ _ h2 with h2 | ⟨e, w2, hb, h2⟩
        · exact .inl (.inl ⟨v, w1, h1, h2⟩)
        · exact .inr ⟨e, w2, hb, .inl ⟨v, w1, h1, h2⟩⟩
      · exact .inr ⟨e, w2, hb, .inr ⟨h1, trivial⟩⟩
    · rcases hp.2 _ _ _ h with h | ⟨e, w2, hb, h1⟩
      · exact .inl (.inr ⟨h, hr⟩)
      · exact .inr ⟨e, w2, hb, .inr ⟨h1, trivial⟩⟩

/-- Where `R2` raises a bad exception, anything goes. -/
theorem Approx.raises {err : Err → E} {e : Err} (h : bad (err e)) (R : Src.Rel W E) : Approx bad (Cond.raises err e) R :=
  ⟨fun _ _ _ h1 => .inr ⟨err e, h1.1, h⟩, fun w _ _ _ => .inr ⟨err e, w, h, rfl, rfl⟩⟩

theorem Approx.while {stop : Val → Bool} {c2 c1 b2 b1 : Src.Rel W E} (hc : Approx bad c2 c1) (hb : Approx bad b2 b1) :
    Approx bad (Src.While stop c2 b2) (Src.While stop c1 b1) := by
  refine ⟨?_, ?_⟩
  · intro w r w' h
    induction h with
    | exit w w1 v h hs =>
      rcases hc.1 _ _ _ h with h | ⟨e, he, _⟩
      · exact .inl (.exit _ _ v h hs)
      · cases he
    | condStop w w1 r h hr =>
      rcases hc.1 _ _ _ h with h | h
      · exact .inl (.condStop _ _ _ h hr)
      · exact .inr h
    | bodyStop w w1 w2 v r h hs h2 hr =>
      rcases hc.1 _ _ _ h with h | ⟨e, he, _⟩
      · rcases hb.1 _ _ _ h2 with h2 | h2
        · exact .inl (.bodyStop _ _ _ v _ h hs h2 hr)
        · exact .inr h2
      · cases he
    | next w w1 w2 w3 v u r h hs h2 _ ih =>
      rcases hc.1 _ _ _ h with h | ⟨e, he, _⟩
      · rcases hb.1 _ _ _ h2 with h2 | ⟨e, he, _⟩
        · rcases ih with ih | ih
          · exact .inl (.next _ _ _ _ v u _ h hs h2 ih)
          · exact .inr ih
        · cases he
      · cases he
  · intro w r w' h
    induction h with
    | exit w w1 v h hs =>
      rcases hc.2 _ _ _ h with h | ⟨e, w2, he, h⟩
      · exact .inl (.exit _ _ v h hs)
      · exact .inr ⟨e, w2, he, .condStop _ _ _ h trivial⟩
    | condStop w w1 r h hr =>
      rcases hc.2 _ _ _ h with h | ⟨e, w2, he, h⟩
      · exact .inl (.condStop _ _ _ h hr)
      · exact .inr ⟨e, w2, he, .condStop _ _ _ h trivial⟩
    | bodyStop w w1 w2 v r h hs h2 hr =>
      rcases hc.2 _ _ _ h with h | ⟨e, w3, he, h⟩
      · rcases hb.2 _ _ _ h2 with h2 | ⟨e, w3, he, h2⟩
        · exact .inl (.bodyStop _ _ _ v _ h hs h2 hr)
        · exact .inr ⟨e, w3, he, .bodyStop _ _ _ v _ h hs h2 trivial⟩
      · exact .inr ⟨e, w3, he, .condStop _ _ _ h trivial⟩
    | next w w1 w2 w3 v u r h hs h2 _ ih =>
      rcases hc.2 _ _ _ h with h | ⟨e, w4, he, h⟩
      · rcases hb.2 _ _ _ h2 with h2 | ⟨e, w4, he, h2⟩
        · rcases ih with ih | ⟨e, w4, he, ih⟩
          · exact .inl (.next _ _ _ _ v u _ h hs h2 ih)
          · exact .inr ⟨e, w4, he, .next _ _ _ _ v u _ h hs h2 ih⟩
        · exact .inr ⟨e, w4, he, .bodyStop _ _ _ v _ h hs h2 trivial⟩
      · exact .inr ⟨e, w4, he, .condStop _ _ _ h trivial⟩

theorem bind_pure (p : Src.Rel W E) : Src.bind p Src.pure = p := by
  refine Src.rel_ext fun w r w' => ⟨?_, ?_⟩
  · rintro (⟨v, w1, h, rfl, rfl⟩ | ⟨h, _⟩) <;> exact h
  · intro h
    cases r with
    | val v => exact .inl ⟨v, w', h, rfl, rfl⟩
    | ret v => exact .inr ⟨h, trivial⟩
    | exc e => exact .inr ⟨h, trivial⟩

/-! ## Answers of blocks and methods -/

/-- The value is the answer. -/
def ends (R : Src.Rel W E) : Src.Rel W E := fun w r w' =>
  match r with
  | .val _ => False
  | .ret v => R w (.val v) w' ∨ R w (.ret v) w'
  | .exc e => R w (.exc e) w'

/-- The answer is the value. -/
def valued (R : Src.Rel W E) : Src.Rel W E := fun w r w' =>
  match r with
  | .val v => R w (.ret v) w'
  | .ret _ => False
  | .exc e => R w (.exc e) w'

theorem ends_eq (R : Src.Rel W E) : ends R = Src.bind R Src.answer := by
  refine Src.rel_ext fun w r w' => ⟨?_, ?_⟩
  · intro h
    cases r with
    | val v => exact h.elim
    | ret v =>
      rcases h with h | h
      · exact .inl ⟨v, w', h, rfl, rfl⟩
      · exact .inr ⟨h, trivial⟩
    | exc e => exact .inr ⟨h, trivial⟩
  · rintro (⟨v, w1, h, rfl, rfl⟩ | ⟨h, hr⟩)
    · exact .inl h
    · cases r with
      | val v => exact hr.elim
      | ret v => exact .inr h
      | exc e => exact h

theorem ends_bind (p : Src.Rel W E) (k : Val → Src.Rel W E) : ends (Src.bind p k) = Src.bind p fun v => ends (k v) := by
  rw [ends_eq, Src.bind_assoc]
  congr 1
  funext v
  rw [ends_eq]

theorem bind_answer_bind (p : Src.Rel W E) (v : Val) (k : Val → Src.Rel W E) : Src.bind (Src.answer v) k = (Src.answer v : Src.Rel W E) := by
  refine Src.rel_ext fun w r w' => ⟨?_, ?_⟩
  · rintro (⟨v, w1, ⟨h, _⟩, _⟩ | ⟨h, _⟩)
    · cases h
    · exact h
  · rintro ⟨rfl, rfl⟩
    exact .inr ⟨⟨rfl, rfl⟩, trivial⟩

/-- The value of an inlined block. -/
theorem approx_unlift {err : Err → E} {Z : Src.Rel W E} {Y : Src.Rel W (E ⊕ Val)} (h : Approx (NoBoolean (Sum.inl ∘ err)) (ends (Src.lift Z)) Y) :
    Approx (NoBoolean err) Z (Src.unlift (valued Y)) := by
  have bad : ∀ x, NoBoolean (Sum.inl ∘ err : Err → E ⊕ Val) x → ∃ e, x = .inl e ∧ NoBoolean err e := by
    rintro x (rfl | rfl)
    · exact ⟨_, rfl, .inl rfl⟩
    · exact ⟨_, rfl, .inr rfl⟩
  have back : ∀ {w w' : W} {x}, ends (Src.lift Z) w (.exc x) w' → Z w (match x with | .inl e => .exc e | .inr v => .ret v) w' := by
    rintro w w' x ⟨r0, e, h⟩
    cases r0 <;> cases e <;> exact h
  refine ⟨?_, ?_⟩
  · intro w r w' hz
    cases r with
    | val v =>
      rcases h.1 w (.ret v) w' (.inl ⟨.val v, rfl, hz⟩) with h | ⟨x, hx, _⟩
      · exact .inl h
      · cases hx
    | ret v =>
      rcases h.1 w (.exc (.inr v)) w' ⟨.ret v, rfl, hz⟩ with h | ⟨x, hx, hb⟩
      · exact .inl h
      · obtain ⟨e, rfl, he⟩ := bad _ hb
        cases hx
    | exc e =>
      rcases h.1 w (.exc (.inl e)) w' ⟨.exc e, rfl, hz⟩ with h | ⟨x, hx, hb⟩
      · exact .inl h
      · obtain ⟨e, rfl, he⟩ := bad _ hb
        cases hx
        exact .inr ⟨_, rfl, he⟩
  · intro w r w' hy
    have fin : ∀ {x w''}, NoBoolean (Sum.inl ∘ err : Err → E ⊕ Val) x → ends (Src.lift Z) w (.exc x) w'' → ∃ e w'', NoBoolean err e ∧ Z w (.exc e) w'' := by
      intro x w'' hb hx
      obtain ⟨e, rfl, he⟩ := bad _ hb
      exact ⟨e, w'', he, back hx⟩
    cases r with
    | val v =>
      rcases h.2 w (.ret v) w' hy with h | ⟨x, w'', hb, hx⟩
      · rcases h with ⟨r0, e, h⟩ | ⟨r0, e, h⟩ <;> cases r0 <;> cases e
        exact .inl h
      · exact .inr (fin hb hx)
    | ret v =>
      rcases h.2 w (.exc (.inr v)) w' hy with h | ⟨x, w'', hb, hx⟩
      · exact .inl (back h)
      · exact .inr (fin hb hx)
    | exc e =>
      rcases h.2 w (.exc (.inl e)) w' hy with h | ⟨x, w'', hb, hx⟩
      · exact .inl (back h)
      · exact .inr (fin hb hx)

/-! ## Conditionals and loops -/

section
variable {err : Err → E}

theorem noB1 : NoBoolean err (err .notImplemented) := .inl rfl
theorem noB2 : NoBoolean err (err .assertion) := .inr rfl


/-- The node for a control structure. -/
def Special.node : Special → ASpecial
  | .thenBranch .onFalse => .one (.ifBool true)
  | .thenBranch .onTrue => .one (.ifBool false)
  | .thenBranch .onNotNil => .one .ifNil
  | .thenBranch .onNil => .one .ifNotNil
  | .thenElse .onFalse => .two (.ifElse true)
  | .thenElse .onTrue => .two (.ifElse false)
  | .thenElse .onNotNil => .two (.ifNil true)
  | .thenElse .onNil => .two (.ifNil false)
  | .while b => .while b
  | .andOr true => .one .or
  | .andOr false => .one .and

theorem lookup_none {α : Type} {sel : Sel} : ∀ {xs : List (Sel × α)}, (∀ p ∈ xs, p.1 ≠ sel) → xs.lookup sel = none
  | [], _ => rfl
  | (a, b) :: xs, h => by
    rw [List.lookup_cons]
    have : (sel == a) = false := by
      have := h (a, b) (List.mem_cons_self)
      simp only [beq_eq_false_iff_ne, ne_eq]
      exact fun e => this e.symm
    rw [this]
    exact lookup_none fun p hp => h p (List.mem_cons_of_mem _ hp)

theorem aspecial_eq (sel : Sel) : aspecial? sel = (special? sel).map Special.node := by
  by_cases h : sel ∈ specials.map Prod.fst
  · have all : ∀ s ∈ specials.map Prod.fst, aspecial? s = (special? s).map Special.node := by decide +kernel
    exact all sel h
  · have h2 : sel ∉ aspecials.map Prod.fst := by
      have all : ∀ s ∈ aspecials.map Prod.fst, s ∈ specials.map Prod.fst := by decide +kernel
      exact fun h2 => h (all sel h2)
    have e1 : special? sel = none := lookup_none fun p hp e => h (e ▸ List.mem_map_of_mem hp)
    have e2 : aspecial? sel = none := lookup_none fun p hp e => h2 (e ▸ List.mem_map_of_mem hp)
    rw [e1, e2]
    rfl

theorem approx_one {c : JCond} {k : Inl1} (h : Special.node (.thenBranch c) = .one k) {r2 r1 a2 a1 : Src.Rel W E} (hr : Approx (NoBoolean err) r2 r1)
    (ha : Approx (NoBoolean err) a2 a1) :
    Approx (NoBoolean err) (k.exec err r2 a2) (Src.bind r1 fun v => if c.holds v then Src.pure (c.top v) else a1) := by
  cases c <;> cases h <;> refine hr.bind fun v => ?_
  · by_cases hv : v = .nil <;> simp only [JCond.holds, JCond.top, hv, if_true, if_false, decide_true, decide_false, Bool.false_eq_true]
    · exact .refl _
    · exact ha
  · by_cases hv : v = .nil <;> simp only [JCond.holds, JCond.top, hv, if_true, if_false, decide_true, decide_false, Bool.false_eq_true, ne_eq, not_true, not_false_eq_true]
    · exact ha
    · exact .refl _
  · cases v with
    | tru => exact .refl _
    | fls => exact ha
    | _ => exact .raises noB1 _
  · cases v with
    | tru => exact ha
    | fls => exact .refl _
    | _ => exact .raises noB1 _

theorem approx_andOr {b : Bool} {k : Inl1} (h : Special.node (.andOr b) = .one k) {r2 r1 a2 a1 : Src.Rel W E} (hr : Approx (NoBoolean err) r2 r1)
    (ha : Approx (NoBoolean err) a2 a1) :
    Approx (NoBoolean err) (k.exec err r2 a2) (Src.bind r1 fun v => if v = (if b then .tru else .fls) then Src.pure (if b then .tru else .fls) else a1) := by
  cases b <;> cases h <;> refine hr.bind fun v => ?_
  · cases v with
    | tru => exact ha
    | fls => exact .refl _
    | _ => exact .raises noB2 _
  · cases v with
    | tru => exact .refl _
    | fls => exact ha
    | _ => exact .raises noB2 _

theorem approx_two {c : JCond} {k : Inl2} (h : Special.node (.thenElse c) = .two k) {r2 r1 a2 a1 b2 b1 : Src.Rel W E} (hr : Approx (NoBoolean err) r2 r1)
    (ha : Approx (NoBoolean err) a2 a1) (hb : Approx (NoBoolean err) b2 b1) :
    Approx (NoBoolean err) (k.exec err r2 a2 b2) (Src.bind r1 fun v => if c.holds v then b1 else a1) := by
  cases c <;> cases h <;> refine hr.bind fun v => ?_
  · by_cases hv : v = .nil <;> simp only [JCond.holds, hv, if_true, if_false, decide_true, decide_false, Bool.false_eq_true]
    · exact hb
    · exact ha
  · by_cases hv : v = .nil <;> simp only [JCond.holds, hv, if_true, if_false, decide_true, decide_false, Bool.false_eq_true, ne_eq, not_true, not_false_eq_true]
    · exact ha
    · exact hb
  · cases v with
    | tru => exact hb
    | fls => exact ha
    | _ => exact .raises noB1 _
  · cases v with
    | tru => exact ha
    | fls => exact hb
    | _ => exact .raises noB1 _

theorem approx_while {b : Bool} {c2 c1 b2 b1 : Src.Rel W E} (hc : Approx (NoBoolean err) c2 c1) (hb : Approx (NoBoolean err) b2 b1) :
    Approx (NoBoolean err) (whileNode err b c2 b2) (Src.While (fun v => decide (v = if b then .fls else .tru)) c1 b1) := by
  refine Approx.while ?_ hb
  rw [← bind_pure c1]
  refine hc.bind fun v => ?_
  split
  · exact .refl _
  · exact .raises noB1 _

end
end
end PySOM.BC

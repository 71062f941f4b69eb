import Verif.Spec.Engines
import Verif.Lemmas.ElabAst
import Verif.Spec.Ast
/-! # The conditions of C34 follow from those on the text -/
set_option autoImplicit false
namespace PySOM.Elab
open PySOM PySOM.Parse PySOM.BC PySOM.Elab.Spec

theorem pushVariable_fair {I D F C N : Prop} {inner : Bool} (Γ : Ctx) (x : Name) : (pushVariable Γ x).fair I D F C N inner ∧ (pushVariable Γ x).throws = false := by
  unfold pushVariable
  split
  · exact ⟨trivial, rfl⟩
  · split <;> exact ⟨trivial, rfl⟩

theorem pushVariable_fld {Γ : Ctx} {x n : Name} {i : Nat} (h : pushVariable Γ x = .fld n i) : n = x ∧ Γ.fields[i]? = some x := by
  unfold pushVariable at h
  split at h
  · cases h
  · split at h
    · next e =>
      injection h with h1 h2
      subst h1 h2
      exact ⟨rfl, by
        rw [List.idxOf?_eq_some_iff] at e
        obtain ⟨h1, h2, _⟩ := e
        rw [List.getElem?_eq_getElem h1, h2]⟩
    · cases h

theorem popVariable_fld {Γ : Ctx} {x n : Name} {i : Nat} (h : popVariable Γ x = .ok (.fld n i)) : n = x ∧ Γ.fields[i]? = some x := by
  unfold popVariable at h
  split at h
  · cases h
  · split at h
    · next e =>
      injection h with h
      injection h with h1 h2
      subst h1 h2
      exact ⟨rfl, by
        rw [List.idxOf?_eq_some_iff] at e
        obtain ⟨h1, h2, _⟩ := e
        rw [List.getElem?_eq_getElem h1, h2]⟩
    · cases h

theorem popVariables_get {Γ : Ctx} {xs : List Name} {ts : List Tgt} (h : popVariables Γ xs = .ok ts) : ts.length = xs.length ∧ ∀ n i, ts.getLast? = some (.fld n i) → xs.getLast? = some n ∧ Γ.fields[i]? = some n := by
  induction xs generalizing ts with
  | nil => cases h; exact ⟨rfl, fun _ _ h => nomatch h⟩
  | cons x xs ih =>
    simp only [popVariables] at h
    obtain ⟨t, h1, h3⟩ := except_bind_ok h
    obtain ⟨us, h2, h4⟩ := except_bind_ok h3
    injection h4 with h4
    clear h h3
    subst h4
    obtain ⟨l, ih⟩ := ih h2
    refine ⟨congrArg (· + 1) l, fun n i h => ?_⟩
    cases xs with
    | nil =>
      cases h2
      have h : some t = some (Tgt.fld n i) := h
      injection h with h
      subst h
      obtain ⟨rfl, h⟩ := popVariable_fld h1
      exact ⟨rfl, h⟩
    | cons y ys =>
      cases us with
      | nil => cases l
      | cons u us =>
        rw [List.getLast?_cons_cons] at h ⊢
        exact ih n i h

/-- Only a variable can become a field, and only a literal can become a literal. -/
theorem expr_shape {N : Numbers} {Γ : Ctx} {s s' : St} {t : Tree} {e : Ex SBlock} (h : expr N Γ s t = .ok (e, s')) (ht : ∀ xs v, t = .assign xs v → xs ≠ []) :
    (∀ n j, e = .fld n j → t = .var n ∧ pushVariable Γ n = .fld n j) ∧ (∀ l, e = .lit l → ∃ l0, t = .lit l0 ∧ literal N s l0 = .ok (l, s')) ∧
    (∀ g, e = .glob g → ∃ x, t = .var x) := by
  cases t with
  | var x =>
    simp only [expr] at h
    obtain ⟨h, _⟩ := pairInv h
    refine ⟨fun n j he => ?_, fun l he => ?_, fun g he => ⟨x, rfl⟩⟩
    · rw [he] at h
      obtain ⟨rfl, _⟩ := pushVariable_fld h
      exact ⟨rfl, h⟩
    · rw [he, pushVariable] at h
      split at h
      · cases h
      · split at h <;> cases h
  | lit l =>
    simp only [expr] at h
    obtain ⟨⟨l', s1⟩, h1, h⟩ := except_bind_ok h
    obtain ⟨h, h'⟩ := pairInv h
    refine ⟨fun n j he => ?_, fun l2 he => ?_, fun g he => ?_⟩
    · rw [he] at h; cases h
    · rw [he] at h
      injection h with h
      dsimp only at h h'
      subst h h'
      exact ⟨l, rfl, h1⟩
    · rw [he] at h; cases h
  | send sup sel r as =>
    have : ∀ e', expr N Γ s (.send sup sel r as) = .ok (e', s') → (∃ r, e' = .inc r) ∨ (∃ r, e' = .dec r) ∨ (∃ a b c, e' = .send a b c) ∨ (∃ a b c, e' = .superSend a b c) := by
      intro e' h
      simp only [expr] at h
      obtain ⟨⟨r', s1⟩, h1, h⟩ := except_bind_ok h
      dsimp only at h
      split at h
      · obtain ⟨h, _⟩ := pairInv h
        split at h <;> subst h
        · exact .inl ⟨_, rfl⟩
        · exact .inr (.inl ⟨_, rfl⟩)
      · obtain ⟨⟨as', s2⟩, h2, h⟩ := except_bind_ok h
        obtain ⟨h, _⟩ := pairInv h
        split at h <;> subst h
        · exact .inr (.inr (.inr ⟨_, _, _, rfl⟩))
        · exact .inr (.inr (.inl ⟨_, _, _, rfl⟩))
    rcases this e h with ⟨_, rfl⟩ | ⟨_, rfl⟩ | ⟨_, _, _, rfl⟩ | ⟨_, _, _, rfl⟩ <;> exact ⟨fun _ _ h => (nomatch h), fun _ h => (nomatch h), fun _ h => (nomatch h)⟩
  | assign xs v =>
    simp only [expr] at h
    obtain ⟨⟨v', s1⟩, h1, h⟩ := except_bind_ok h
    obtain ⟨ts, h2, h⟩ := except_bind_ok h
    cases ts with
    | nil => exact absurd (popVariables_nil h2) (ht _ _ rfl)
    | cons t ts =>
      obtain ⟨h, _⟩ := pairInv h
      subst h
      exact ⟨fun _ _ h => (nomatch h), fun _ h => (nomatch h), fun _ h => (nomatch h)⟩
  | block ps ls ts ex =>
    simp only [expr] at h
    obtain ⟨S, h1, h⟩ := except_bind_ok h
    obtain ⟨⟨b, s1⟩, h2, h⟩ := except_bind_ok h
    obtain ⟨h, _⟩ := pairInv h
    subst h
    exact ⟨fun _ _ h => (nomatch h), fun _ h => (nomatch h), fun _ h => (nomatch h)⟩

theorem literal_one {N : Numbers} {s s' : St} {l : Parse.Lit} (h1 : literal N s l = .ok (.val (.int 1), s')) : one N (.lit l) := by
  cases l with
  | int neg t =>
    simp only [literal] at h1
    obtain ⟨o, h2, h1⟩ := except_bind_ok h1
    cases o with
    | none => cases h1
    | some i =>
      obtain ⟨h1, _⟩ := pairInv h1
      injection h1 with h1
      injection h1 with h1
      exact ⟨i, h2, h1⟩
  | dbl neg t =>
    simp only [literal] at h1
    obtain ⟨o, h2, h1⟩ := except_bind_ok h1
    cases h1
  | str t => cases h1
  | sym t => cases h1
  | arr es =>
    simp only [literal] at h1
    obtain ⟨o, h2, h1⟩ := except_bind_ok h1
    cases h1

theorem literal_arr {N : Numbers} {s s' : St} {l : Parse.Lit} {es : LitTs} (h1 : literal N s l = .ok (.arr es, s')) : ∃ es, l = .arr es := by
  cases l with
  | int neg t =>
    simp only [literal] at h1
    obtain ⟨o, h2, h1⟩ := except_bind_ok h1
    cases o <;> cases h1
  | dbl neg t =>
    simp only [literal] at h1
    obtain ⟨o, h2, h1⟩ := except_bind_ok h1
    cases h1
  | str t => cases h1
  | sym t => cases h1
  | arr es => exact ⟨es, rfl⟩

theorem fairT_assign {M : Numbers} {I D F C N : Prop} {inner : Bool} {t : Tree} (h : fairT M I D F C N inner t) : ∀ xs v, t = .assign xs v → xs ≠ [] := by
  rintro xs v rfl
  simp only [fairT] at h
  exact h.1

/-- The arguments of a message become one `1` only if there is one argument and it is that. -/
theorem args_one {M : Numbers} {Γ : Ctx} {I D F C N : Prop} {inner : Bool} {s s' : St} {as : List Tree} (hf : fairL M I D F C N inner as)
    (h : args M Γ s as = .ok (.cons (.lit (.val (.int 1))) .nil, s')) : ∃ a, as = [a] ∧ one M a := by
  cases as with
  | nil => cases h
  | cons a as =>
    simp only [args] at h
    obtain ⟨⟨a', s1⟩, h1, h⟩ := except_bind_ok h
    obtain ⟨⟨as', s2⟩, h2, h⟩ := except_bind_ok h
    obtain ⟨h, _⟩ := pairInv h
    injection h with h3 h4
    dsimp only at h3 h4
    subst h3 h4
    obtain ⟨l0, rfl, hl⟩ := (expr_shape h1 (fairT_assign hf.1)).2.1 _ rfl
    cases as with
    | nil => exact ⟨_, rfl, literal_one hl⟩
    | cons b as =>
      simp only [args] at h2
      obtain ⟨_, h3, h2⟩ := except_bind_ok h2
      obtain ⟨_, h4, h2⟩ := except_bind_ok h2
      cases h2

/-- Only `e + 1` becomes an increment. -/
theorem expr_inc {N : Numbers} {Γ : Ctx} {s s' : St} {t : Tree} {r' : Ex SBlock} (h : expr N Γ s t = .ok (.inc r', s')) (ht : ∀ xs v, t = .assign xs v → xs ≠ []) :
    ∃ r a s1, t = .send false ['+'] r [a] ∧ isOne [a] = true ∧ expr N Γ s r = .ok (r', s1) := by
  cases t with
  | var x =>
    simp only [expr] at h
    obtain ⟨h, _⟩ := pairInv h
    unfold pushVariable at h
    split at h
    · cases h
    · split at h <;> cases h
  | lit l =>
    simp only [expr] at h
    obtain ⟨_, h1, h⟩ := except_bind_ok h
    cases h
  | send sup sel r as =>
    simp only [expr] at h
    obtain ⟨⟨r2, s1⟩, h1, h'⟩ := except_bind_ok h
    dsimp only at h'
    split at h'
    · next hc =>
      obtain ⟨h2, _⟩ := pairInv h'
      have h3 := hc.2.2.1
      obtain ⟨l, rfl⟩ := isOne_inv h3
      rcases hc.2.1 with rfl | rfl
      · rw [if_pos rfl] at h2
        injection h2 with h2
        subst h2
        exact ⟨r, _, s1, by rw [hc.1], h3, h1⟩
      · rw [if_neg (by decide)] at h2
        cases h2
    · obtain ⟨⟨as', s2⟩, _, h2⟩ := except_bind_ok h'
      obtain ⟨h2, _⟩ := pairInv h2
      split at h2 <;> cases h2
  | assign xs v =>
    simp only [expr] at h
    obtain ⟨⟨v', s1⟩, h1, h⟩ := except_bind_ok h
    obtain ⟨ts, h2, h⟩ := except_bind_ok h
    cases ts with
    | nil => exact absurd (popVariables_nil h2) (ht _ _ rfl)
    | cons t ts => cases h
  | block ps ls ts ex =>
    simp only [expr] at h
    obtain ⟨S, h1, h⟩ := except_bind_ok h
    obtain ⟨⟨b, s1⟩, h2, h⟩ := except_bind_ok h
    cases h

/-- Only a message becomes a message. -/
theorem expr_send {N : Numbers} {Γ : Ctx} {s s' : St} {t : Tree} {sel : Sel} {r' : Ex SBlock} {as' : Exs SBlock} (h : expr N Γ s t = .ok (.send sel r' as', s'))
    (ht : ∀ xs v, t = .assign xs v → xs ≠ []) :
    ∃ r as s1 s2, t = .send false sel r as ∧ expr N Γ s r = .ok (r', s1) ∧ args N Γ s2 as = .ok (as', s') := by
  cases t with
  | var x =>
    simp only [expr] at h
    obtain ⟨h, _⟩ := pairInv h
    unfold pushVariable at h
    split at h
    · cases h
    · split at h <;> cases h
  | lit l =>
    simp only [expr] at h
    obtain ⟨_, h1, h⟩ := except_bind_ok h
    cases h
  | send sup sel r as =>
    simp only [expr] at h
    obtain ⟨⟨r2, s1⟩, h1, h'⟩ := except_bind_ok h
    dsimp only at h'
    split at h'
    · obtain ⟨h2, _⟩ := pairInv h'
      split at h2 <;> cases h2
    · obtain ⟨⟨as2, s2⟩, h3, h2⟩ := except_bind_ok h'
      obtain ⟨h2, h4⟩ := pairInv h2
      cases sup with
      | true => cases h2
      | false =>
        simp only [Bool.false_eq_true, if_false] at h2
        injection h2 with e1 e2 e3
        dsimp only at e2 e3 h4
        subst e1 e2 e3 h4
        exact ⟨_, _, _, _, rfl, h1, h3⟩
  | assign xs v =>
    simp only [expr] at h
    obtain ⟨⟨v', s1⟩, h1, h⟩ := except_bind_ok h
    obtain ⟨ts, h2, h⟩ := except_bind_ok h
    cases ts with
    | nil => exact absurd (popVariables_nil h2) (ht _ _ rfl)
    | cons t ts => cases h
  | block ps ls ts ex =>
    simp only [expr] at h
    obtain ⟨S, h1, h⟩ := except_bind_ok h
    obtain ⟨⟨b, s1⟩, h2, h⟩ := except_bind_ok h
    cases h

/-- The value is `f + 1`, where `f` is the last variable that is assigned to. -/
theorem expr_fuses {M : Numbers} {I D F C N : Prop} {Γ : Ctx} {s s' : St} {inner : Bool} {xs : List Name} {ts : List Tgt} {v : Tree} {e : Ex SBlock} (h : expr M Γ s v = .ok (e, s'))
    (hf : fairT M I D F C N inner v) (hlast : ∀ n i, ts.getLast? = some (.fld n i) → xs.getLast? = some n ∧ Γ.fields[i]? = some n) (hfu : fuses ts e) :
    ∃ x a, v = .send false ['+'] (.var x) [a] ∧ (isOne [a] = true ∨ one M a) ∧ xs.getLast? = some x := by
  unfold fuses at hfu
  split at hfu
  · obtain ⟨n, hn⟩ := hfu
    obtain ⟨r, a, s1, rfl, h1, h2⟩ := expr_inc h (fairT_assign hf)
    simp only [fairT] at hf
    obtain ⟨rfl, h3⟩ := (expr_shape h2 (fairT_assign hf.1)).1 _ _ rfl
    obtain ⟨h4, h5⟩ := hlast _ _ hn
    have h6 := (pushVariable_fld h3).2
    rw [h5] at h6
    cases h6
    exact ⟨_, a, rfl, .inl h1, h4⟩
  · obtain ⟨rfl, n, hn⟩ := hfu
    obtain ⟨r, as, s1, s2, rfl, h1, h2⟩ := expr_send h (fairT_assign hf)
    simp only [fairT] at hf
    obtain ⟨rfl, h3⟩ := (expr_shape h1 (fairT_assign hf.1)).1 _ _ rfl
    obtain ⟨a, rfl, ha⟩ := args_one hf.2.1 h2
    obtain ⟨h4, h5⟩ := hlast _ _ hn
    have h6 := (pushVariable_fld h3).2
    rw [h5] at h6
    cases h6
    exact ⟨_, a, rfl, .inr ha, h4⟩
  · exact hfu.elim

theorem body_tidy {M : Numbers} {I D F C N : Prop} {Γ : Ctx} {s s' : St} {inner ex : Bool} {ts : List Tree} {b : Body SBlock} {env : List Nat} (h : body M true Γ s ex ts = .ok (b, s'))
    (hf : fairL M I D F C N inner ts) (ht : ex = false → (∃ l, ts = [.lit l]) ∨ (∃ x, ts = [.var x]) → env = []) : b.tidy env := by
  have key : ∀ e, b = .stmt e .done → ∃ t, ts = [t] ∧ ex = false ∧ (∀ xs v, t = .assign xs v → xs ≠ []) ∧ ∃ s1, expr M Γ s t = .ok (e, s1) := by
    rintro e rfl
    match ts with
    | [] => cases h
    | t :: ts =>
      simp only [body] at h
      split at h
      · split at h
        · next hd => cases hd.1
        · obtain ⟨_, _, h⟩ := except_bind_ok h
          cases h
      · next hc =>
        obtain ⟨⟨e1, s1⟩, h1, h2⟩ := except_bind_ok h
        dsimp only at h2
        split at h2
        · cases h2
        · obtain ⟨⟨b', s2⟩, h3, h4⟩ := except_bind_ok h2
          obtain ⟨h4, _⟩ := pairInv h4
          injection h4 with e2 e3
          dsimp only at e2 e3
          subst e2 e3
          have : ts = [] := by
            cases ts with
            | nil => rfl
            | cons u us =>
              simp only [body] at h3
              split at h3
              · split at h3
                · cases h3
                · obtain ⟨_, _, h3⟩ := except_bind_ok h3
                  cases h3
              · obtain ⟨_, _, h3⟩ := except_bind_ok h3
                split at h3
                · cases h3
                · obtain ⟨_, _, h3⟩ := except_bind_ok h3
                  cases h3
          subst this
          refine ⟨t, rfl, ?_, fairT_assign hf.1, s1, h1⟩
          cases ex with
          | false => rfl
          | true => exact absurd ⟨rfl, rfl⟩ hc
  unfold Body.tidy
  split
  · obtain ⟨t, rfl, he, ha, s1, h1⟩ := key _ rfl
    obtain ⟨l, rfl, _⟩ := (expr_shape h1 ha).2.1 _ rfl
    exact ht he (.inl ⟨_, rfl⟩)
  · obtain ⟨t, rfl, he, ha, s1, h1⟩ := key _ rfl
    obtain ⟨x, rfl⟩ := (expr_shape h1 ha).2.2 _ rfl
    exact ht he (.inr ⟨_, rfl⟩)
  · obtain ⟨t, rfl, he, ha, s1, h1⟩ := key _ rfl
    obtain ⟨rfl, _⟩ := (expr_shape h1 ha).1 _ _ rfl
    exact ht he (.inr ⟨_, rfl⟩)
  · trivial

mutual
theorem expr_fair (M : Numbers) (I D F C N : Prop) (Γ : Ctx) (s : St) (inner : Bool) (t : Tree) : ∀ (e : Ex SBlock) (s' : St), expr M Γ s t = .ok (e, s') → fairT M I D F C N inner t →
    e.fair I D F C N inner ∧ e.throws = escapes t := by
  match t with
  | .var x =>
    intro e s' h _
    simp only [expr] at h
    obtain ⟨h, _⟩ := pairInv h
    subst h
    exact pushVariable_fair Γ x
  | .lit l =>
    intro e s' h hf
    simp only [expr] at h
    obtain ⟨⟨l', s1⟩, h1, h⟩ := except_bind_ok h
    obtain ⟨h, h'⟩ := pairInv h
    subst h
    cases l' with
    | val v => exact ⟨trivial, rfl⟩
    | arr es =>
      obtain ⟨es', rfl⟩ := literal_arr h1
      exact absurd hf id
  | .send sup sel r as =>
    intro e s' h hf
    simp only [fairT] at hf
    simp only [expr] at h
    obtain ⟨⟨r', s1⟩, h1, h'⟩ := except_bind_ok h
    clear h
    obtain ⟨k1, k2⟩ := expr_fair M I D F C N Γ s inner r _ _ h1 hf.1
    dsimp only at h'
    split at h'
    · next hc =>
      obtain ⟨h, _⟩ := pairInv h'
      subst h
      obtain ⟨l, rfl⟩ := isOne_inv hc.2.2.1
      rcases hc.2.1 with rfl | rfl
      · exact ⟨k1, by rw [if_pos rfl]; simp only [Ex.throws, k2, escapes, escapesL, Bool.or_false]⟩
      · exact ⟨⟨k1, hf.2.2.2 hc.1 rfl hc.2.2.1⟩, by rw [if_neg (by decide)]; simp only [Ex.throws, k2, escapes, escapesL, Bool.or_false]⟩
    · obtain ⟨⟨as', s2⟩, h2, h⟩ := except_bind_ok h'
      obtain ⟨h, _⟩ := pairInv h
      obtain ⟨k3, k4⟩ := args_fair M I D F C N Γ _ inner as _ _ h2 hf.2.1
      subst h
      cases sup with
      | true => exact ⟨⟨k1, k3⟩, by simp only [if_true, Ex.throws, k2, k4, escapes]⟩
      | false =>
        refine ⟨⟨k1, k3, fun hsel has => ?_⟩, by simp only [Bool.false_eq_true, if_false, Ex.throws, k2, k4, escapes]⟩
        dsimp only at has
        subst has
        obtain ⟨a, rfl, ha⟩ := args_one hf.2.1 h2
        exact hf.2.2.1 rfl a rfl ha hsel
  | .assign xs v =>
    intro e s' h hf
    simp only [fairT] at hf
    simp only [expr] at h
    obtain ⟨⟨v', s1⟩, h1, h⟩ := except_bind_ok h
    obtain ⟨ts, h2, h⟩ := except_bind_ok h
    obtain ⟨k1, k2⟩ := expr_fair M I D F C N Γ s inner v _ _ h1 hf.2.1
    cases ts with
    | nil => exact absurd (popVariables_nil h2) hf.1
    | cons t ts =>
      obtain ⟨h, _⟩ := pairInv h
      subst h
      obtain ⟨hl, hlast⟩ := popVariables_get h2
      refine ⟨⟨k1, fun hts => hf.2.2.1 ?_, fun hfu => ?_⟩, k2⟩
      · cases ts with
        | nil => exact absurd rfl hts
        | cons u us => rw [← hl]; simp only [List.length_cons]; omega
      · obtain ⟨x, a, e1, e2, e3⟩ := expr_fuses h1 hf.2.1 hlast hfu
        exact hf.2.2.2 x a e1 e2 e3
  | .block ps ls ts ex =>
    intro e s' h hf
    simp only [fairT] at hf
    simp only [expr] at h
    obtain ⟨S, h1, h⟩ := except_bind_ok h
    obtain ⟨⟨b, s1⟩, h2, h⟩ := except_bind_ok h
    obtain ⟨h, _⟩ := pairInv h
    subst h
    obtain ⟨rfl, _, _⟩ := newScope_ok h1
    obtain ⟨k1, k2⟩ := body_fair M I D F C N true _ _ true ex ts _ _ h2 hf.1
    refine ⟨⟨⟨k1, ?_, (In.zipIdx ls _).nodup⟩, fun hi ht => hf.2.1 hi ?_⟩, ?_⟩
    · exact body_tidy h2 hf.1 fun he ht => by rw [hf.2.2 he ht]; rfl
    · simp only [SBlock.throws, k2] at ht
      simpa [escapes] using ht
    · simp only [Ex.throws, SBlock.throws, k2, escapes, Bool.true_and]
theorem args_fair (M : Numbers) (I D F C N : Prop) (Γ : Ctx) (s : St) (inner : Bool) (ts : List Tree) : ∀ (es : Exs SBlock) (s' : St), args M Γ s ts = .ok (es, s') → fairL M I D F C N inner ts →
    es.fair I D F C N inner ∧ es.throws = escapesL ts := by
  match ts with
  | [] => intro es s' h _; cases h; exact ⟨trivial, rfl⟩
  | t :: ts =>
    intro es s' h hf
    simp only [args] at h
    obtain ⟨⟨r', s1⟩, h1, h⟩ := except_bind_ok h
    obtain ⟨⟨as', s2⟩, h2, h⟩ := except_bind_ok h
    obtain ⟨h, _⟩ := pairInv h
    subst h
    obtain ⟨k1, k2⟩ := expr_fair M I D F C N Γ s inner t _ _ h1 hf.1
    obtain ⟨k3, k4⟩ := args_fair M I D F C N Γ _ inner ts _ _ h2 hf.2
    exact ⟨⟨k1, k3⟩, by simp only [Exs.throws, escapesL, k2, k4]⟩
theorem body_fair (M : Numbers) (I D F C N : Prop) (isBlock : Bool) (Γ : Ctx) (s : St) (inner ex : Bool) (ts : List Tree) : ∀ (b : Body SBlock) (s' : St), body M isBlock Γ s ex ts = .ok (b, s') →
    fairL M I D F C N inner ts → b.fair I D F C N inner ∧ b.throws isBlock = ((isBlock && (ex && !ts.isEmpty)) || escapesL ts) := by
  match ts with
  | [] => intro b s' h _; cases h; exact ⟨trivial, by simp [Body.throws, escapesL]⟩
  | t :: ts =>
    intro b s' h hf
    simp only [body] at h
    split at h
    · next hc =>
      split at h
      · next hd =>
        obtain ⟨h, _⟩ := pairInv h
        subst h
        cases isSelf_inv hd.2.1
        have := List.isEmpty_iff.1 hc.1
        subst this
        refine ⟨trivial, ?_⟩
        simp [Body.throws, escapesL, escapes, hc.2]
      · obtain ⟨⟨e, s1⟩, h1, h⟩ := except_bind_ok h
        obtain ⟨h, _⟩ := pairInv h
        subst h
        have := List.isEmpty_iff.1 hc.1
        subst this
        obtain ⟨k1, k2⟩ := expr_fair M I D F C N Γ _ inner t _ _ h1 hf.1
        refine ⟨k1, ?_⟩
        simp [Body.throws, escapesL, k2, hc.2]
    · next hc =>
      obtain ⟨⟨e, s1⟩, h1, h⟩ := except_bind_ok h
      obtain ⟨k1, k2⟩ := expr_fair M I D F C N Γ _ inner t _ _ h1 hf.1
      dsimp only at h
      split at h
      · next hd =>
        obtain ⟨h, _⟩ := pairInv h
        subst h
        have := List.isEmpty_iff.1 hd.1
        subst this
        refine ⟨k1, ?_⟩
        cases ex with
        | true => exact absurd ⟨rfl, rfl⟩ hc
        | false => simp [Body.throws, escapesL, k2]
      · obtain ⟨⟨b', s2⟩, h2, h⟩ := except_bind_ok h
        obtain ⟨h, _⟩ := pairInv h
        subst h
        obtain ⟨k3, k4⟩ := body_fair M I D F C N isBlock Γ _ inner ex ts _ _ h2 hf.2
        refine ⟨⟨k1, k3⟩, ?_⟩
        simp only [Body.throws, k2, k4, escapesL]
        cases ts with
        | nil =>
          cases ex with
          | true => exact absurd ⟨rfl, rfl⟩ hc
          | false => simp
        | cons u us =>
          simp only [List.isEmpty_cons]
          ac_rfl
end

/-- Only a variable becomes a variable. -/
theorem expr_var {N : Numbers} {Γ : Ctx} {s s' : St} {t : Tree} {a : Bool} {i l : Nat} (h : expr N Γ s t = .ok (.var a i l, s')) (ht : ∀ xs v, t = .assign xs v → xs ≠ []) :
    ∃ x, t = .var x ∧ pushVariable Γ x = .var a i l := by
  cases t with
  | var x =>
    simp only [expr] at h
    exact ⟨x, rfl, (pairInv h).1⟩
  | lit l =>
    simp only [expr] at h
    obtain ⟨_, h1, h⟩ := except_bind_ok h
    cases h
  | send sup sel r as =>
    simp only [expr] at h
    obtain ⟨⟨r2, s1⟩, h1, h'⟩ := except_bind_ok h
    dsimp only at h'
    split at h'
    · obtain ⟨h2, _⟩ := pairInv h'
      split at h2 <;> cases h2
    · obtain ⟨⟨as2, s2⟩, h3, h2⟩ := except_bind_ok h'
      obtain ⟨h2, h4⟩ := pairInv h2
      split at h2 <;> cases h2
  | assign xs v =>
    simp only [expr] at h
    obtain ⟨⟨v', s1⟩, h1, h⟩ := except_bind_ok h
    obtain ⟨ts, h2, h⟩ := except_bind_ok h
    cases ts with
    | nil => exact absurd (popVariables_nil h2) (ht _ _ rfl)
    | cons t ts => cases h
  | block ps ls ts ex =>
    simp only [expr] at h
    obtain ⟨S, h1, h⟩ := except_bind_ok h
    obtain ⟨⟨b, s1⟩, h2, h⟩ := except_bind_ok h
    cases h

/-- Only an assignment becomes an assignment. -/
theorem expr_asg {N : Numbers} {Γ : Ctx} {s s' : St} {t : Tree} {g : Tgt} {gs : List Tgt} {e : Ex SBlock} (h : expr N Γ s t = .ok (.asg g gs e, s')) (ht : ∀ xs v, t = .assign xs v → xs ≠ []) :
    ∃ xs v s1, t = .assign xs v ∧ popVariables Γ xs = .ok (g :: gs) ∧ expr N Γ s v = .ok (e, s1) := by
  cases t with
  | var x =>
    simp only [expr] at h
    obtain ⟨h, _⟩ := pairInv h
    unfold pushVariable at h
    split at h
    · cases h
    · split at h <;> cases h
  | lit l =>
    simp only [expr] at h
    obtain ⟨_, h1, h⟩ := except_bind_ok h
    cases h
  | send sup sel r as =>
    simp only [expr] at h
    obtain ⟨⟨r2, s1⟩, h1, h'⟩ := except_bind_ok h
    dsimp only at h'
    split at h'
    · obtain ⟨h2, _⟩ := pairInv h'
      split at h2 <;> cases h2
    · obtain ⟨⟨as2, s2⟩, h3, h2⟩ := except_bind_ok h'
      obtain ⟨h2, h4⟩ := pairInv h2
      split at h2 <;> cases h2
  | assign xs v =>
    simp only [expr] at h
    obtain ⟨⟨v', s1⟩, h1, h⟩ := except_bind_ok h
    obtain ⟨ts, h2, h⟩ := except_bind_ok h
    cases ts with
    | nil => exact absurd (popVariables_nil h2) (ht _ _ rfl)
    | cons t ts =>
      obtain ⟨h, _⟩ := pairInv h
      injection h with e1 e2 e3
      dsimp only at e3
      subst e1 e2 e3
      exact ⟨xs, v, s1, rfl, h2, h1⟩
  | block ps ls ts ex =>
    simp only [expr] at h
    obtain ⟨S, h1, h⟩ := except_bind_ok h
    obtain ⟨⟨b, s1⟩, h2, h⟩ := except_bind_ok h
    cases h

/-- A setter. -/
theorem body_setter {M : Numbers} {I D F C N : Prop} {S : NScope} {fields : List Name} {s s' : St} {inner ex : Bool} {ts : List Tree} {b : Body SBlock}
    (h : body M false ⟨[S], fields⟩ s ex ts = .ok (b, s')) (hf : fairL M I D F C N inner ts) (hn : notSetter ts ex) : b.setter := by
  have lvl : ∀ {x : Name} {i l : Nat}, pushVariable ⟨[S], fields⟩ x = .var true i l → l = 0 := by
    intro x i l hp
    unfold pushVariable findVar at hp
    simp only at hp
    cases h1 : indexOf S.locals x with
    | some j => rw [h1] at hp; cases hp
    | none =>
      rw [h1] at hp
      cases h2 : indexOf S.args x with
      | some j => rw [h2] at hp; injection hp with _ _ hp; exact hp.symm
      | none =>
        rw [h2] at hp
        simp only [findVar] at hp
        split at hp <;> cases hp
  -- an assignment to a field comes from one
  have key : ∀ {t : Tree} {s s1 : St} {n : Sel} {j : Nat} {a : Bool} {i l : Nat}, fairT M I D F C N inner t → expr M ⟨[S], fields⟩ s t = .ok (.asg (.fld n j) [] (.var a i l), s1) →
      ∃ f x, t = .assign [f] (.var x) ∧ pushVariable ⟨[S], fields⟩ x = .var a i l := by
    intro t s s1 n j a i l hf he
    obtain ⟨xs, v, s2, rfl, h1, h2⟩ := expr_asg he (fairT_assign hf)
    simp only [fairT] at hf
    obtain ⟨x, rfl, h3⟩ := expr_var h2 (fairT_assign hf.2.1)
    have hl := (popVariables_get h1).1
    match xs, hl with
    | [f], _ => exact ⟨f, x, rfl, h3⟩
  match ts with
  | [] => cases h; trivial
  | t :: ts =>
    simp only [body] at h
    split at h
    · next hc =>
      have := List.isEmpty_iff.1 hc.1
      subst this
      split at h
      · obtain ⟨h, _⟩ := pairInv h
        subst h
        trivial
      · obtain ⟨⟨e, s1⟩, h1, h2⟩ := except_bind_ok h
        obtain ⟨h2, _⟩ := pairInv h2
        subst h2
        unfold Body.setter
        dsimp only
        split
        · next e2 =>
          injection e2 with e2
          subst e2
          obtain ⟨f, x, rfl, _⟩ := key hf.1 h1
          exact absurd ⟨f, x, rfl⟩ (hn hc.2)
        · next e2 => cases e2
        · next e2 => cases e2
        · trivial
    · obtain ⟨⟨e, s1⟩, h1, h2⟩ := except_bind_ok h
      dsimp only at h2
      split at h2
      · obtain ⟨h2, _⟩ := pairInv h2
        subst h2
        unfold Body.setter
        split
        · next e2 => cases e2
        · next e2 =>
          injection e2 with e2
          subst e2
          obtain ⟨f, x, rfl, hx⟩ := key hf.1 h1
          exact lvl hx
        · next e2 => cases e2
        · trivial
      · obtain ⟨⟨b', s2⟩, h3, h4⟩ := except_bind_ok h2
        obtain ⟨h4, _⟩ := pairInv h4
        subst h4
        unfold Body.setter
        split
        · next e2 => cases e2
        · next e2 => cases e2
        · next e2 =>
          injection e2 with e2
          subst e2
          obtain ⟨f, x, rfl, hx⟩ := key hf.1 h1
          exact lvl hx
        · trivial

end PySOM.Elab

import Verif.Spec.Grammar
/-! # Lemmas on the parsers: phrases of the grammar are parsed to their trees -/
set_option autoImplicit false
namespace PySOM.Parse
open PySOM.Lex PySOM.Parse.Grammar

/-- Holds for all sufficiently large fuel. -/
def Ev (P : Nat → Prop) : Prop := ∃ n, ∀ m, n ≤ m → P m

theorem Ev.step {P Q : Nat → Prop} (h : Ev P) (f : ∀ k, P k → Q (k + 1)) : Ev Q := by
  obtain ⟨n, hn⟩ := h
  refine ⟨n + 1, fun m hm => ?_⟩
  obtain ⟨k, rfl⟩ : ∃ k, m = k + 1 := ⟨m - 1, by omega⟩
  exact f k (hn k (by omega))
theorem Ev.and {P Q : Nat → Prop} (h : Ev P) (h' : Ev Q) : Ev fun k => P k ∧ Q k := by
  obtain ⟨n, hn⟩ := h
  obtain ⟨n', hn'⟩ := h'
  exact ⟨max n n', fun m hm => ⟨hn m (by omega), hn' m (by omega)⟩⟩
theorem Ev.of {P : Nat → Prop} (f : ∀ k, P (k + 1)) : Ev P :=
  ⟨1, fun m hm => by obtain ⟨k, rfl⟩ : ∃ k, m = k + 1 := ⟨m - 1, by omega⟩
                     exact f k⟩
theorem Ev.mono {P Q : Nat → Prop} (h : Ev P) (f : ∀ k, P k → Q k) : Ev Q := by
  obtain ⟨n, hn⟩ := h
  exact ⟨n, fun m hm => f m (hn m hm)⟩

section basics
variable {t u : Tok} {r : List Tok} {b : Bool}

@[simp] theorem sym_cons : PSt.sym ⟨t :: r, b⟩ = t.sym := rfl
@[simp] theorem text_cons : PSt.text ⟨t :: r, b⟩ = t.text := rfl
@[simp] theorem advance_cons : PSt.advance ⟨t :: r, b⟩ = ⟨r, b⟩ := rfl
@[simp] theorem next_cons : PSt.next ⟨t :: u :: r, b⟩ = u.sym := rfl
@[simp] theorem sym_nil : PSt.sym ⟨[], b⟩ = .none := rfl

theorem isIdent_iff : PSt.isIdent ⟨t :: r, b⟩ = true ↔ IsId t := by
  simp only [PSt.isIdent, sym_cons, Bool.or_eq_true, beq_iff_eq, IsId]
theorem isBinOp_iff : PSt.isBinOp ⟨t :: r, b⟩ = true ↔ IsOp t := by
  simp only [PSt.isBinOp, sym_cons, Bool.or_eq_true, beq_iff_eq, IsOp, binaryOpSyms]
  generalize t.sym = s
  cases s <;> decide
theorem isIdent_nil : PSt.isIdent ⟨[], b⟩ = false := rfl
theorem isBinOp_nil : PSt.isBinOp ⟨[], b⟩ = false := by cases b <;> decide

theorem isIdent_stop {rest : List Tok} (h : ∀ t ∈ rest.head?, ¬ IsId t) : PSt.isIdent ⟨rest, b⟩ = false := by
  cases rest with
  | nil => rfl
  | cons t r =>
    have := h t rfl
    cases hc : PSt.isIdent ⟨t :: r, b⟩ with
    | false => rfl
    | true => exact absurd (isIdent_iff.mp hc) this
theorem isBinOp_stop {rest : List Tok} (h : ∀ t ∈ rest.head?, ¬ IsOp t) : PSt.isBinOp ⟨rest, b⟩ = false := by
  cases rest with
  | nil => exact isBinOp_nil
  | cons t r =>
    have := h t rfl
    cases hc : PSt.isBinOp ⟨t :: r, b⟩ with
    | false => rfl
    | true => exact absurd (isBinOp_iff.mp hc) this
theorem sym_ne {rest : List Tok} {k : Sym} (hk : k ≠ .none) (h : ∀ t ∈ rest.head?, t.sym ≠ k) : PSt.sym ⟨rest, b⟩ ≠ k := by
  cases rest with
  | nil => exact fun h => hk h.symm
  | cons t r => exact h t rfl

theorem Grammar.IsId.not_op (h : IsId t) : ¬ IsOp t := by
  simp only [IsId, IsOp] at *
  rcases h with h | h <;> rw [h] <;> decide
theorem Grammar.IsOp.not_id (h : IsOp t) : ¬ IsId t := fun h1 => IsId.not_op h1 h
theorem keyword_not_id (h : t.sym = .keyword) : ¬ IsId t := by
  simp only [IsId, h]; decide
theorem keyword_not_op (h : t.sym = .keyword) : ¬ IsOp t := by
  simp only [IsOp, h]; decide

@[simp] theorem expect_cons {k : Sym} (h : t.sym = k) : PSt.expect ⟨t :: r, b⟩ k = .ok ⟨r, b⟩ := by
  simp only [PSt.expect, sym_cons, if_pos h, advance_cons]
theorem identifier_cons (h : IsId t) : PSt.identifier ⟨t :: r, b⟩ = .ok (t.text, ⟨r, b⟩) := by
  simp only [PSt.identifier, sym_cons, text_cons, advance_cons]
  by_cases hp : t.sym = .primitive
  · rw [if_pos hp]
  · rw [if_neg hp, expect_cons (h.resolve_right hp)]
    rfl
theorem binarySelector_cons (h : IsOp t) : PSt.binarySelector ⟨t :: r, b⟩ = .ok (t.text, ⟨r, b⟩) := by
  simp only [PSt.binarySelector, sym_cons, text_cons, advance_cons]
  by_cases hp : singleOpSyms.contains t.sym = true
  · rw [if_pos hp]
  · rw [if_neg hp, if_pos]
    simp only [IsOp] at h
    revert h hp
    generalize t.sym = s
    cases s <;> decide
theorem selector_cons (h : IsSelector t) : PSt.selector ⟨t :: r, b⟩ = .ok (t.text, ⟨r, b⟩) := by
  simp only [PSt.selector, sym_cons, text_cons, advance_cons]
  by_cases ho : IsOp t
  · rw [if_pos, binarySelector_cons ho]
    simp only [IsOp] at ho
    revert ho
    generalize t.sym = s
    cases s <;> decide
  · rw [if_neg]
    · by_cases hk : t.sym = .keyword ∨ t.sym = .keywordSequence
      · rw [if_pos hk]
      · rw [if_neg hk]
        rcases h with h | h | h | h
        · exact identifier_cons h
        · exact absurd h ho
        · exact absurd (.inl h) hk
        · exact absurd (.inr h) hk
    · simp only [IsOp] at ho
      revert ho
      generalize t.sym = s
      cases s <;> decide
theorem decimal_cons {neg : Bool} (h : t.sym = .integer) : PSt.decimal ⟨t :: r, b⟩ neg = .ok (.int neg t.text, ⟨r, b⟩) := by
  simp only [PSt.decimal, sym_cons, if_pos h, text_cons, advance_cons]
theorem decimal_cons' {neg : Bool} (h : t.sym = .double) : PSt.decimal ⟨t :: r, b⟩ neg = .ok (.dbl neg t.text, ⟨r, b⟩) := by
  simp only [PSt.decimal, sym_cons, text_cons, advance_cons, h]
  rfl
end basics

section ok
open Except

theorem bind_ok {α β : Type} {x : Except Fail α} {a : α} {f : α → Except Fail β} (h : x = .ok a) : (x >>= f) = f a := by
  rw [h]; rfl

mutual
theorem literal_ok {ts : List Tok} {l : Lit} (h : GLit ts l) (rest : List Tok) (b : Bool) :
    Ev fun n => literal n ⟨ts ++ rest, b⟩ = .ok (l, ⟨rest, b⟩) := by
  cases h with
  | int h =>
    exact .of fun n => by
      simp only [literal, List.cons_append, List.nil_append, sym_cons, h, PSt.number, decimal_cons h]; rfl
  | dbl h =>
    exact .of fun n => by
      simp only [literal, List.cons_append, List.nil_append, sym_cons, h, PSt.number, decimal_cons' h]; rfl
  | negInt hm h =>
    exact .of fun n => by
      simp only [literal, List.cons_append, List.nil_append, sym_cons, hm, PSt.number, expect_cons hm, bind, Except.bind,
        decimal_cons h]; rfl
  | negDbl hm h =>
    exact .of fun n => by
      simp only [literal, List.cons_append, List.nil_append, sym_cons, hm, PSt.number, expect_cons hm, bind, Except.bind,
        decimal_cons' h]; rfl
  | str h =>
    exact .of fun n => by
      simp only [literal, List.cons_append, List.nil_append, sym_cons, text_cons, h, expect_cons h]; rfl
  | symStr hp h =>
    exact .of fun n => by
      simp only [literal, List.cons_append, List.nil_append, sym_cons, next_cons, text_cons, hp, h, PSt.symbol, expect_cons hp,
        expect_cons h, bind, Except.bind]; rfl
  | @sym p t hp h =>
    exact .of fun n => by
      have h1 : t.sym ≠ .newTerm := by
        simp only [IsSelector, IsId, IsOp] at h
        revert h
        generalize t.sym = s
        cases s <;> decide
      have h2 : t.sym ≠ .stString := by
        simp only [IsSelector, IsId, IsOp] at h
        revert h
        generalize t.sym = s
        cases s <;> decide
      simp only [literal, List.cons_append, List.nil_append, sym_cons, next_cons, text_cons, hp, PSt.symbol, expect_cons hp,
        bind, Except.bind, if_neg h1, if_neg h2, selector_cons h]; rfl
  | @arr p o c ts es hp ho hc h =>
    refine (literals_ok h (c :: rest) b (.inr ⟨c, rest, rfl, hc⟩)).step fun n ih => ?_
    have e : p :: o :: (ts ++ [c]) ++ rest = p :: o :: (ts ++ c :: rest) := by simp
    rw [e]
    simp only [literal, sym_cons, next_cons, hp, ho, if_true, expect_cons hp, bind, Except.bind, expect_cons ho, ih, expect_cons hc]
    rfl
theorem literals_ok {ts : List Tok} {es : List Lit} (h : GLits ts es) (rest : List Tok) (b : Bool)
    (hr : False ∨ ∃ c r, rest = c :: r ∧ c.sym = .endTerm) :
    Ev fun n => literals n ⟨ts ++ rest, b⟩ = .ok (es, ⟨rest, b⟩) := by
  obtain ⟨c, r, rfl, hc⟩ := hr.resolve_left id
  cases h with
  | nil => exact .of fun n => by simp only [literals, List.nil_append, sym_cons, hc, if_true]
  | @cons ts us e es h h' =>
    refine ((literal_ok h (us ++ c :: r) b).and (literals_ok h' (c :: r) b hr)).step fun n ih => ?_
    have hne : PSt.sym ⟨ts ++ (us ++ c :: r), b⟩ ≠ .endTerm := by
      cases h <;> simp_all
    rw [List.append_assoc]
    simp only [literals, if_neg hne, ih.1, ih.2, bind, Except.bind]
    rfl
end

theorem locals_ok {ts : List Tok} {xs : List Name} (h : Ids ts xs) (rest : List Tok) (b : Bool) (hr : ∀ t ∈ rest.head?, ¬ IsId t) :
    Ev fun n => locals n ⟨ts ++ rest, b⟩ = .ok (xs, ⟨rest, b⟩) := by
  induction h with
  | nil => exact .of fun n => by simp only [locals, List.nil_append, isIdent_stop hr]; rfl
  | cons ht _ ih =>
    refine ih.step fun n ih => ?_
    simp only [locals, List.cons_append, isIdent_iff.mpr ht, if_true, identifier_cons ht, bind, Except.bind, ih]
    rfl

theorem moreParams_ok {ts : List Tok} {xs : List Name} (h : Params ts xs) (rest : List Tok) (b : Bool)
    (hr : ∀ t ∈ rest.head?, t.sym ≠ .colon) :
    Ev fun n => moreParams n ⟨ts ++ rest, b⟩ = .ok (xs, ⟨rest, b⟩) := by
  induction h with
  | nil => exact .of fun n => by simp only [moreParams, List.nil_append, if_neg (sym_ne (by decide) hr)]
  | cons hc ht _ ih =>
    refine ih.step fun n ih => ?_
    simp only [moreParams, List.cons_append, sym_cons, hc, if_true, advance_cons, identifier_cons ht, bind, Except.bind, ih]
    rfl

theorem blockSignature_ok {o : Tok} {ts : List Tok} {xs : List Name} (ho : o.sym = .newBlock) (h : BlockHead ts xs) (rest : List Tok)
    (b : Bool) (hr : ∀ t ∈ rest.head?, t.sym ≠ .colon) :
    Ev fun n => blockSignature n ⟨o :: (ts ++ rest), b⟩ = .ok (xs, ⟨rest, b⟩) := by
  cases h with
  | none =>
    exact .of fun n => by
      simp only [blockSignature, List.nil_append, expect_cons ho, bind, Except.bind, if_neg (sym_ne (by decide) hr)]
      rfl
  | @some q ts xs hq h hx =>
    cases h with
    | nil => exact absurd rfl hx
    | @cons c t ts xs hc ht h =>
      refine (moreParams_ok h (q :: rest) b (fun u hu => ?_)).mono fun n ih => ?_
      · cases hu
        rw [hq]
        decide
      have e : o :: (c :: t :: ts ++ [q] ++ rest) = o :: c :: t :: (ts ++ q :: rest) := by simp
      rw [e]
      simp only [blockSignature, expect_cons ho, expect_cons hc, sym_cons, hc, if_true, identifier_cons ht, bind, Except.bind, ih,
        expect_cons hq]
      rfl

theorem localsDecl_ok {ts : List Tok} {xs : List Name} (h : LocalsDecl ts xs) (rest : List Tok) (b : Bool)
    (hr : ∀ t ∈ rest.head?, t.sym ≠ .or) :
    Ev fun n => localsDecl n ⟨ts ++ rest, b⟩ = .ok (xs, ⟨rest, b⟩) := by
  cases h with
  | none =>
    exact .of fun n => by
      simp only [localsDecl, List.nil_append, if_neg (sym_ne (by decide) hr)]
  | @some o c ts xs ho hc h =>
    refine (locals_ok h (c :: rest) b (fun u hu => ?_)).mono fun n ih => ?_
    · cases hu
      simp only [IsId, hc]
      decide
    have e : o :: (ts ++ [c]) ++ rest = o :: (ts ++ c :: rest) := by simp
    rw [e]
    simp only [localsDecl, sym_cons, ho, if_true, advance_cons, bind, Except.bind, ih, expect_cons hc]
    rfl

/-- What an expression may begin with. -/
def Start (t : Tok) : Prop := IsId t ∨ t.sym ∈ [.pound, .stString, .integer, .double, .minus, .newTerm, .newBlock]
/-- It begins like an expression, and the second token is not `:=`. -/
def Shape (ts : List Tok) : Prop := ∃ h tl, ts = h :: tl ∧ Start h ∧ ∀ u ∈ tl.head?, u.sym ≠ .assign

theorem Start.ne {t : Tok} {k : Sym} (h : Start t)
    (hk : k ∉ [.identifier, .primitive, .pound, .stString, .integer, .double, .minus, .newTerm, .newBlock]) : t.sym ≠ k := by
  rintro rfl
  apply hk
  rcases h with (h | h) | h
  · rw [h]; decide
  · rw [h]; decide
  · revert h
    generalize t.sym = s
    cases s <;> decide
theorem Shape.append {ts us : List Tok} (h : Shape ts) (hu : ∀ u ∈ us.head?, u.sym ≠ .assign) : Shape (ts ++ us) := by
  obtain ⟨t, tl, rfl, hs, ha⟩ := h
  refine ⟨t, tl ++ us, rfl, hs, ?_⟩
  cases tl with
  | nil => exact hu
  | cons a l => exact ha
theorem Shape.head {ts us : List Tok} (h : Shape ts) {t : Tok} (ht : t ∈ (ts ++ us).head?) : Start t := by
  obtain ⟨t, tl, rfl, hs, ha⟩ := h
  cases ht
  exact hs
theorem Shape.next {ts rest : List Tok} (h : Shape ts) (hr : ∀ u ∈ rest.head?, u.sym ≠ .assign) (b : Bool) :
    PSt.next ⟨ts ++ rest, b⟩ ≠ .assign := by
  obtain ⟨t, tl, e, hs, ha⟩ := h.append hr
  rw [e]
  cases tl with
  | nil => simp only [PSt.next]; decide
  | cons u l => exact ha u rfl

theorem Grammar.GLit.shape {ts : List Tok} {l : Lit} (h : GLit ts l) : Shape ts := by
  cases h with
  | int h => exact ⟨_, _, rfl, .inr (by rw [h]; decide), by simp⟩
  | dbl h => exact ⟨_, _, rfl, .inr (by rw [h]; decide), by simp⟩
  | negInt hm h => exact ⟨_, _, rfl, .inr (by rw [hm]; decide), by simp [h]⟩
  | negDbl hm h => exact ⟨_, _, rfl, .inr (by rw [hm]; decide), by simp [h]⟩
  | str h => exact ⟨_, _, rfl, .inr (by rw [h]; decide), by simp⟩
  | symStr hp h => exact ⟨_, _, rfl, .inr (by rw [hp]; decide), by simp [h]⟩
  | @sym p t hp h =>
    refine ⟨_, _, rfl, .inr (by rw [hp]; decide), fun u hu => ?_⟩
    cases hu
    simp only [IsSelector, IsId, IsOp] at h
    revert h
    generalize t.sym = s
    cases s <;> decide
  | arr hp ho hc h => exact ⟨_, _, rfl, .inr (by rw [hp]; decide), by simp [ho]⟩

/-- Simultaneous induction on derivations. -/
theorem Grammar.induct {D : Dialect} {P U B : List Tok → Tree → Bool → Prop} {A : List Tok → Name → List Tree → List Tok → Prop}
    {V E : List Tok → Tree → Prop} {S : List Tok → List Tree → Bool → Prop}
    (var : ∀ {t : Tok}, IsId t → t.text ≠ superName → P [t] (.var t.text) false)
    (sup : ∀ {t : Tok}, IsId t → t.text = superName → P [t] (.var selfName) true)
    (lit : ∀ {ts : List Tok} {l : Lit}, GLit ts l → P ts (.lit l) false)
    (term : ∀ {o c : Tok} {ts : List Tok} {t : Tree}, o.sym = .newTerm → c.sym = .endTerm → Expr D ts t → E ts t →
      P (o :: (ts ++ [c])) t false)
    (block : ∀ {o c : Tok} {ps ls bs : List Tok} {xs ys : List Name} {ts : List Tree} {ex : Bool},
      o.sym = .newBlock → c.sym = .endBlock → BlockHead ps xs → LocalsDecl ls ys → Body D bs ts ex → S bs ts ex →
      P (o :: (ps ++ (ls ++ (bs ++ [c])))) (.block xs ys ts ex) false)
    (prim : ∀ {ts : List Tok} {t : Tree} {s : Bool}, Prim D ts t s → P ts t s → U ts t s)
    (unary : ∀ {ts : List Tok} {t : Tree} {s : Bool} {m : Tok}, Un D ts t s → IsId m → U ts t s →
      U (ts ++ [m]) (.send s m.text t []) false)
    (un : ∀ {ts : List Tok} {t : Tree} {s : Bool}, Un D ts t s → U ts t s → B ts t s)
    (binary : ∀ {ts us : List Tok} {t a : Tree} {s r : Bool} {op : Tok}, Bin D ts t s → IsOp op → Un D us a r →
      (D.bare = true → r = false) →
      (D.one = true → op.text = ['+'] ∨ op.text = ['-'] → s = false →
        (∃ u, us = [u]) ∨ ∀ u ∈ us.head?, ¬ (u.sym = .integer ∧ u.text = ['1'])) →
      B ts t s → U us a r → B (ts ++ op :: us) (.send s op.text t [a]) false)
    (one : ∀ {k : Tok} {ts : List Tok} {a : Tree} {s : Bool}, k.sym = .keyword → Bin D ts a s → B ts a s → A (k :: ts) k.text [a] ts)
    (more : ∀ {k : Tok} {ts us fs : List Tok} {a : Tree} {s : Bool} {ks : Name} {as : List Tree},
      k.sym = .keyword → Bin D ts a s → Args D us ks as fs → B ts a s → A us ks as fs →
      A (k :: (ts ++ us)) (k.text ++ ks) (a :: as) ts)
    (bin : ∀ {ts : List Tok} {t : Tree} {s : Bool}, Bin D ts t s → B ts t s → V ts t)
    (keyword : ∀ {ts us fs : List Tok} {t : Tree} {s : Bool} {ks : Name} {as : List Tree},
      Bin D ts t s → Args D us ks as fs → (D.simple = true → s = true → Simple fs) → B ts t s → A us ks as fs →
      V (ts ++ us) (.send s ks t as))
    (eval : ∀ {ts : List Tok} {t : Tree}, Eval D ts t → V ts t → E ts t)
    (assign : ∀ {xs ts : List Tok} {ns : List Name} {t : Tree}, Targets xs ns →
      (D.pseudo = true → ∀ x ∈ ns, x ≠ selfName ∧ x ≠ superName) → Eval D ts t → V ts t → E (xs ++ ts) (.assign ns t))
    (empty : S [] [] false)
    (exit : ∀ {c : Tok} {ts ds : List Tok} {t : Tree}, c.sym = .exit → Expr D ts t → Dot ds → E ts t → S (c :: (ts ++ ds)) [t] true)
    (last : ∀ {ts : List Tok} {t : Tree}, Expr D ts t → E ts t → S ts [t] false)
    (stmt : ∀ {p : Tok} {ts us : List Tok} {t : Tree} {bs : List Tree} {ex : Bool},
      Expr D ts t → p.sym = .period → Body D us bs ex → E ts t → S us bs ex → S (ts ++ p :: us) (t :: bs) ex)
    (juxt : ∀ {ts us : List Tok} {t : Tree} {bs : List Tree} {ex : Bool},
      D.lax = true → Expr D ts t → Body D us bs ex → E ts t → S us bs ex → S (ts ++ us) (t :: bs) ex) :
    (∀ {ts t s}, Prim D ts t s → P ts t s) ∧ (∀ {ts t s}, Un D ts t s → U ts t s) ∧ (∀ {ts t s}, Bin D ts t s → B ts t s) ∧
    (∀ {us ks as fs}, Args D us ks as fs → A us ks as fs) ∧ (∀ {ts t}, Eval D ts t → V ts t) ∧ (∀ {ts t}, Expr D ts t → E ts t) ∧
    (∀ {ts bs ex}, Body D ts bs ex → S ts bs ex) := by
  refine ⟨@Prim.rec D (fun ts t s _ => P ts t s) (fun ts t s _ => U ts t s) (fun ts t s _ => B ts t s)
      (fun us ks as fs _ => A us ks as fs) (fun ts t _ => V ts t) (fun ts t _ => E ts t) (fun ts bs ex _ => S ts bs ex)
      var sup lit term block prim unary un binary one more bin keyword eval assign empty exit last stmt juxt,
    @Un.rec D (fun ts t s _ => P ts t s) (fun ts t s _ => U ts t s) (fun ts t s _ => B ts t s)
      (fun us ks as fs _ => A us ks as fs) (fun ts t _ => V ts t) (fun ts t _ => E ts t) (fun ts bs ex _ => S ts bs ex)
      var sup lit term block prim unary un binary one more bin keyword eval assign empty exit last stmt juxt,
    @Bin.rec D (fun ts t s _ => P ts t s) (fun ts t s _ => U ts t s) (fun ts t s _ => B ts t s)
      (fun us ks as fs _ => A us ks as fs) (fun ts t _ => V ts t) (fun ts t _ => E ts t) (fun ts bs ex _ => S ts bs ex)
      var sup lit term block prim unary un binary one more bin keyword eval assign empty exit last stmt juxt,
    @Args.rec D (fun ts t s _ => P ts t s) (fun ts t s _ => U ts t s) (fun ts t s _ => B ts t s)
      (fun us ks as fs _ => A us ks as fs) (fun ts t _ => V ts t) (fun ts t _ => E ts t) (fun ts bs ex _ => S ts bs ex)
      var sup lit term block prim unary un binary one more bin keyword eval assign empty exit last stmt juxt,
    @Eval.rec D (fun ts t s _ => P ts t s) (fun ts t s _ => U ts t s) (fun ts t s _ => B ts t s)
      (fun us ks as fs _ => A us ks as fs) (fun ts t _ => V ts t) (fun ts t _ => E ts t) (fun ts bs ex _ => S ts bs ex)
      var sup lit term block prim unary un binary one more bin keyword eval assign empty exit last stmt juxt,
    @Expr.rec D (fun ts t s _ => P ts t s) (fun ts t s _ => U ts t s) (fun ts t s _ => B ts t s)
      (fun us ks as fs _ => A us ks as fs) (fun ts t _ => V ts t) (fun ts t _ => E ts t) (fun ts bs ex _ => S ts bs ex)
      var sup lit term block prim unary un binary one more bin keyword eval assign empty exit last stmt juxt,
    @Body.rec D (fun ts t s _ => P ts t s) (fun ts t s _ => U ts t s) (fun ts t s _ => B ts t s)
      (fun us ks as fs _ => A us ks as fs) (fun ts t _ => V ts t) (fun ts t _ => E ts t) (fun ts bs ex _ => S ts bs ex)
      var sup lit term block prim unary un binary one more bin keyword eval assign empty exit last stmt juxt⟩

/-- Begins with what an expression may begin with. -/
def Begins (ts : List Tok) : Prop := ∃ u tl, ts = u :: tl ∧ Start u

theorem Shape.begins {ts : List Tok} : Shape ts → Begins ts := fun ⟨u, tl, e, hs, _⟩ => ⟨u, tl, e, hs⟩
theorem Begins.append {ts us : List Tok} : Begins ts → Begins (ts ++ us) := fun ⟨u, tl, e, hs⟩ => ⟨u, tl ++ us, by rw [e]; rfl, hs⟩
theorem Begins.ne {ts : List Tok} {k : Sym} {b : Bool} (h : Begins ts)
    (hk : k ∉ [.identifier, .primitive, .pound, .stString, .integer, .double, .minus, .newTerm, .newBlock]) :
    PSt.sym ⟨ts, b⟩ ≠ k := by
  obtain ⟨u, tl, rfl, hs⟩ := h
  exact hs.ne hk

theorem shapes {D : Dialect} :
    (∀ {ts t s}, Prim D ts t s → Shape ts) ∧ (∀ {ts t s}, Un D ts t s → Shape ts) ∧ (∀ {ts t s}, Bin D ts t s → Shape ts) ∧
    (∀ {us ks as fs}, Args D us ks as fs → ∃ k tl, us = k :: tl ∧ k.sym = .keyword) ∧ (∀ {ts t}, Eval D ts t → Shape ts) ∧
    (∀ {ts t}, Expr D ts t → Begins ts) ∧
    (∀ {ts bs ex}, Body D ts bs ex → ts = [] ∨ Begins ts ∨ ∃ c tl, ts = c :: tl ∧ c.sym = .exit) := by
  refine Grammar.induct ?var ?sup ?lit ?term ?block ?prim ?unary ?un ?binary ?one ?more ?bin ?keyword ?eval ?assign ?empty ?exit
    ?last ?stmt ?juxt
  case var => intro t h _; exact ⟨_, _, rfl, .inl h, by simp⟩
  case sup => intro t h _; exact ⟨_, _, rfl, .inl h, by simp⟩
  case lit => intro ts l h; exact h.shape
  case term =>
    intro o c ts t ho hc _ ih
    obtain ⟨u, tl, rfl, hs⟩ := ih
    refine ⟨_, _, rfl, .inr (by rw [ho]; decide), fun v hv => ?_⟩
    cases hv
    exact hs.ne (by decide)
  case block =>
    intro o c ps ls bs xs ys ts ex ho hc hp hl hb ih
    refine ⟨_, _, rfl, .inr (by rw [ho]; decide), fun u hu => ?_⟩
    cases hp with
    | some hq h hx =>
      cases h with
      | nil => exact absurd rfl hx
      | cons hc ht h =>
        cases hu
        rw [hc]
        decide
    | none =>
      cases hl with
      | some ho =>
        cases hu
        rw [ho]
        decide
      | none =>
        rcases ih with rfl | ⟨v, tl, rfl, hs⟩ | ⟨v, tl, rfl, hs⟩
        · cases hu
          rw [hc]
          decide
        · cases hu
          exact hs.ne (by decide)
        · cases hu
          rw [hs]
          decide
  case prim => exact fun _ ih => ih
  case unary =>
    intro ts t s m _ hm ih
    refine ih.append fun u hu => ?_
    cases hu
    rcases hm with h | h <;> rw [h] <;> decide
  case un => exact fun _ ih => ih
  case binary =>
    intro ts us t a s r op _ hm _ _ _ ih _
    refine ih.append fun u hu => ?_
    cases hu
    simp only [IsOp] at hm
    revert hm
    generalize op.sym = s
    cases s <;> decide
  case one => exact fun hk _ _ => ⟨_, _, rfl, hk⟩
  case more => exact fun hk _ _ _ _ => ⟨_, _, rfl, hk⟩
  case bin => exact fun _ ih => ih
  case keyword =>
    intro ts us fs t s ks as _ _ _ ih ih'
    obtain ⟨k, tl, rfl, hk⟩ := ih'
    refine ih.append fun u hu => ?_
    cases hu
    rw [hk]
    decide
  case eval => exact fun _ ih => ih.begins
  case assign =>
    intro xs ts ns t hx _ _ _
    cases hx with
    | one h => exact ⟨_, _, rfl, .inl h⟩
    | cons h => exact ⟨_, _, rfl, .inl h⟩
  case empty => exact .inl rfl
  case exit => exact fun h _ _ _ => .inr (.inr ⟨_, _, rfl, h⟩)
  case last => exact fun _ ih => .inr (.inl ih)
  case stmt => exact fun _ _ _ ih _ => .inr (.inl ih.append)
  case juxt => exact fun _ _ _ ih _ => .inr (.inl ih.append)

/-- No unary message follows. -/
abbrev NoId (rest : List Tok) : Prop := ∀ t ∈ rest.head?, ¬ IsId t
abbrev NoOp (rest : List Tok) : Prop := ∀ t ∈ rest.head?, ¬ IsOp t

theorem Grammar.Stop.noId {rest : List Tok} (h : Stop rest) : NoId rest := fun t ht => (h t ht).1
theorem Grammar.Stop.noOp {rest : List Tok} (h : Stop rest) : NoOp rest := fun t ht => (h t ht).2.1
theorem Grammar.Stop.noKey {rest : List Tok} (h : Stop rest) (b : Bool) : PSt.sym ⟨rest, b⟩ ≠ .keyword :=
  sym_ne (by decide) fun t ht => (h t ht).2.2.1
theorem Grammar.Stop.noAssign {rest : List Tok} (h : Stop rest) : ∀ u ∈ rest.head?, u.sym ≠ .assign := fun t ht => (h t ht).2.2.2

theorem unaryLoop_stop {s : PSt} (h : s.isIdent = false) (t : Tree) (n : Nat) : unaryLoop (n + 1) t s = .ok (t, s) := by
  simp only [unaryLoop, h]
  rfl
theorem binaryLoop_stop {e : Engine} {s : PSt} (h : s.isBinOp = false) (t : Tree) (n : Nat) :
    binaryLoop e (n + 1) t s = .ok (t, s) := by
  simp only [binaryLoop, h]
  rfl

theorem unaryLoop_step {m : Tok} {rest : List Tok} {t : Tree} {s : Bool} {r : Tree × PSt} (hm : IsId m)
    (h : Ev fun n => unaryLoop n (.send s m.text t []) ⟨rest, false⟩ = .ok r) :
    Ev fun n => unaryLoop n t ⟨m :: rest, s⟩ = .ok r := by
  refine h.step fun n ih => ?_
  simp only [unaryLoop, isIdent_iff.mpr hm, if_true, unaryMessage, identifier_cons hm, bind, Except.bind, pure, Except.pure, ih]

theorem Ev.get {P Q : Nat → Prop} (h : Ev P) (h' : Ev Q) : ∃ n, P (n + 1) ∧ Q (n + 1) := by
  obtain ⟨n, hn⟩ := h.and h'
  exact ⟨n, hn (n + 1) (by omega)⟩
theorem Ev.get1 {P : Nat → Prop} (h : Ev P) : ∃ n, P (n + 1) := by
  obtain ⟨n, hn⟩ := h
  exact ⟨n, hn (n + 1) (by omega)⟩

theorem evaluation_ok {e : Engine} {s s1 s2 s3 : PSt} {p u v : Tree} {r : Tree × PSt}
    (h1 : Ev fun n => primary e n s = .ok (p, s1)) (h2 : Ev fun n => unaryLoop n p s1 = .ok (u, s2))
    (h3 : Ev fun n => binaryLoop e n u s2 = .ok (v, s3))
    (h4 : if s3.sym = .keyword then Ev fun n => keywordMessage e n v s3 = .ok r else r = (v, s3)) :
    Ev fun n => evaluation e n s = .ok (r.1, { r.2 with sup := false }) := by
  have h4' : Ev fun n => (if s3.sym = .keyword then keywordMessage e n v s3 else pure (v, s3)) = .ok r := by
    by_cases hk : s3.sym = .keyword
    · simp only [if_pos hk] at h4 ⊢
      exact h4
    · simp only [if_neg hk] at h4 ⊢
      exact ⟨0, fun m _ => by rw [h4]; rfl⟩
  have noU : s1.isIdent = false → u = p ∧ s2 = s1 := by
    intro hi
    obtain ⟨n, hn⟩ := h2.get1
    rw [unaryLoop_stop hi] at hn
    cases hn
    exact ⟨rfl, rfl⟩
  have noB : s2.isBinOp = false → v = u ∧ s3 = s2 := by
    intro hi
    obtain ⟨n, hn⟩ := h3.get1
    rw [binaryLoop_stop hi] at hn
    cases hn
    exact ⟨rfl, rfl⟩
  by_cases hg : (s1.isIdent || s1.sym == .keyword || s1.isBinOp) = true
  · have hm : Ev fun n => messages e n p s1 = .ok r := by
      refine ((h2.and h3).and h4').step fun n ⟨⟨k2, k3⟩, k4⟩ => ?_
      cases e with
      | ast => simp only [messages, k2, k3, bind, Except.bind, k4]
      | bc =>
        cases hi : s1.isIdent with
        | true => simp only [messages, hi, if_true, k2, k3, bind, Except.bind, k4]
        | false =>
          obtain ⟨rfl, rfl⟩ := noU hi
          cases hb : s2.isBinOp with
          | true => simp only [messages, hi, hb, if_true, k3, bind, Except.bind, k4, Bool.false_eq_true, if_false]
          | false =>
            obtain ⟨rfl, rfl⟩ := noB hb
            have hk : s3.sym = .keyword := by simpa [hi, hb] using hg
            simp only [messages, hi, hb, Bool.false_eq_true, if_false]
            simpa only [if_pos hk] using k4
    refine (h1.and hm).step fun n ⟨k1, k2⟩ => ?_
    simp only [evaluation, k1, bind, Except.bind, hg, if_true, k2]
    rfl
  · have hi : s1.isIdent = false := by
      cases hi : s1.isIdent with
      | false => rfl
      | true => simp [hi] at hg
    have hb : s1.isBinOp = false := by
      cases hb : s1.isBinOp with
      | false => rfl
      | true => simp [hb] at hg
    obtain ⟨rfl, rfl⟩ := noU hi
    obtain ⟨rfl, rfl⟩ := noB hb
    have hk : s3.sym ≠ .keyword := fun hk => hg (by rw [hk]; simp)
    simp only [if_neg hk] at h4
    subst h4
    refine h1.step fun n k1 => ?_
    have hg' : (s3.isIdent || s3.sym == .keyword || s3.isBinOp) = false := by
      cases hc : (s3.isIdent || s3.sym == .keyword || s3.isBinOp) with
      | false => rfl
      | true => exact absurd hc hg
    simp only [evaluation, k1, bind, Except.bind, hg', Bool.false_eq_true, if_false]
    rfl

theorem formula_ok {e : Engine} {s s1 s2 s3 : PSt} {p u v : Tree}
    (h1 : Ev fun n => primary e n s = .ok (p, s1)) (h2 : Ev fun n => unaryLoop n p s1 = .ok (u, s2))
    (h3 : Ev fun n => binaryLoop e n u s2 = .ok (v, s3)) :
    Ev fun n => formula e n s = .ok (v, { s3 with sup := false }) := by
  have h : Ev fun n => binaryOperand e n s = .ok (u, s2) := by
    refine (h1.and h2).step fun n ⟨k1, k2⟩ => ?_
    simp only [binaryOperand, k1, bind, Except.bind, k2]
  refine (h.and h3).step fun n ⟨k1, k2⟩ => ?_
  simp only [formula, k1, bind, Except.bind, k2]
  rfl

theorem simple_formula {e : Engine} {fs : List Tok} (h : Simple fs) :
    ∃ a, ∀ (rest : List Tok) (b : Bool), NoId rest → NoOp rest →
      Ev fun n => formula e n ⟨fs ++ rest, b⟩ = .ok (a, ⟨rest, false⟩) := by
  have key : ∃ a, ∀ (rest : List Tok) (b : Bool), Ev fun n => primary e n ⟨fs ++ rest, b⟩ = .ok (a, ⟨rest, b⟩) := by
    cases h with
    | @var t ht hn =>
      refine ⟨.var t.text, fun rest b => .of fun n => ?_⟩
      simp only [primary, List.cons_append, List.nil_append, isIdent_iff.mpr ht, if_true, identifier_cons ht, bind, Except.bind,
        if_neg hn]
      rfl
    | @lit ts l hl =>
      refine ⟨.lit l, fun rest b => (literal_ok hl rest b).step fun n ih => ?_⟩
      obtain ⟨u, tl, e1, hu⟩ := hl.shape.begins
      have hs : ∀ k, k ∈ [Sym.identifier, .primitive, .newTerm, .newBlock] → u.sym ≠ k := by
        cases hl <;> (injection e1 with e1 _; subst e1; rename_i h; intro k hk hc; simp_all [IsSelector])
      have hi : PSt.isIdent ⟨fs ++ rest, b⟩ = false :=
        isIdent_stop fun t ht => (by
          rw [e1] at ht
          cases ht
          rintro (h | h)
          · exact hs _ (by decide) h
          · exact hs _ (by decide) h)
      have h1 : PSt.sym ⟨fs ++ rest, b⟩ ≠ .newTerm := by rw [e1]; exact hs _ (by decide)
      have h2 : PSt.sym ⟨fs ++ rest, b⟩ ≠ .newBlock := by rw [e1]; exact hs _ (by decide)
      simp only [primary, hi, Bool.false_eq_true, if_false, if_neg h1, if_neg h2, ih, bind, Except.bind]
      rfl
  obtain ⟨a, ha⟩ := key
  refine ⟨a, fun rest b hi ho => ?_⟩
  exact formula_ok (ha rest b) (.of fun n => unaryLoop_stop (isIdent_stop hi) a n)
    (.of fun n => binaryLoop_stop (isBinOp_stop ho) a n)

theorem un_one {D : Dialect} {us : List Tok} {u : Tok} {a : Tree} {r : Bool} (h : Un D us a r) (e : us = [u])
    (hu : u.sym = .integer) : a = .lit (.int false u.text) := by
  cases h with
  | send h hm =>
    obtain ⟨v, tl, rfl, _⟩ := shapes.2.1 h
    simp at e
  | prim h =>
    cases h with
    | var h => injection e with e _; subst e; rcases h with h | h <;> rw [hu] at h <;> cases h
    | sup h => injection e with e _; subst e; rcases h with h | h <;> rw [hu] at h <;> cases h
    | term ho => simp at e
    | block ho => simp at e
    | lit h =>
      cases h with
      | int h => injection e with e _; subst e; rfl
      | dbl h => injection e with e _; subst e; rw [hu] at h; cases h
      | str h => injection e with e _; subst e; rw [hu] at h; cases h
      | _ => simp at e

end ok
end PySOM.Parse

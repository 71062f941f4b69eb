import Verif.Lemmas.Parser
/-! # What is parsed is a phrase of the grammar -/
set_option autoImplicit false
namespace PySOM.Parse
open PySOM.Lex PySOM.Parse.Grammar

/-- The word `super` does not occur. -/
def NoSuper (ts : List Tok) : Prop := ∀ t ∈ ts, t.text ≠ superName

theorem NoSuper.right {ts us : List Tok} (h : NoSuper (ts ++ us)) : NoSuper us := fun t ht => h t (List.mem_append_right _ ht)
theorem NoSuper.tail {t : Tok} {us : List Tok} (h : NoSuper (t :: us)) : NoSuper us := fun t ht => h t (List.mem_cons_of_mem _ ht)

theorem bindInv {α β : Type} {x : Except Fail α} {f : α → Except Fail β} {b : β} (h : (x >>= f) = .ok b) :
    ∃ a, x = .ok a ∧ f a = .ok b := by
  cases x with
  | error e => cases h
  | ok a => exact ⟨a, rfl, h⟩

theorem expect_inv {s s' : PSt} {k : Sym} (hk : k ≠ .none) (h : s.expect k = .ok s') :
    ∃ t, s.toks = t :: s'.toks ∧ t.sym = k ∧ s'.sup = s.sup := by
  rcases s with ⟨_ | ⟨t, r⟩, b⟩
  · simp only [PSt.expect, sym_nil, if_neg hk.symm] at h
    cases h
  · simp only [PSt.expect, sym_cons] at h
    by_cases hc : t.sym = k
    · rw [if_pos hc] at h
      cases h
      exact ⟨t, rfl, hc, rfl⟩
    · rw [if_neg hc] at h
      cases h

theorem sym_inv {s : PSt} {k : Sym} (hk : k ≠ .none) (h : s.sym = k) : ∃ t r, s.toks = t :: r ∧ t.sym = k := by
  rcases s with ⟨_ | ⟨t, r⟩, b⟩
  · exact absurd h.symm hk
  · exact ⟨t, r, rfl, h⟩

theorem identifier_inv {s s' : PSt} {x : Name} (h : s.identifier = .ok (x, s')) :
    ∃ t, s.toks = t :: s'.toks ∧ IsId t ∧ x = t.text ∧ s'.sup = s.sup := by
  simp only [PSt.identifier] at h
  by_cases hp : s.sym = .primitive
  · rw [if_pos hp] at h
    rcases s with ⟨_ | ⟨t, r⟩, b⟩
    · cases hp
    · cases h
      exact ⟨t, rfl, .inr hp, rfl, rfl⟩
  · rw [if_neg hp] at h
    obtain ⟨s1, h1, h2⟩ := bindInv h
    obtain ⟨t, e, ht, hs⟩ := expect_inv (by decide) h1
    cases h2
    refine ⟨t, e, .inl ht, ?_, hs⟩
    rcases s with ⟨_, b⟩
    simp only at e
    subst e
    rfl

theorem keyword_inv {s s' : PSt} {x : Name} (h : s.keyword = .ok (x, s')) :
    ∃ t, s.toks = t :: s'.toks ∧ t.sym = .keyword ∧ x = t.text ∧ s'.sup = s.sup := by
  obtain ⟨s1, h1, h2⟩ := bindInv h
  obtain ⟨t, e, ht, hs⟩ := expect_inv (by decide) h1
  cases h2
  refine ⟨t, e, ht, ?_, hs⟩
  rcases s with ⟨_, b⟩
  simp only at e
  subst e
  rfl

theorem ident_head {s : PSt} (h : s.isIdent = true) : ∃ t r, s.toks = t :: r ∧ IsId t := by
  rcases s with ⟨_ | ⟨t, r⟩, b⟩
  · cases h
  · exact ⟨t, r, rfl, isIdent_iff.mp h⟩
theorem binop_head {s : PSt} (h : s.isBinOp = true) : ∃ t r, s.toks = t :: r ∧ IsOp t := by
  rcases s with ⟨_ | ⟨t, r⟩, b⟩
  · rw [isBinOp_nil] at h
    cases h
  · exact ⟨t, r, rfl, isBinOp_iff.mp h⟩

theorem selector_inv {s s' : PSt} {x : Name} (h : s.selector = .ok (x, s')) :
    ∃ t, s.toks = t :: s'.toks ∧ IsSelector t ∧ x = t.text ∧ s'.sup = s.sup := by
  simp only [PSt.selector] at h
  by_cases h1 : s.sym = .operatorSequence ∨ s.sym ∈ singleOpSyms
  · rw [if_pos h1] at h
    rcases s with ⟨_ | ⟨t, r⟩, b⟩
    · exact absurd h1 (by simp only [sym_nil]; decide)
    · have ho : IsOp t := by
        simp only [IsOp]
        simp only [sym_cons] at h1
        revert h1
        generalize t.sym = s
        cases s <;> decide
      rw [binarySelector_cons ho] at h
      cases h
      exact ⟨t, rfl, .inr (.inl ho), rfl, rfl⟩
  · rw [if_neg h1] at h
    by_cases h2 : s.sym = .keyword ∨ s.sym = .keywordSequence
    · rw [if_pos h2] at h
      rcases s with ⟨_ | ⟨t, r⟩, b⟩
      · exact absurd h2 (by simp only [sym_nil]; decide)
      · cases h
        exact ⟨t, rfl, .inr (.inr h2), rfl, rfl⟩
    · rw [if_neg h2] at h
      obtain ⟨t, e, ht, hx, hs⟩ := identifier_inv h
      exact ⟨t, e, .inl ht, hx, hs⟩

theorem decimal_inv {s s' : PSt} {neg : Bool} {l : Lit} (h : s.decimal neg = .ok (l, s')) :
    ∃ t, s.toks = t :: s'.toks ∧ s'.sup = s.sup ∧
      (t.sym = .integer ∧ l = .int neg t.text ∨ t.sym = .double ∧ l = .dbl neg t.text) := by
  simp only [PSt.decimal] at h
  by_cases h1 : s.sym = .integer
  · rw [if_pos h1] at h
    rcases s with ⟨_ | ⟨t, r⟩, b⟩
    · cases h1
    · cases h
      exact ⟨t, rfl, rfl, .inl ⟨h1, rfl⟩⟩
  · rw [if_neg h1] at h
    by_cases h2 : s.sym = .double
    · rw [if_pos h2] at h
      rcases s with ⟨_ | ⟨t, r⟩, b⟩
      · cases h2
      · cases h
        exact ⟨t, rfl, rfl, .inr ⟨h2, rfl⟩⟩
    · rw [if_neg h2] at h
      cases h

/-- The tokens consumed are a phrase; the super flag is as before. -/
def Took (s s' : PSt) (R : List Tok → Prop) : Prop := ∃ ts, s.toks = ts ++ s'.toks ∧ s'.sup = s.sup ∧ R ts

theorem literal_sound : ∀ n : Nat,
    (∀ s l s', literal n s = .ok (l, s') → Took s s' fun ts => GLit ts l) ∧
    (∀ s es s', literals n s = .ok (es, s') → Took s s' fun ts => GLits ts es) := by
  intro n
  induction n with
  | zero => exact ⟨fun _ _ _ h => (by cases h), fun _ _ _ h => (by cases h)⟩
  | succ n ih =>
    refine ⟨fun s l s' h => ?_, fun s es s' h => ?_⟩
    · simp only [literal] at h
      by_cases h1 : s.sym = .pound
      · rw [if_pos h1] at h
        by_cases h2 : s.next = .newTerm
        · rw [if_pos h2] at h
          obtain ⟨s1, k1, h⟩ := bindInv h
          obtain ⟨s2, k2, h⟩ := bindInv h
          obtain ⟨⟨es, s3⟩, k3, h⟩ := bindInv h
          obtain ⟨s4, k4, h⟩ := bindInv h
          cases h
          obtain ⟨p, e1, hp, b1⟩ := expect_inv (by decide) k1
          obtain ⟨o, e2, ho, b2⟩ := expect_inv (by decide) k2
          obtain ⟨ts, e3, b3, hl⟩ := ih.2 _ _ _ k3
          obtain ⟨c, e4, hc, b4⟩ := expect_inv (by decide) k4
          refine ⟨p :: o :: (ts ++ [c]), ?_, by rw [b4, b3, b2, b1], .arr hp ho hc hl⟩
          rw [e1, e2, e3, e4]
          simp
        · rw [if_neg h2] at h
          obtain ⟨s1, k1, h⟩ := bindInv h
          obtain ⟨p, e1, hp, b1⟩ := expect_inv (by decide) k1
          by_cases h3 : s1.sym = .stString
          · rw [if_pos h3] at h
            obtain ⟨s2, k2, h⟩ := bindInv h
            obtain ⟨t, e2, ht, b2⟩ := expect_inv (by decide) k2
            cases h
            have ex : s1.text = t.text := by simp only [PSt.text, e2]
            rw [ex]
            exact ⟨[p, t], by rw [e1, e2]; rfl, by rw [b2, b1], .symStr hp ht⟩
          · rw [if_neg h3] at h
            obtain ⟨⟨x, s2⟩, k2, h⟩ := bindInv h
            cases h
            obtain ⟨t, e2, ht, rfl, b2⟩ := selector_inv k2
            exact ⟨[p, t], by rw [e1, e2]; rfl, by rw [b2, b1], .sym hp ht⟩
      · rw [if_neg h1] at h
        by_cases h3 : s.sym = .stString
        · rw [if_pos h3] at h
          obtain ⟨s2, k2, h⟩ := bindInv h
          obtain ⟨t, e2, ht, b2⟩ := expect_inv (by decide) k2
          cases h
          have ex : s.text = t.text := by simp only [PSt.text, e2]
          rw [ex]
          exact ⟨[t], e2, b2, .str ht⟩
        · rw [if_neg h3] at h
          simp only [PSt.number] at h
          by_cases h4 : s.sym = .minus
          · rw [if_pos h4] at h
            obtain ⟨s1, k1, h⟩ := bindInv h
            obtain ⟨m, e1, hm, b1⟩ := expect_inv (by decide) k1
            obtain ⟨t, e2, b2, ⟨ht, rfl⟩ | ⟨ht, rfl⟩⟩ := decimal_inv h
            · exact ⟨[m, t], by rw [e1, e2]; rfl, by rw [b2, b1], .negInt hm ht⟩
            · exact ⟨[m, t], by rw [e1, e2]; rfl, by rw [b2, b1], .negDbl hm ht⟩
          · rw [if_neg h4] at h
            obtain ⟨t, e2, b2, ⟨ht, rfl⟩ | ⟨ht, rfl⟩⟩ := decimal_inv h
            · exact ⟨[t], e2, b2, .int ht⟩
            · exact ⟨[t], e2, b2, .dbl ht⟩
    · simp only [literals] at h
      by_cases h1 : s.sym = .endTerm
      · rw [if_pos h1] at h
        cases h
        exact ⟨[], rfl, rfl, .nil⟩
      · rw [if_neg h1] at h
        obtain ⟨⟨l, s1⟩, k1, h⟩ := bindInv h
        obtain ⟨⟨ls, s2⟩, k2, h⟩ := bindInv h
        cases h
        obtain ⟨ts, e1, b1, g1⟩ := ih.1 _ _ _ k1
        obtain ⟨us, e2, b2, g2⟩ := ih.2 _ _ _ k2
        exact ⟨ts ++ us, by rw [e1, e2, List.append_assoc], by rw [b2, b1], .cons g1 g2⟩

theorem locals_sound : ∀ (n : Nat) (s : PSt) (xs : List Name) (s' : PSt), locals n s = .ok (xs, s') → Took s s' fun ts => Ids ts xs := by
  intro n
  induction n with
  | zero => intro _ _ _ h; cases h
  | succ n ih =>
    intro s xs s' h
    simp only [locals] at h
    by_cases h1 : s.isIdent = true
    · rw [if_pos h1] at h
      obtain ⟨⟨x, s1⟩, k1, h⟩ := bindInv h
      obtain ⟨⟨ys, s2⟩, k2, h⟩ := bindInv h
      cases h
      obtain ⟨t, e1, ht, rfl, b1⟩ := identifier_inv k1
      obtain ⟨ts, e2, b2, g⟩ := ih _ _ _ k2
      exact ⟨t :: ts, by rw [e1, e2]; rfl, by rw [b2, b1], .cons ht g⟩
    · rw [if_neg h1] at h
      cases h
      exact ⟨[], rfl, rfl, .nil⟩

theorem moreParams_sound : ∀ (n : Nat) (s : PSt) (xs : List Name) (s' : PSt), moreParams n s = .ok (xs, s') →
    Took s s' fun ts => Params ts xs := by
  intro n
  induction n with
  | zero => intro _ _ _ h; cases h
  | succ n ih =>
    intro s xs s' h
    simp only [moreParams] at h
    by_cases h1 : s.sym = .colon
    · rw [if_pos h1] at h
      obtain ⟨c, r, e0, hc⟩ := sym_inv (by decide) h1
      obtain ⟨⟨x, s1⟩, k1, h⟩ := bindInv h
      obtain ⟨⟨ys, s2⟩, k2, h⟩ := bindInv h
      cases h
      obtain ⟨t, e1, ht, rfl, b1⟩ := identifier_inv k1
      obtain ⟨ts, e2, b2, g⟩ := ih _ _ _ k2
      have e1' : r = t :: s1.toks := by
        have := e1
        simp only [PSt.advance, e0, List.tail_cons] at this
        exact this
      exact ⟨c :: t :: ts, by rw [e0, e1', e2]; rfl, by rw [b2, b1], .cons hc ht g⟩
    · rw [if_neg h1] at h
      cases h
      exact ⟨[], rfl, rfl, .nil⟩

theorem blockSignature_sound {n : Nat} {s : PSt} {xs : List Name} {s' : PSt} (h : blockSignature n s = .ok (xs, s')) :
    Took s s' fun ts => ∃ o us, ts = o :: us ∧ o.sym = .newBlock ∧ BlockHead us xs := by
  simp only [blockSignature] at h
  obtain ⟨s1, k1, h⟩ := bindInv h
  obtain ⟨o, e1, ho, b1⟩ := expect_inv (by decide) k1
  by_cases h1 : s1.sym = .colon
  · rw [if_pos h1] at h
    obtain ⟨s2, k2, h⟩ := bindInv h
    obtain ⟨⟨x, s3⟩, k3, h⟩ := bindInv h
    obtain ⟨⟨ys, s4⟩, k4, h⟩ := bindInv h
    obtain ⟨s5, k5, h⟩ := bindInv h
    cases h
    obtain ⟨c, e2, hc, b2⟩ := expect_inv (by decide) k2
    obtain ⟨t, e3, ht, rfl, b3⟩ := identifier_inv k3
    obtain ⟨ts, e4, b4, g⟩ := moreParams_sound _ _ _ _ k4
    obtain ⟨q, e5, hq, b5⟩ := expect_inv (by decide) k5
    refine ⟨o :: (c :: t :: ts ++ [q]), ?_, by rw [b5, b4, b3, b2, b1], o, _, rfl, ho, .some hq (.cons hc ht g) (by simp)⟩
    rw [e1, e2, e3, e4, e5]
    simp
  · rw [if_neg h1] at h
    cases h
    exact ⟨[o], by rw [e1]; rfl, b1, o, _, rfl, ho, .none⟩

theorem localsDecl_sound {n : Nat} {s : PSt} {xs : List Name} {s' : PSt} (h : localsDecl n s = .ok (xs, s')) :
    Took s s' fun ts => LocalsDecl ts xs := by
  simp only [localsDecl] at h
  by_cases h1 : s.sym = .or
  · rw [if_pos h1] at h
    obtain ⟨o, r, e0, ho⟩ := sym_inv (by decide) h1
    obtain ⟨⟨ys, s1⟩, k1, h⟩ := bindInv h
    obtain ⟨s2, k2, h⟩ := bindInv h
    cases h
    obtain ⟨ts, e1, b1, g⟩ := locals_sound _ _ _ _ k1
    obtain ⟨c, e2, hc, b2⟩ := expect_inv (by decide) k2
    refine ⟨o :: (ts ++ [c]), ?_, by rw [b2, b1], .some ho hc g⟩
    have e1' : r = ts ++ s1.toks := by
      have := e1
      simp only [PSt.advance, e0, List.tail_cons] at this
      exact this
    rw [e0, e1', e2]
    simp
  · rw [if_neg h1] at h
    cases h
    exact ⟨[], rfl, rfl, .none⟩

theorem unaryLoop_sound {D : Dialect} : ∀ (n : Nat) (t : Tree) (s : PSt) (t' : Tree) (s' : PSt), unaryLoop n t s = .ok (t', s') →
    s.sup = false → ∀ ts0, Un D ts0 t false → Took s s' fun ts => Un D (ts0 ++ ts) t' false := by
  intro n
  induction n with
  | zero => intro _ _ _ _ h; cases h
  | succ n ih =>
    intro t s t' s' h hs ts0 h0
    simp only [unaryLoop] at h
    by_cases h1 : s.isIdent = true
    · rw [if_pos h1] at h
      obtain ⟨⟨t1, s1⟩, k1, h⟩ := bindInv h
      simp only [unaryMessage] at k1
      obtain ⟨⟨x, s2⟩, k2, k1⟩ := bindInv k1
      cases k1
      obtain ⟨m, e1, hm, rfl, b1⟩ := identifier_inv k2
      simp only at e1 b1
      obtain ⟨us, e2, b2, g⟩ := ih _ _ _ _ h b1 (ts0 ++ [m]) (hs ▸ .send h0 hm)
      refine ⟨m :: us, by rw [e1, e2]; rfl, by rw [b2, b1, hs], ?_⟩
      simpa only [List.append_assoc, List.cons_append, List.nil_append] using g
    · rw [if_neg h1] at h
      cases h
      exact ⟨[], rfl, rfl, by simpa only [List.append_nil] using h0⟩


theorem assignmentsBc_sound : ∀ (n : Nat) (s : PSt) (xs : List Name) (s' : PSt), assignmentsBc n s = .ok (xs, s') →
    xs = [] ∧ s' = s ∨ Took s s' fun ts => Targets ts xs := by
  intro n
  induction n with
  | zero => intro _ _ _ h; cases h
  | succ n ih =>
    intro s xs s' h
    simp only [assignmentsBc] at h
    by_cases h1 : s.isIdent = true
    · rw [if_pos h1] at h
      obtain ⟨⟨x, s1⟩, k1, h⟩ := bindInv h
      obtain ⟨s2, k2, h⟩ := bindInv h
      obtain ⟨t, e1, ht, rfl, b1⟩ := identifier_inv k1
      obtain ⟨a, e2, ha, b2⟩ := expect_inv (by decide) k2
      by_cases h2 : s2.next = .assign
      · rw [if_pos h2] at h
        obtain ⟨⟨ys, s3⟩, k3, h⟩ := bindInv h
        cases h
        rcases ih _ _ _ k3 with ⟨rfl, rfl⟩ | ⟨ts, e3, b3, g⟩
        · exact .inr ⟨[t, a], by rw [e1, e2]; rfl, by rw [b2, b1], .one ht ha⟩
        · exact .inr ⟨t :: a :: ts, by rw [e1, e2, e3]; rfl, by rw [b3, b2, b1], .cons ht ha g⟩
      · rw [if_neg h2] at h
        cases h
        exact .inr ⟨[t, a], by rw [e1, e2]; rfl, by rw [b2, b1], .one ht ha⟩
    · rw [if_neg h1] at h
      cases h
      exact .inl ⟨rfl, rfl⟩

theorem took_trans {s s1 s2 : PSt} {ts us : List Tok} {R : List Tok → Prop} (e1 : s.toks = ts ++ s1.toks) (b1 : s1.sup = s.sup)
    (e2 : s1.toks = us ++ s2.toks) (b2 : s2.sup = s1.sup) (h : R (ts ++ us)) : Took s s2 R :=
  ⟨ts ++ us, by rw [e1, e2, List.append_assoc], by rw [b2, b1], h⟩

theorem sound (e : Engine) : ∀ n : Nat,
    (∀ s t s', expression e n s = .ok (t, s') → s.sup = false → NoSuper s.toks → Took s s' fun ts => Expr (taken e) ts t) ∧
    (e = .ast → ∀ s xs v s', assignmentsAst n s = .ok (xs, v, s') → s.sup = false → NoSuper s.toks →
      Took s s' fun ts => ∃ us vs, ts = us ++ vs ∧ Targets us xs ∧ Eval (taken e) vs v) ∧
    (∀ s t s', evaluation e n s = .ok (t, s') → s.sup = false → NoSuper s.toks → Took s s' fun ts => Eval (taken e) ts t) ∧
    (∀ s t s', primary e n s = .ok (t, s') → s.sup = false → NoSuper s.toks → Took s s' fun ts => Prim (taken e) ts t false) ∧
    (∀ r s t s', messages e n r s = .ok (t, s') → s.sup = false → NoSuper s.toks → ∀ ts0, Un (taken e) ts0 r false →
      Took s s' fun ts => Eval (taken e) (ts0 ++ ts) t) ∧
    (∀ r s t s', binaryLoop e n r s = .ok (t, s') → s.sup = false → NoSuper s.toks → ∀ ts0, Bin (taken e) ts0 r false →
      Took s s' fun ts => Bin (taken e) (ts0 ++ ts) t false) ∧
    (∀ r s t s', binaryMessage e n r s = .ok (t, s') → s.isBinOp = true → s.sup = false → NoSuper s.toks →
      ∀ ts0, Bin (taken e) ts0 r false → Took s s' fun ts => Bin (taken e) (ts0 ++ ts) t false) ∧
    (∀ s t s', binaryOperand e n s = .ok (t, s') → s.sup = false → NoSuper s.toks → Took s s' fun ts => Un (taken e) ts t false) ∧
    (∀ r s t s', keywordMessage e n r s = .ok (t, s') → s.sup = false → NoSuper s.toks → ∀ ts0, Bin (taken e) ts0 r false →
      Took s s' fun ts => Eval (taken e) (ts0 ++ ts) t) ∧
    (∀ s ks as s', keywordArgs e n s = .ok (ks, as, s') → s.sup = false → NoSuper s.toks →
      Took s s' fun ts => ts = [] ∧ ks = [] ∧ as = [] ∨ ∃ fs, Args (taken e) ts ks as fs) ∧
    (∀ s t s', formula e n s = .ok (t, s') → s.sup = false → NoSuper s.toks → Took s s' fun ts => Bin (taken e) ts t false) ∧
    (∀ s bs ex s', body e n s = .ok (bs, ex, s') → s.sup = false → NoSuper s.toks → Took s s' fun ts => Body (taken e) ts bs ex) := by
  have no1 : ¬ (taken e).one = true := by cases e <;> decide
  have no2 : ¬ (taken e).bare = true := by cases e <;> decide
  have no3 : ¬ (taken e).simple = true := by cases e <;> decide
  have no4 : ¬ (taken e).pseudo = true := by cases e <;> decide
  intro n
  induction n with
  | zero =>
    refine ⟨?_, ?_, ?_, ?_, ?_, ?_, ?_, ?_, ?_, ?_, ?_, ?_⟩
    · intro _ _ _ h; cases h
    · intro _ _ _ _ _ h; cases h
    · intro _ _ _ h; cases h
    · intro _ _ _ h; cases h
    · intro _ _ _ _ h; cases h
    · intro _ _ _ _ h; cases h
    · intro _ _ _ _ h; cases h
    · intro _ _ _ h; cases h
    · intro _ _ _ _ h; cases h
    · intro _ _ _ _ h; cases h
    · intro _ _ _ h; cases h
    · intro _ _ _ _ h; cases h
  | succ n ih =>
    obtain ⟨iE, iA, iV, iP, iM, iL, iB, iO, iK, iR, iF, iS⟩ := ih
    refine ⟨?_, ?_, ?_, ?_, ?_, ?_, ?_, ?_, ?_, ?_, ?_, ?_⟩
    · -- expression
      intro s t s' h hs hn
      simp only [expression] at h
      by_cases h1 : s.next = .assign
      · rw [if_pos h1] at h
        cases e with
        | bc =>
          dsimp only at h
          obtain ⟨⟨xs, s1⟩, k1, h⟩ := bindInv h
          obtain ⟨⟨v, s2⟩, k2, h⟩ := bindInv h
          cases h
          rcases assignmentsBc_sound _ _ _ _ k1 with ⟨rfl, rfl⟩ | ⟨ts, e1, b1, g1⟩
          · obtain ⟨us, e2, b2, g2⟩ := iV _ _ _ k2 hs hn
            exact ⟨us, e2, b2, .eval g2⟩
          · obtain ⟨us, e2, b2, g2⟩ := iV _ _ _ k2 (by rw [b1, hs]) (by rw [e1] at hn; exact hn.right)
            have hne : xs ≠ [] := by cases g1 <;> simp
            simp only [if_neg hne]
            exact took_trans e1 b1 e2 b2 (.assign g1 (fun hp => absurd hp no4) g2)
        | ast =>
          dsimp only at h
          obtain ⟨⟨xs, v, s1⟩, k1, h⟩ := bindInv h
          cases h
          obtain ⟨ts, e1, b1, us, vs, rfl, g1, g2⟩ := iA rfl _ _ _ _ k1 hs hn
          exact ⟨us ++ vs, e1, b1, .assign g1 (fun hp => absurd hp no4) g2⟩
      · rw [if_neg h1] at h
        obtain ⟨us, e2, b2, g2⟩ := iV _ _ _ h hs hn
        exact ⟨us, e2, b2, .eval g2⟩
    · -- assignmentsAst
      rintro rfl s xs v s' h hs hn
      simp only [assignmentsAst] at h
      by_cases h1 : s.isIdent = true
      · rw [if_pos h1] at h
        obtain ⟨⟨x, s1⟩, k1, h⟩ := bindInv h
        obtain ⟨s2, k2, h⟩ := bindInv h
        obtain ⟨t, e1, ht, rfl, b1⟩ := identifier_inv k1
        obtain ⟨a, e2, ha, b2⟩ := expect_inv (by decide) k2
        have hs2 : s2.sup = false := by rw [b2, b1, hs]
        have hn2 : NoSuper s2.toks := by rw [e1, e2] at hn; exact hn.tail.tail
        by_cases h2 : s2.next = .assign
        · rw [if_pos h2] at h
          obtain ⟨⟨ys, v1, s3⟩, k3, h⟩ := bindInv h
          obtain ⟨ts, e3, b3, us, vs, rfl, g1, g2⟩ := iA rfl _ _ _ _ k3 hs2 hn2
          dsimp only at h
          split at h
          · cases h
          · cases h
            exact ⟨t :: a :: us ++ vs, by rw [e1, e2, e3]; simp, by rw [b3, b2, b1], _, _, rfl, .cons ht ha g1, g2⟩
        · rw [if_neg h2] at h
          obtain ⟨⟨v1, s3⟩, k3, h⟩ := bindInv h
          obtain ⟨vs, e3, b3, g2⟩ := iV _ _ _ k3 hs2 hn2
          dsimp only at h
          split at h
          · cases h
          · cases h
            exact ⟨[t, a] ++ vs, by rw [e1, e2, e3]; simp, by rw [b3, b2, b1], _, _, rfl, .one ht ha, g2⟩
      · rw [if_neg h1] at h
        cases h
    · -- evaluation
      intro s t s' h hs hn
      simp only [evaluation] at h
      obtain ⟨⟨p, s1⟩, k1, h⟩ := bindInv h
      obtain ⟨ts, e1, b1, g1⟩ := iP _ _ _ k1 hs hn
      have hs1 : s1.sup = false := by rw [b1, hs]
      have hn1 : NoSuper s1.toks := by rw [e1] at hn; exact hn.right
      dsimp only at h
      split at h
      · obtain ⟨⟨m, s2⟩, k2, h⟩ := bindInv h
        cases h
        obtain ⟨us, e2, b2, g2⟩ := iM _ _ _ _ k2 hs1 hn1 _ (.prim g1)
        exact took_trans e1 b1 e2 (by rw [hs1]) g2
      · cases h
        exact ⟨ts, e1, by rw [hs], .bin (.un (.prim g1))⟩
    · -- primary
      intro s t s' h hs hn
      simp only [primary] at h
      by_cases h1 : s.isIdent = true
      · rw [if_pos h1] at h
        obtain ⟨⟨x, s1⟩, k1, h⟩ := bindInv h
        obtain ⟨u, e1, hu, rfl, b1⟩ := identifier_inv k1
        have hne : u.text ≠ superName := hn u (by rw [e1]; exact List.mem_cons_self)
        dsimp only at h
        rw [if_neg hne] at h
        cases h
        exact ⟨[u], e1, b1, .var hu hne⟩
      · rw [if_neg h1] at h
        by_cases h2 : s.sym = .newTerm
        · rw [if_pos h2] at h
          obtain ⟨s1, k1, h⟩ := bindInv h
          obtain ⟨⟨x, s2⟩, k2, h⟩ := bindInv h
          obtain ⟨s3, k3, h⟩ := bindInv h
          cases h
          obtain ⟨o, e1, ho, b1⟩ := expect_inv (by decide) k1
          obtain ⟨ts, e2, b2, g⟩ := iE _ _ _ k2 (by rw [b1, hs]) (by rw [e1] at hn; exact hn.tail)
          obtain ⟨c, e3, hc, b3⟩ := expect_inv (by decide) k3
          exact ⟨o :: (ts ++ [c]), by rw [e1, e2, e3]; simp, by rw [b3, b2, b1], .term ho hc g⟩
        · rw [if_neg h2] at h
          by_cases h3 : s.sym = .newBlock
          · rw [if_pos h3] at h
            obtain ⟨⟨ps, s1⟩, k1, h⟩ := bindInv h
            obtain ⟨⟨ls, s2⟩, k2, h⟩ := bindInv h
            obtain ⟨⟨bs, ex, s3⟩, k3, h⟩ := bindInv h
            obtain ⟨s4, k4, h⟩ := bindInv h
            cases h
            obtain ⟨_, e1, b1, o, us, rfl, ho, g1⟩ := blockSignature_sound k1
            obtain ⟨vs, e2, b2, g2⟩ := localsDecl_sound k2
            obtain ⟨ws, e3, b3, g3⟩ := iS _ _ _ _ k3 (by rw [b2, b1, hs]) (by rw [e1, e2] at hn; exact hn.right.right)
            obtain ⟨c, e4, hc, b4⟩ := expect_inv (by decide) k4
            exact ⟨o :: (us ++ (vs ++ (ws ++ [c]))), by rw [e1, e2, e3, e4]; simp, by rw [b4, b3, b2, b1], .block ho hc g1 g2 g3⟩
          · rw [if_neg h3] at h
            obtain ⟨⟨l, s1⟩, k1, h⟩ := bindInv h
            cases h
            obtain ⟨ts, e1, b1, g⟩ := (literal_sound n).1 _ _ _ k1
            exact ⟨ts, e1, b1, .lit g⟩
    · -- messages
      intro r s t s' h hs hn ts0 h0
      have tail : ∀ (r : Tree) (s : PSt) (t : Tree) (s' : PSt),
          (do let (r, s) ← binaryLoop e n r s
              if s.sym = Sym.keyword then keywordMessage e n r s else return (r, s)) = .ok (t, s') →
          s.sup = false → NoSuper s.toks → ∀ ts0, Un (taken e) ts0 r false → Took s s' fun ts => Eval (taken e) (ts0 ++ ts) t := by
        intro r s t s' h hs hn ts0 h0
        obtain ⟨⟨u, s1⟩, k1, h⟩ := bindInv h
        obtain ⟨ts, e1, b1, g1⟩ := iL _ _ _ _ k1 hs hn _ (.un h0)
        have hs1 : s1.sup = false := by rw [b1, hs]
        have hn1 : NoSuper s1.toks := by rw [e1] at hn; exact hn.right
        dsimp only at h
        split at h
        · obtain ⟨us, e2, b2, g2⟩ := iK _ _ _ _ h hs1 hn1 _ g1
          exact took_trans e1 b1 e2 b2 (by simpa only [List.append_assoc] using g2)
        · cases h
          exact ⟨ts, e1, b1, .bin g1⟩
      have full : ∀ (r : Tree) (s : PSt) (t : Tree) (s' : PSt),
          (do let (r, s) ← unaryLoop n r s
              let (r, s) ← binaryLoop e n r s
              if s.sym = Sym.keyword then keywordMessage e n r s else return (r, s)) = .ok (t, s') →
          s.sup = false → NoSuper s.toks → ∀ ts0, Un (taken e) ts0 r false → Took s s' fun ts => Eval (taken e) (ts0 ++ ts) t := by
        intro r s t s' h hs hn ts0 h0
        obtain ⟨⟨u, s1⟩, k1, h⟩ := bindInv h
        obtain ⟨ts, e1, b1, g1⟩ := unaryLoop_sound n _ _ _ _ k1 hs _ h0
        have hs1 : s1.sup = false := by rw [b1, hs]
        have hn1 : NoSuper s1.toks := by rw [e1] at hn; exact hn.right
        obtain ⟨us, e2, b2, g2⟩ := tail _ _ _ _ h hs1 hn1 _ g1
        exact took_trans e1 b1 e2 b2 (by simpa only [List.append_assoc] using g2)
      cases e with
      | ast =>
        simp only [messages] at h
        exact full _ _ _ _ h hs hn _ h0
      | bc =>
        simp only [messages] at h
        split at h
        · exact full _ _ _ _ h hs hn _ h0
        · split at h
          · exact tail _ _ _ _ h hs hn _ h0
          · exact iK _ _ _ _ h hs hn _ (.un h0)
    · -- binaryLoop
      intro r s t s' h hs hn ts0 h0
      simp only [binaryLoop] at h
      by_cases h1 : s.isBinOp = true
      · rw [if_pos h1] at h
        obtain ⟨⟨u, s1⟩, k1, h⟩ := bindInv h
        obtain ⟨ts, e1, b1, g1⟩ := iB _ _ _ _ k1 h1 hs hn _ h0
        have hs1 : s1.sup = false := by rw [b1, hs]
        have hn1 : NoSuper s1.toks := by rw [e1] at hn; exact hn.right
        obtain ⟨us, e2, b2, g2⟩ := iL _ _ _ _ h hs1 hn1 _ g1
        exact took_trans e1 b1 e2 b2 (by simpa only [List.append_assoc] using g2)
      · rw [if_neg h1] at h
        cases h
        exact ⟨[], rfl, rfl, by simpa only [List.append_nil] using h0⟩
    · -- binaryMessage
      intro r s t s' h h1 hs hn ts0 h0
      rcases s with ⟨toks, b⟩
      simp only at hs
      subst hs
      obtain ⟨op, rest, e0, hop⟩ := binop_head h1
      simp only at e0
      subst e0
      simp only [binaryMessage, binarySelector_cons hop, bind, Except.bind] at h
      split at h
      · next hc =>
        obtain ⟨rfl, _, _, h3, h4⟩ := hc
        obtain ⟨u, r', e1, hu⟩ := sym_inv (by decide) h3
        simp only at e1
        subst e1
        cases h
        have ht : u.text = ['1'] := h4
        have gu : Un (taken .bc) [u] (.lit (.int false ['1'])) false := by
          rw [← ht]
          exact .prim (.lit (.int hu))
        exact ⟨[op, u], rfl, rfl, .send h0 hop gu (fun hb => absurd hb no2) (fun hb => absurd hb no1)⟩
      · cases k1 : binaryOperand e n ⟨rest, false⟩ with
        | error f => rw [k1] at h; cases h
        | ok q =>
          obtain ⟨a, s1⟩ := q
          rw [k1] at h
          cases h
          obtain ⟨us, e1, b1, g1⟩ := iO _ _ _ k1 rfl hn.tail
          simp only at e1 b1
          subst e1
          exact ⟨op :: us, rfl, b1, .send h0 hop g1 (fun hb => absurd hb no2) (fun hb => absurd hb no1)⟩
    · -- binaryOperand
      intro s t s' h hs hn
      simp only [binaryOperand] at h
      obtain ⟨⟨p, s1⟩, k1, h⟩ := bindInv h
      obtain ⟨ts, e1, b1, g1⟩ := iP _ _ _ k1 hs hn
      obtain ⟨us, e2, b2, g2⟩ := unaryLoop_sound n _ _ _ _ h (by rw [b1, hs]) _ (.prim g1)
      exact took_trans e1 b1 e2 b2 g2
    · -- keywordMessage
      intro r s t s' h hs hn ts0 h0
      have hs0 : s.atKeyword e = s := by
        rcases s with ⟨toks, b⟩
        simp only at hs
        subst hs
        cases e <;> rfl
      simp only [keywordMessage, hs0] at h
      obtain ⟨⟨k, s1⟩, k1, h⟩ := bindInv h
      obtain ⟨⟨a, s2⟩, k2, h⟩ := bindInv h
      obtain ⟨⟨ks, as, s3⟩, k3, h⟩ := bindInv h
      cases h
      obtain ⟨kt, e1, hk, rfl, b1⟩ := keyword_inv k1
      have hs1 : s1.sup = false := by rw [b1, hs]
      have hn1 : NoSuper s1.toks := by rw [e1] at hn; exact hn.tail
      obtain ⟨ts, e2, b2, g2⟩ := iF _ _ _ k2 hs1 hn1
      obtain ⟨us, e3, b3, g3⟩ := iR _ _ _ _ k3 (by rw [b2, hs1]) (by rw [e2] at hn1; exact hn1.right)
      refine ⟨kt :: (ts ++ us), by rw [e1, e2, e3]; simp, by rw [b3, b2, b1], ?_⟩
      rw [hs]
      rcases g3 with ⟨rfl, rfl, rfl⟩ | ⟨fs, g3⟩
      · simp only [List.append_nil]
        exact .send h0 (.one hk g2) (fun hb => absurd hb no3)
      · exact .send h0 (.cons hk g2 g3) (fun hb => absurd hb no3)
    · -- keywordArgs
      intro s ks as s' h hs hn
      simp only [keywordArgs] at h
      by_cases h1 : s.sym = .keyword
      · rw [if_pos h1] at h
        obtain ⟨⟨k, s1⟩, k1, h⟩ := bindInv h
        obtain ⟨⟨a, s2⟩, k2, h⟩ := bindInv h
        obtain ⟨⟨ks', as', s3⟩, k3, h⟩ := bindInv h
        cases h
        obtain ⟨kt, e1, hk, rfl, b1⟩ := keyword_inv k1
        have hs1 : s1.sup = false := by rw [b1, hs]
        have hn1 : NoSuper s1.toks := by rw [e1] at hn; exact hn.tail
        obtain ⟨ts, e2, b2, g2⟩ := iF _ _ _ k2 hs1 hn1
        obtain ⟨us, e3, b3, g3⟩ := iR _ _ _ _ k3 (by rw [b2, hs1]) (by rw [e2] at hn1; exact hn1.right)
        refine ⟨kt :: (ts ++ us), by rw [e1, e2, e3]; simp, by rw [b3, b2, b1], .inr ?_⟩
        rcases g3 with ⟨rfl, rfl, rfl⟩ | ⟨fs, g3⟩
        · simp only [List.append_nil]
          exact ⟨_, .one hk g2⟩
        · exact ⟨_, .cons hk g2 g3⟩
      · rw [if_neg h1] at h
        cases h
        exact ⟨[], rfl, rfl, .inl ⟨rfl, rfl, rfl⟩⟩
    · -- formula
      intro s t s' h hs hn
      simp only [formula] at h
      obtain ⟨⟨p, s1⟩, k1, h⟩ := bindInv h
      obtain ⟨⟨q, s2⟩, k2, h⟩ := bindInv h
      cases h
      obtain ⟨ts, e1, b1, g1⟩ := iO _ _ _ k1 hs hn
      have hs1 : s1.sup = false := by rw [b1, hs]
      obtain ⟨us, e2, b2, g2⟩ := iL _ _ _ _ k2 hs1 (by rw [e1] at hn; exact hn.right) _ (.un g1)
      exact took_trans e1 b1 e2 (by rw [hs1]) g2
    · -- body
      intro s bs ex s' h hs hn
      simp only [body] at h
      by_cases h1 : s.sym = .exit
      · rw [if_pos h1] at h
        obtain ⟨⟨v, s1⟩, k1, h⟩ := bindInv h
        cases h
        obtain ⟨c, r, e0, hc⟩ := sym_inv (by decide) h1
        have e0' : s.advance.toks = r := by simp only [PSt.advance, e0, List.tail_cons]
        obtain ⟨ts, e1, b1, g1⟩ := iE _ _ _ k1 hs (by rw [e0']; rw [e0] at hn; exact hn.tail)
        rw [e0'] at e1
        by_cases h2 : s1.sym = .period
        · simp only [if_pos h2]
          obtain ⟨p, r', e2, hp⟩ := sym_inv (by decide) h2
          refine ⟨c :: (ts ++ [p]), ?_, b1, .exit hc g1 (.some hp)⟩
          simp only [PSt.advance, e0, e1, e2, List.tail_cons]
          simp
        · simp only [if_neg h2]
          exact ⟨c :: (ts ++ []), by rw [e0, e1]; simp, b1, .exit hc g1 .none⟩
      · rw [if_neg h1] at h
        by_cases h2 : s.sym = .endBlock ∨ s.sym = .endTerm
        · rw [if_pos h2] at h
          cases h
          exact ⟨[], rfl, rfl, .empty⟩
        · rw [if_neg h2] at h
          obtain ⟨⟨v, s1⟩, k1, h⟩ := bindInv h
          obtain ⟨ts, e1, b1, g1⟩ := iE _ _ _ k1 hs hn
          have hs1 : s1.sup = false := by rw [b1, hs]
          have hn1 : NoSuper s1.toks := by rw [e1] at hn; exact hn.right
          by_cases h3 : s1.sym = .period
          · simp only [if_pos h3] at h
            obtain ⟨⟨bs', ex', s2⟩, k2, h⟩ := bindInv h
            cases h
            obtain ⟨p, r, e2, hp⟩ := sym_inv (by decide) h3
            have e2' : s1.advance.toks = r := by simp only [PSt.advance, e2, List.tail_cons]
            obtain ⟨us, e3, b3, g3⟩ := iS _ _ _ _ k2 hs1 (by rw [e2']; rw [e2] at hn1; exact hn1.tail)
            rw [e2'] at e3
            exact ⟨ts ++ p :: us, by rw [e1, e2, e3]; simp, by rw [b3]; exact b1, .stmt g1 hp g3⟩
          · simp only [if_neg h3] at h
            cases e with
            | bc =>
              cases h
              exact ⟨ts, e1, b1, .last g1⟩
            | ast =>
              obtain ⟨⟨bs', ex', s2⟩, k2, h⟩ := bindInv h
              cases h
              obtain ⟨us, e3, b3, g3⟩ := iS _ _ _ _ k2 hs1 hn1
              exact took_trans e1 b1 e3 b3 (.juxt rfl g1 g3)

end PySOM.Parse

import Verif.Lemmas.ParserPlain
import Verif.Lemmas.ParserSound
/-! # Methods -/
set_option autoImplicit false
namespace PySOM.Parse
open PySOM.Lex PySOM.Parse.Grammar

theorem keywordPattern_ok {ts : List Tok} {ks : Name} {xs : List Name} (h : KeyPattern ts ks xs) (rest : List Tok) (b : Bool)
    (hr : ∀ t ∈ rest.head?, t.sym ≠ .keyword) : Ev fun n => keywordPattern n ⟨ts ++ rest, b⟩ = .ok (ks, xs, ⟨rest, b⟩) := by
  induction h with
  | one hk ht =>
    have h0 : Ev fun n => keywordPattern n ⟨rest, b⟩ = .ok ([], [], ⟨rest, b⟩) :=
      .of fun n => by simp only [keywordPattern, if_neg (sym_ne (by decide) hr)]
    refine h0.step fun n h => ?_
    simp only [List.cons_append, List.nil_append, keywordPattern, sym_cons, hk, if_true, PSt.keyword, expect_cons hk, bind, Except.bind,
      pure, Except.pure, identifier_cons ht, h, List.append_nil]
  | cons hk ht _ ih =>
    refine ih.step fun n h => ?_
    simp only [List.cons_append, keywordPattern, sym_cons, hk, if_true, PSt.keyword, expect_cons hk, bind, Except.bind,
      pure, Except.pure, identifier_cons ht, h]

theorem pattern_ok {ts : List Tok} {x : Name} {xs : List Name} (h : Pattern ts x xs) (rest : List Tok) (b : Bool)
    (hr : ∀ t ∈ rest.head?, t.sym ≠ .keyword) : Ev fun n => pattern n ⟨ts ++ rest, b⟩ = .ok (x, xs, ⟨rest, b⟩) := by
  cases h with
  | unary ht =>
    exact .of fun n => by
      simp only [List.cons_append, List.nil_append, pattern, isIdent_iff.mpr ht, if_true, identifier_cons ht, bind, Except.bind]; rfl
  | @binary op t ho ht =>
    refine .of fun n => ?_
    have h1 : PSt.isIdent ⟨op :: t :: rest, b⟩ = false := Bool.eq_false_iff.mpr (mt isIdent_iff.mp ho.not_id)
    have h2 : ¬ PSt.sym ⟨op :: t :: rest, b⟩ = .keyword := fun h => keyword_not_op h ho
    simp only [List.cons_append, List.nil_append, pattern, h1, Bool.false_eq_true, if_false, if_neg h2, binarySelector_cons ho,
      identifier_cons ht, bind, Except.bind]
    rfl
  | keyword h =>
    refine (keywordPattern_ok h rest b hr).mono fun n hn => ?_
    obtain ⟨k, tl, rfl, hk⟩ : ∃ k tl, ts = k :: tl ∧ k.sym = .keyword := by
      cases h with
      | one hk _ => exact ⟨_, _, rfl, hk⟩
      | cons hk _ _ => exact ⟨_, _, rfl, hk⟩
    have h1 : PSt.isIdent ⟨k :: tl ++ rest, b⟩ = false := Bool.eq_false_iff.mpr (mt isIdent_iff.mp (keyword_not_id hk))
    have h2 : PSt.sym ⟨k :: tl ++ rest, b⟩ = .keyword := hk
    simp only [pattern, h1, Bool.false_eq_true, if_false, if_pos h2, hn]

theorem method_ok {e : Engine} {ts : List Tok} {m : Method} (h : GMethod (part e) ts m) (rest : List Tok) :
    Ev fun n => method e n ⟨ts ++ rest, false⟩ = .ok (m, ⟨rest, false⟩) := by
  cases h with
  | @prim ps x xs q p hp he hpr =>
    refine (pattern_ok hp (q :: p :: rest) false (fun t ht => ?_)).mono fun n k1 => ?_
    · cases ht; rw [he]; decide
    rw [show ps ++ [q, p] ++ rest = ps ++ q :: p :: rest by simp]
    simp only [method, k1, bind, Except.bind, expect_cons he, sym_cons, hpr, if_true, expect_cons hpr]
    rfl
  | @body ps ls bs x xs ys q o c ts ex hp he ho hc hl hb =>
    have k1 := pattern_ok hp (q :: o :: (ls ++ (bs ++ c :: rest))) false (fun t ht => (by cases ht; rw [he]; decide))
    have hb' : ∀ t ∈ (bs ++ c :: rest).head?, t.sym ≠ .or := by
      intro t ht
      rcases shapes.2.2.2.2.2.2 hb with rfl | ⟨u, tl, rfl, hs⟩ | ⟨u, tl, rfl, hs⟩
      · cases ht; rw [hc]; decide
      · cases ht; exact hs.ne (by decide)
      · cases ht; rw [hs]; decide
    have k2 := localsDecl_ok hl (bs ++ c :: rest) false hb'
    have k3 := (complete e).2.2.2.2.2.2 hb (c :: rest) ⟨c, rest, rfl, .inl hc⟩
    refine ((k1.and k2).and k3).mono fun n ⟨⟨k1, k2⟩, k3⟩ => ?_
    rw [show ps ++ q :: o :: (ls ++ (bs ++ [c])) ++ rest = ps ++ q :: o :: (ls ++ (bs ++ c :: rest)) by simp]
    have hn : ¬ (Sym.newTerm = Sym.primitive) := by decide
    simp only [method, k1, bind, Except.bind, expect_cons he, sym_cons, ho, if_neg hn, expect_cons ho, k2, k3, expect_cons hc]
    rfl

theorem Grammar.GMethod.plain {e : Engine} {ts : List Tok} {m : Method} (h : GMethod som ts m) (hp : Plain e ts) :
    GMethod (part e) ts m := by
  cases h with
  | prim h1 h2 h3 => exact .prim h1 h2 h3
  | body h1 h2 h3 h4 h5 h6 => exact .body h1 h2 h3 h4 h5 ((Parse.plain e).2.2.2.2.2.2 h6 hp.right.tail.tail.right.left)

/-- There are no illegal tokens. -/
def Legal (ts : List Tok) : Prop := ∀ t ∈ ts, t.sym ≠ .none

theorem keywordPattern_sound : ∀ (n : Nat) (s : PSt) (x : Name) (xs : List Name) (s' : PSt), keywordPattern n s = .ok (x, xs, s') →
    Took s s' fun ts => ts = [] ∧ x = [] ∧ xs = [] ∧ s.sym ≠ .keyword ∨ KeyPattern ts x xs := by
  intro n
  induction n with
  | zero => intro s x xs s' h; cases h
  | succ n ih =>
    intro s x xs s' h
    simp only [keywordPattern] at h
    by_cases h1 : s.sym = .keyword
    · rw [if_pos h1] at h
      obtain ⟨⟨k, s1⟩, k1, h⟩ := bindInv h
      obtain ⟨⟨i, s2⟩, k2, h⟩ := bindInv h
      obtain ⟨⟨ks, ys, s3⟩, k3, h⟩ := bindInv h
      cases h
      obtain ⟨t1, e1, hk, rfl, b1⟩ := keyword_inv k1
      obtain ⟨t2, e2, hi, rfl, b2⟩ := identifier_inv k2
      obtain ⟨ts, e3, b3, g⟩ := ih _ _ _ _ k3
      refine ⟨t1 :: t2 :: ts, by rw [e1, e2, e3]; rfl, by rw [b3, b2, b1], .inr ?_⟩
      rcases g with ⟨rfl, rfl, rfl, _⟩ | g
      · simp only [List.append_nil]; exact .one hk hi
      · exact .cons hk hi g
    · rw [if_neg h1] at h
      cases h
      exact ⟨[], rfl, rfl, .inl ⟨rfl, rfl, rfl, h1⟩⟩

theorem pattern_sound {n : Nat} {s : PSt} {x : Name} {xs : List Name} {s' : PSt} (h : pattern n s = .ok (x, xs, s')) (hl : Legal s.toks) :
    Took s s' fun ts => Pattern ts x xs := by
  simp only [pattern] at h
  by_cases h1 : s.isIdent = true
  · rw [if_pos h1] at h
    obtain ⟨⟨i, s1⟩, k1, h⟩ := bindInv h
    cases h
    obtain ⟨t, e1, hi, rfl, b1⟩ := identifier_inv k1
    exact ⟨[t], e1, b1, .unary hi⟩
  · rw [if_neg h1] at h
    by_cases h2 : s.sym = .keyword
    · rw [if_pos h2] at h
      obtain ⟨ts, e1, b1, g⟩ := keywordPattern_sound _ _ _ _ _ h
      refine ⟨ts, e1, b1, .keyword ?_⟩
      rcases g with ⟨_, _, _, g⟩ | g
      · exact absurd h2 g
      · exact g
    · rw [if_neg h2] at h
      obtain ⟨⟨o, s1⟩, k1, h⟩ := bindInv h
      obtain ⟨⟨i, s2⟩, k2, h⟩ := bindInv h
      cases h
      obtain ⟨t, e2, hi, rfl, b2⟩ := identifier_inv k2
      rcases s with ⟨_ | ⟨op, r⟩, b⟩
      · exfalso
        have : s1.toks = [] := by
          have hk : PSt.binarySelector ⟨[], b⟩ = .ok (PSt.text ⟨[], b⟩, ⟨[], b⟩) := by cases b <;> rfl
          rw [hk] at k1
          cases k1
          rfl
        rw [this] at e2
        cases e2
      · have ho : IsOp op := by
          have hn : op.sym ≠ .none := hl op List.mem_cons_self
          rcases op with ⟨y, x⟩
          simp only [IsOp]
          clear h1 h2 hl
          revert k1 hn
          cases y <;> first | (intros; decide) | (intro k1 hn; exact absurd rfl hn) | (intro k1 hn; cases k1)
        rw [binarySelector_cons ho] at k1
        cases k1
        exact ⟨[op, t], congrArg (op :: ·) e2, b2, .binary ho hi⟩

theorem method_sound {e : Engine} {n : Nat} {s s' : PSt} {m : Method} (h : method e n s = .ok (m, s')) (hb : s.sup = false)
    (hs : NoSuper s.toks) (hl : Legal s.toks) : Took s s' fun ts => GMethod (taken e) ts m := by
  simp only [method] at h
  obtain ⟨⟨x, xs, s1⟩, k1, h⟩ := bindInv h
  obtain ⟨s2, k2, h⟩ := bindInv h
  obtain ⟨ps, e1, b1, hp⟩ := pattern_sound k1 hl
  obtain ⟨q, e2, hq, b2⟩ := expect_inv (by decide) k2
  simp only at h
  by_cases h1 : s2.sym = .primitive
  · rw [if_pos h1] at h
    obtain ⟨s3, k3, h⟩ := bindInv h
    cases h
    obtain ⟨p, e3, hpr, b3⟩ := expect_inv (by decide) k3
    exact ⟨ps ++ [q, p], by rw [e1, e2, e3]; simp, by rw [b3, b2, b1], .prim hp hq hpr⟩
  · rw [if_neg h1] at h
    obtain ⟨s3, k3, h⟩ := bindInv h
    obtain ⟨⟨ys, s4⟩, k4, h⟩ := bindInv h
    obtain ⟨⟨ts, ex, s5⟩, k5, h⟩ := bindInv h
    obtain ⟨s6, k6, h⟩ := bindInv h
    cases h
    obtain ⟨o, e3, ho, b3⟩ := expect_inv (by decide) k3
    obtain ⟨ls, e4, b4, g4⟩ := localsDecl_sound k4
    have hs4 : NoSuper s4.toks := by
      rw [e1, e2, e3, e4] at hs
      exact hs.right.tail.tail.right
    obtain ⟨bs, e5, b5, g5⟩ := (sound e n).2.2.2.2.2.2.2.2.2.2.2 _ _ _ _ k5 (by rw [b4, b3, b2, b1, hb]) hs4
    obtain ⟨c, e6, hc, b6⟩ := expect_inv (by decide) k6
    exact ⟨ps ++ q :: o :: (ls ++ (bs ++ [c])), by rw [e1, e2, e3, e4, e5, e6]; simp, by rw [b6, b5, b4, b3, b2, b1],
      .body hp hq ho hc g4 g5⟩

end PySOM.Parse

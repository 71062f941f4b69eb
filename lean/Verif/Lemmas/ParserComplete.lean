import Verif.Lemmas.Parser
/-! # Phrases of the grammar are parsed to their trees -/
set_option autoImplicit false
namespace PySOM.Parse
open PySOM.Lex PySOM.Parse.Grammar

/-- The end of a body. -/
def AtEnd (rest : List Tok) : Prop := ∃ c r, rest = c :: r ∧ (c.sym = .endTerm ∨ c.sym = .endBlock)

theorem AtEnd.stop {rest : List Tok} (h : AtEnd rest) : Stop rest := by
  obtain ⟨c, r, rfl, h⟩ := h
  intro t ht
  cases ht
  simp only [IsId, IsOp]
  rcases h with h | h <;> rw [h] <;> decide

theorem targets_bc {xs ts rest : List Tok} {ns : List Name} (h : Targets xs ns) (hn : PSt.next ⟨ts ++ rest, false⟩ ≠ .assign) :
    PSt.next ⟨xs ++ ts ++ rest, false⟩ = .assign ∧
    Ev fun n => assignmentsBc n ⟨xs ++ ts ++ rest, false⟩ = .ok (ns, ⟨ts ++ rest, false⟩) := by
  induction h with
  | one ht ha =>
    refine ⟨ha, .of fun n => ?_⟩
    simp only [List.append_assoc, List.cons_append, List.nil_append, assignmentsBc, isIdent_iff.mpr ht, if_true, identifier_cons ht, bind,
      Except.bind, expect_cons ha, if_neg hn]
    rfl
  | @cons t a us xs ht ha h ih =>
    refine ⟨ha, ih.2.step fun n ih2 => ?_⟩
    have ih1 := ih.1
    simp only [List.append_assoc, List.cons_append] at ih1 ih2 ⊢
    simp only [assignmentsBc, isIdent_iff.mpr ht, if_true, identifier_cons ht, bind, Except.bind, expect_cons ha, ih1, ih2]
    rfl

theorem targets_ast {xs ts rest : List Tok} {ns : List Name} {v : Tree} (h : Targets xs ns)
    (hp : ∀ x ∈ ns, x ≠ selfName ∧ x ≠ superName) (hn : PSt.next ⟨ts ++ rest, false⟩ ≠ .assign)
    (hv : Ev fun n => evaluation .ast n ⟨ts ++ rest, false⟩ = .ok (v, ⟨rest, false⟩)) :
    PSt.next ⟨xs ++ ts ++ rest, false⟩ = .assign ∧
    Ev fun n => assignmentsAst n ⟨xs ++ ts ++ rest, false⟩ = .ok (ns, v, ⟨rest, false⟩) := by
  induction h with
  | one ht ha =>
    refine ⟨ha, hv.step fun n hv => ?_⟩
    have hx := hp _ (List.mem_singleton.mpr rfl)
    have hx' : ¬ (_ = selfName ∨ _ = superName) := not_or.mpr hx
    simp only [List.append_assoc, List.cons_append, List.nil_append, assignmentsAst, isIdent_iff.mpr ht, if_true, identifier_cons ht, bind,
      Except.bind, expect_cons ha, if_neg hn, hv, if_neg hx']
    rfl
  | @cons t a us xs ht ha h ih =>
    have ih := ih fun x hx => hp x (List.mem_cons_of_mem _ hx)
    refine ⟨ha, ih.2.step fun n ih2 => ?_⟩
    have ih1 := ih.1
    have hx' : ¬ (t.text = selfName ∨ t.text = superName) := not_or.mpr (hp _ List.mem_cons_self)
    simp only [List.append_assoc, List.cons_append] at ih1 ih2 ⊢
    simp only [assignmentsAst, isIdent_iff.mpr ht, if_true, identifier_cons ht, bind, Except.bind, expect_cons ha, ih1, ih2, if_neg hx']
    rfl

theorem complete (e : Engine) :
    (∀ {ts t s}, Prim (part e) ts t s → ∀ rest, Ev fun n => primary e n ⟨ts ++ rest, false⟩ = .ok (t, ⟨rest, s⟩)) ∧
    (∀ {ts t s}, Un (part e) ts t s → ∀ rest, ∃ p s1, (Ev fun n => primary e n ⟨ts ++ rest, false⟩ = .ok (p, s1)) ∧
      ∀ r, (Ev fun n => unaryLoop n t ⟨rest, s⟩ = .ok r) → Ev fun n => unaryLoop n p s1 = .ok r) ∧
    (∀ {ts t s}, Bin (part e) ts t s → ∀ rest, NoId rest →
      ∃ p s1 u s2, (Ev fun n => primary e n ⟨ts ++ rest, false⟩ = .ok (p, s1)) ∧ (Ev fun n => unaryLoop n p s1 = .ok (u, s2)) ∧
      ∀ r, (Ev fun n => binaryLoop e n t ⟨rest, s⟩ = .ok r) → Ev fun n => binaryLoop e n u s2 = .ok r) ∧
    (∀ {us ks as fs}, Args (part e) us ks as fs →
      ∃ k vs a ks' as', us = k :: (fs ++ vs) ∧ k.sym = .keyword ∧ ks = k.text ++ ks' ∧ as = a :: as' ∧
        (∀ t ∈ vs.head?, t.sym = .keyword) ∧
        (∀ rest, NoId rest → NoOp rest → Ev fun n => formula e n ⟨fs ++ rest, false⟩ = .ok (a, ⟨rest, false⟩)) ∧
        ∀ rest, Stop rest → Ev fun n => keywordArgs e n ⟨vs ++ rest, false⟩ = .ok (ks', as', ⟨rest, false⟩)) ∧
    (∀ {ts t}, Eval (part e) ts t → ∀ rest, Stop rest → Ev fun n => evaluation e n ⟨ts ++ rest, false⟩ = .ok (t, ⟨rest, false⟩)) ∧
    (∀ {ts t}, Expr (part e) ts t → ∀ rest, Stop rest → Ev fun n => expression e n ⟨ts ++ rest, false⟩ = .ok (t, ⟨rest, false⟩)) ∧
    (∀ {ts bs ex}, Body (part e) ts bs ex → ∀ rest, AtEnd rest →
      Ev fun n => body e n ⟨ts ++ rest, false⟩ = .ok (bs, ex, ⟨rest, false⟩)) := by
  refine Grammar.induct ?var ?sup ?lit ?term ?block ?prim ?unary ?un ?binary ?one ?more ?bin ?keyword ?eval ?assign ?empty ?exit
    ?last ?stmt ?juxt
  case var =>
    intro t ht hn rest
    exact .of fun n => by
      simp only [primary, List.cons_append, List.nil_append, isIdent_iff.mpr ht, if_true, identifier_cons ht, bind, Except.bind,
        if_neg hn]
      rfl
  case sup =>
    intro t ht hn rest
    exact .of fun n => by
      simp only [primary, List.cons_append, List.nil_append, isIdent_iff.mpr ht, if_true, identifier_cons ht, bind, Except.bind,
        if_pos hn]
      rfl
  case lit =>
    intro ts l hl rest
    refine (literal_ok hl rest false).step fun n ih => ?_
    obtain ⟨u, tl, e1, hu⟩ := hl.shape.begins
    have hs : ∀ k, k ∈ [Sym.identifier, .primitive, .newTerm, .newBlock] → u.sym ≠ k := by
      cases hl <;> (injection e1 with e1 _; subst e1; rename_i h; intro k hk hc; simp_all [IsSelector])
    have hi : PSt.isIdent ⟨ts ++ rest, false⟩ = false :=
      isIdent_stop fun t ht => (by
        rw [e1] at ht
        cases ht
        rintro (h | h)
        · exact hs _ (by decide) h
        · exact hs _ (by decide) h)
    have h1 : PSt.sym ⟨ts ++ rest, false⟩ ≠ .newTerm := by rw [e1]; exact hs _ (by decide)
    have h2 : PSt.sym ⟨ts ++ rest, false⟩ ≠ .newBlock := by rw [e1]; exact hs _ (by decide)
    simp only [primary, hi, Bool.false_eq_true, if_false, if_neg h1, if_neg h2, ih, bind, Except.bind]
    rfl
  case term =>
    intro o c ts t ho hc _ ih rest
    have hst : Stop (c :: rest) := AtEnd.stop ⟨c, rest, rfl, .inl hc⟩
    refine (ih (c :: rest) hst).step fun n ih => ?_
    have e1 : o :: (ts ++ [c]) ++ rest = o :: (ts ++ c :: rest) := by simp
    have hi : PSt.isIdent ⟨o :: (ts ++ c :: rest), false⟩ = false :=
      isIdent_stop fun t ht => (by cases ht; simp only [IsId, ho]; decide)
    rw [e1]
    simp only [primary, hi, Bool.false_eq_true, if_false, sym_cons, ho, if_true, expect_cons ho, bind, Except.bind, ih, expect_cons hc]
    rfl
  case block =>
    intro o c ps ls bs xs ys ts ex ho hc hp hl hb ih rest
    have e1 : o :: (ps ++ (ls ++ (bs ++ [c]))) ++ rest = o :: (ps ++ (ls ++ (bs ++ c :: rest))) := by simp
    rw [e1]
    have hb' : ∀ t ∈ (bs ++ c :: rest).head?, t.sym ≠ .colon ∧ t.sym ≠ .or := by
      intro t ht
      rcases shapes.2.2.2.2.2.2 hb with rfl | ⟨u, tl, rfl, hs⟩ | ⟨u, tl, rfl, hs⟩
      · cases ht; rw [hc]; decide
      · cases ht; exact ⟨hs.ne (by decide), hs.ne (by decide)⟩
      · cases ht; rw [hs]; decide
    have hl' : ∀ t ∈ (ls ++ (bs ++ c :: rest)).head?, t.sym ≠ .colon := by
      intro t ht
      cases hl with
      | none => exact (hb' t ht).1
      | some h => cases ht; rw [h]; decide
    have k1 := blockSignature_ok ho hp (ls ++ (bs ++ c :: rest)) false hl'
    have k2 := localsDecl_ok hl (bs ++ c :: rest) false fun t ht => (hb' t ht).2
    have k3 := ih (c :: rest) ⟨c, rest, rfl, .inr hc⟩
    refine ((k1.and k2).and k3).step fun n ⟨⟨k1, k2⟩, k3⟩ => ?_
    have hi : PSt.isIdent ⟨o :: (ps ++ (ls ++ (bs ++ c :: rest))), false⟩ = false :=
      isIdent_stop fun t ht => (by cases ht; simp only [IsId, ho]; decide)
    have hnt : ¬ (Sym.newBlock = Sym.newTerm) := by decide
    simp only [primary, hi, Bool.false_eq_true, if_false, sym_cons, ho, if_true, if_neg hnt, bind, Except.bind, k1, k2, k3, expect_cons hc]
    rfl
  case prim =>
    intro ts t s _ ih rest
    exact ⟨t, ⟨rest, s⟩, ih rest, fun r h => h⟩
  case unary =>
    intro ts t s m _ hm ih rest
    obtain ⟨p, s1, h1, h2⟩ := ih (m :: rest)
    refine ⟨p, s1, ?_, fun r hr => h2 r (unaryLoop_step hm hr)⟩
    simpa only [List.append_assoc, List.cons_append, List.nil_append] using h1
  case un =>
    intro ts t s _ ih rest hr
    obtain ⟨p, s1, h1, h2⟩ := ih rest
    exact ⟨p, s1, t, ⟨rest, s⟩, h1, h2 _ (.of fun n => unaryLoop_stop (isIdent_stop hr) t n), fun r h => h⟩
  case binary =>
    intro ts us t a s r op _ hop hun hbare hone ihb ihu rest hr
    have hni : NoId (op :: (us ++ rest)) := fun u hu => (by cases hu; exact hop.not_id)
    obtain ⟨p, s1, u, s2, h1, h2, h3⟩ := ihb (op :: (us ++ rest)) hni
    refine ⟨p, s1, u, s2, ?_, h2, fun q hq => h3 q ?_⟩
    · simpa only [List.append_assoc, List.cons_append, List.nil_append] using h1
    have hr' : r = false := hbare (by cases e <;> rfl)
    subst hr'
    have hmsg : Ev fun n => binaryMessage e n t ⟨op :: (us ++ rest), s⟩ = .ok (.send s op.text t [a], ⟨rest, false⟩) := by
      obtain ⟨p', s1', h1', h2'⟩ := ihu rest
      have h2' := h2' _ (.of fun n => unaryLoop_stop (isIdent_stop hr) a n)
      have hop' : Ev fun n => binaryOperand e n ⟨us ++ rest, false⟩ = .ok (a, ⟨rest, false⟩) := by
        refine (h1'.and h2').step fun n ⟨k1, k2⟩ => ?_
        simp only [binaryOperand, k1, bind, Except.bind, k2]
      refine hop'.step fun n ih => ?_
      simp only [binaryMessage, binarySelector_cons hop, bind, Except.bind, ih]
      by_cases hc : e = .bc ∧ (op.text = ['+'] ∨ op.text = ['-']) ∧ s = false ∧ PSt.sym ⟨us ++ rest, false⟩ = .integer ∧
          PSt.text ⟨us ++ rest, false⟩ = ['1']
      · rw [if_pos hc]
        obtain ⟨rfl, hpm, rfl, hsy, htx⟩ := hc
        obtain ⟨w, tl, rfl, hw⟩ := (shapes.2.1 hun).begins
        rcases hone rfl hpm rfl with ⟨w', hw'⟩ | h
        · injection hw' with _ e2
          subst e2
          rw [un_one hun rfl hsy]
          have : w.text = ['1'] := htx
          rw [this]
          rfl
        · exact absurd ⟨hsy, htx⟩ (h w rfl)
      · rw [if_neg hc]
        rfl
    refine (hmsg.and hq).step fun n ⟨k1, k2⟩ => ?_
    simp only [binaryLoop, isBinOp_iff.mpr hop, if_true, k1, bind, Except.bind, k2]
  case one =>
    intro k ts a s hk _ ih
    refine ⟨k, [], a, [], [], by simp, hk, by simp, rfl, by simp, fun rest hi ho => ?_, fun rest hs => ?_⟩
    · obtain ⟨p, s1, u, s2, h1, h2, h3⟩ := ih rest hi
      exact formula_ok h1 h2 (h3 _ (.of fun n => binaryLoop_stop (isBinOp_stop ho) a n))
    · exact .of fun n => by
        simp only [keywordArgs, List.nil_append, if_neg (hs.noKey false)]
  case more =>
    intro k ts us fs a s ks as hk _ ha ih iha
    obtain ⟨k', vs, a', ks', as', rfl, hk', rfl, rfl, hv, hf, hr⟩ := iha
    refine ⟨k, k' :: (fs ++ vs), a, _, _, rfl, hk, rfl, rfl, fun t ht => (by cases ht; exact hk'), fun rest hi ho => ?_,
      fun rest hs => ?_⟩
    · obtain ⟨p, s1, u, s2, h1, h2, h3⟩ := ih rest hi
      exact formula_ok h1 h2 (h3 _ (.of fun n => binaryLoop_stop (isBinOp_stop ho) a n))
    · have hi : NoId (vs ++ rest) := by
        cases vs with
        | nil => exact hs.noId
        | cons v l => intro t ht; cases ht; exact keyword_not_id (hv v rfl)
      have ho : NoOp (vs ++ rest) := by
        cases vs with
        | nil => exact hs.noOp
        | cons v l => intro t ht; cases ht; exact keyword_not_op (hv v rfl)
      refine ((hf (vs ++ rest) hi ho).and (hr rest hs)).step fun n ⟨k1, k2⟩ => ?_
      simp only [List.cons_append, List.append_assoc, keywordArgs, sym_cons, hk', if_true, PSt.keyword, expect_cons hk', bind, Except.bind,
        text_cons, pure, Except.pure, k1, k2]
  case bin =>
    intro ts t s _ ih rest hs
    obtain ⟨p, s1, u, s2, h1, h2, h3⟩ := ih rest hs.noId
    have h3 := h3 _ (.of fun n => binaryLoop_stop (isBinOp_stop hs.noOp) t n)
    have := evaluation_ok (r := (t, ⟨rest, s⟩)) h1 h2 h3 (by rw [if_neg (hs.noKey s)])
    exact this
  case keyword =>
    intro ts us fs t s ks as _ _ hsimple ih iha rest hs
    obtain ⟨k, vs, a, ks', as', rfl, hk, rfl, rfl, hv, hf, hr⟩ := iha
    rw [List.append_assoc]
    have hi0 : NoId (k :: (fs ++ vs) ++ rest) := fun t ht => (by cases ht; exact keyword_not_id hk)
    have ho0 : NoOp (k :: (fs ++ vs) ++ rest) := fun t ht => (by cases ht; exact keyword_not_op hk)
    obtain ⟨p, s1, u, s2, h1, h2, h3⟩ := ih _ hi0
    have h3 := h3 _ (.of fun n => binaryLoop_stop (isBinOp_stop ho0) t n)
    have hi : NoId (vs ++ rest) := by
      cases vs with
      | nil => exact hs.noId
      | cons v l => intro t ht; cases ht; exact keyword_not_id (hv v rfl)
    have ho : NoOp (vs ++ rest) := by
      cases vs with
      | nil => exact hs.noOp
      | cons v l => intro t ht; cases ht; exact keyword_not_op (hv v rfl)
    have hf0 := hf (vs ++ rest) hi ho
    have hkm : Ev fun n => keywordMessage e n t ⟨k :: (fs ++ vs) ++ rest, s⟩ =
        .ok (.send s (k.text ++ ks') t (a :: as'), ⟨rest, false⟩) := by
      cases e with
      | bc =>
        refine (hf0.and (hr rest hs)).step fun n ⟨k1, k2⟩ => ?_
        simp only [List.cons_append, List.append_assoc, keywordMessage, PSt.atKeyword, PSt.keyword, expect_cons hk, bind, Except.bind, text_cons, pure,
          Except.pure, k1, k2]
      | ast =>
        have hf1 : Ev fun n => formula .ast n ⟨fs ++ (vs ++ rest), s⟩ = .ok (a, ⟨vs ++ rest, false⟩) := by
          cases s with
          | false => exact hf0
          | true =>
            obtain ⟨a', ha'⟩ := simple_formula (e := .ast) (hsimple rfl rfl)
            obtain ⟨n, k1, k2⟩ := hf0.get (ha' (vs ++ rest) false hi ho)
            rw [k1] at k2
            injection k2 with k2
            injection k2 with k2 _
            subst k2
            exact ha' (vs ++ rest) true hi ho
        refine (hf1.and (hr rest hs)).step fun n ⟨k1, k2⟩ => ?_
        simp only [List.cons_append, List.append_assoc, keywordMessage, PSt.atKeyword, PSt.keyword, expect_cons hk, bind, Except.bind, text_cons, pure,
          Except.pure, k1, k2]
    have hkey : PSt.sym ⟨k :: (fs ++ vs) ++ rest, s⟩ = .keyword := hk
    exact evaluation_ok (r := (.send s (k.text ++ ks') t (a :: as'), ⟨rest, false⟩)) h1 h2 h3 (by rw [if_pos hkey]; exact hkm)
  case eval =>
    intro ts t hv ih rest hs
    refine (ih rest hs).step fun n ih => ?_
    simp only [expression, if_neg ((shapes.2.2.2.2.1 hv).next hs.noAssign false), ih]
  case assign =>
    intro xs ts ns t hx hp hv ih rest hs
    have hn := (shapes.2.2.2.2.1 hv).next hs.noAssign false
    cases e with
    | bc =>
      obtain ⟨k1, k2⟩ := targets_bc hx hn
      refine (k2.and (ih rest hs)).step fun n ⟨k2, k3⟩ => ?_
      have hne : ns ≠ [] := by cases hx <;> simp
      simp only [expression, k1, if_true, k2, bind, Except.bind, k3, if_neg hne]
      rfl
    | ast =>
      obtain ⟨k1, k2⟩ := targets_ast hx (hp rfl) hn (ih rest hs)
      refine k2.step fun n k2 => ?_
      simp only [expression, k1, if_true, k2, bind, Except.bind]
      rfl
  case empty =>
    intro rest hr
    obtain ⟨c, r, rfl, hc⟩ := hr
    have hx : c.sym ≠ .exit := by rcases hc with h | h <;> rw [h] <;> decide
    exact .of fun n => by
      simp only [body, List.nil_append, sym_cons, if_neg hx, if_pos hc.symm]
  case exit =>
    intro c ts ds t hc _ hd ih rest hr
    have hst := hr.stop
    have hs : Stop (ds ++ rest) := by
      cases hd with
      | none => exact hst
      | some hp => intro u hu; cases hu; simp only [IsId, IsOp, hp]; decide
    refine (ih (ds ++ rest) hs).step fun n ih => ?_
    have e1 : c :: (ts ++ ds) ++ rest = c :: (ts ++ (ds ++ rest)) := by simp
    rw [e1]
    simp only [body, sym_cons, hc, if_true, advance_cons, ih, bind, Except.bind]
    obtain ⟨d, r, rfl, hd'⟩ := hr
    cases hd with
    | none =>
      have : d.sym ≠ .period := by rcases hd' with h | h <;> rw [h] <;> decide
      simp only [List.nil_append, sym_cons, if_neg this]
      rfl
    | some hp =>
      simp only [List.cons_append, List.nil_append, sym_cons, hp, if_true]
      rfl
  case last =>
    intro ts t hx ih rest hr
    have hst := hr.stop
    have hb : Begins (ts ++ rest) := (shapes.2.2.2.2.2.1 hx).append
    have h1 : PSt.sym ⟨ts ++ rest, false⟩ ≠ .exit := hb.ne (by decide)
    have h2 : ¬ (PSt.sym ⟨ts ++ rest, false⟩ = .endBlock ∨ PSt.sym ⟨ts ++ rest, false⟩ = .endTerm) :=
      not_or.mpr ⟨hb.ne (by decide), hb.ne (by decide)⟩
    obtain ⟨c, r, rfl, hc⟩ := hr
    have h3 : c.sym ≠ .period := by rcases hc with h | h <;> rw [h] <;> decide
    have h4 : c.sym ≠ .exit := by rcases hc with h | h <;> rw [h] <;> decide
    have hend : Ev fun n => body e n ⟨c :: r, false⟩ = .ok ([], false, ⟨c :: r, false⟩) := .of fun n => by
      simp only [body, sym_cons, if_neg h4, if_pos hc.symm]
    refine (((ih _ hst).and hend).step fun n ⟨k1, k2⟩ => ?_)
    simp only [body, if_neg h1, if_neg h2, k1, bind, Except.bind, sym_cons, if_neg h3]
    cases e with
    | bc => rfl
    | ast => simp only [k2]; rfl
  case stmt =>
    intro p ts us t bs ex hx hp _ ih ihb rest hr
    have hb : Begins (ts ++ p :: us ++ rest) := (shapes.2.2.2.2.2.1 hx).append.append
    have h1 : PSt.sym ⟨ts ++ p :: us ++ rest, false⟩ ≠ .exit := hb.ne (by decide)
    have h2 : ¬ (PSt.sym ⟨ts ++ p :: us ++ rest, false⟩ = .endBlock ∨ PSt.sym ⟨ts ++ p :: us ++ rest, false⟩ = .endTerm) :=
      not_or.mpr ⟨hb.ne (by decide), hb.ne (by decide)⟩
    have hs : Stop (p :: us ++ rest) := fun u hu => (by cases hu; simp only [IsId, IsOp, hp]; decide)
    refine ((ih _ hs).and (ihb rest hr)).step fun n ⟨k1, k2⟩ => ?_
    have e1 : ts ++ p :: us ++ rest = ts ++ (p :: us ++ rest) := by simp
    rw [e1] at h1 h2 ⊢
    simp only [List.cons_append] at h1 h2 k1 ⊢
    simp only [body, if_neg h1, if_neg h2, k1, bind, Except.bind, List.cons_append, sym_cons, hp, if_true, advance_cons, k2]
    rfl
  case juxt =>
    intro ts us t bs ex hl
    cases e <;> cases hl

end PySOM.Parse

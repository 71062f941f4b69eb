import Verif.Spec.Elab
import Verif.Lemmas.ParserSound
import Verif.Spec.Lexer
/-! # What the parser makes of the tokens of a text: selectors and names -/
set_option autoImplicit false
namespace PySOM.Elab
open PySOM PySOM.Lex PySOM.Parse PySOM.Parse.Grammar PySOM.Elab.Spec

/-! ## Tokens -/

/-- An identifier contains neither `:` nor `$`. -/
def NameOk (x : Name) : Prop := ':' ∉ x ∧ '$' ∉ x

/-- The shape of tokens. -/
structure Shape (t : Tok) : Prop where
  name : IsId t → NameOk t.text
  id : IsId t → Sym.numberOfSignatureArguments t.text = 1
  key : t.sym = .keyword → Sym.isBinarySignature t.text = false ∧ Sym.countColons t.text 0 = 1
  op : IsOp t → Sym.numberOfSignatureArguments t.text = 2

structure TokOk (t : Tok) : Prop extends Shape t where
  legal : t.sym ≠ .none

theorem isOperatorChar_eq (c : Char) : Sym.isOperatorChar c = isOperator c := by
  simp only [Sym.isOperatorChar, isOperator]
  ac_rfl

theorem countColons_add (s : List Char) : ∀ n, Sym.countColons s n = Sym.countColons s 0 + n := by
  induction s with
  | nil => intro n; simp [Sym.countColons]
  | cons c cs ih =>
    intro n
    simp only [Sym.countColons]
    split
    · rw [ih (n + 1), ih (0 + 1)]; omega
    · rw [ih n]

theorem countColons_append (s t : List Char) : Sym.countColons (s ++ t) 0 = Sym.countColons s 0 + Sym.countColons t 0 := by
  induction s with
  | nil => simp [Sym.countColons]
  | cons c cs ih =>
    simp only [List.cons_append, Sym.countColons]
    rw [countColons_add (cs ++ t), countColons_add cs, ih]
    omega

theorem countColons_no {s : List Char} (h : ':' ∉ s) : Sym.countColons s 0 = 0 := by
  induction s with
  | nil => rfl
  | cons c cs ih =>
    simp only [List.mem_cons, not_or] at h
    simp only [Sym.countColons, if_neg (Ne.symm h.1)]
    exact ih h.2

theorem isBinary_head {c : Char} {cs : List Char} (h : isOperator c = false) : Sym.isBinarySignature (c :: cs) = false := by
  simp [Sym.isBinarySignature, isOperatorChar_eq, h]

theorem isBinary_append {s t : List Char} (h : Sym.isBinarySignature s = false) : Sym.isBinarySignature (s ++ t) = false := by
  induction s with
  | nil => cases h
  | cons c cs ih =>
    simp only [Sym.isBinarySignature, List.cons_append] at h ⊢
    split
    · next hc => rw [if_pos hc] at h; exact ih h
    · rfl

theorem isBinary_all {s : List Char} (h : ∀ c ∈ s, isOperator c = true) : Sym.isBinarySignature s = true := by
  induction s with
  | nil => rfl
  | cons c cs ih =>
    simp only [Sym.isBinarySignature, isOperatorChar_eq, h c List.mem_cons_self, if_true]
    exact ih fun d hd => h d (List.mem_cons_of_mem _ hd)

theorem mem_takeWhile {p : Char → Bool} {l : List Char} {c : Char} (h : c ∈ l.takeWhile p) : p c = true := by
  induction l with
  | nil => cases h
  | cons d ds ih =>
    simp only [List.takeWhile_cons] at h
    split at h
    · next hp =>
      rcases List.mem_cons.1 h with rfl | h
      · exact hp
      · exact ih h
    · cases h

/-- Other tokens. -/
theorem Shape.other {t : Tok} (h1 : ¬ IsId t) (h2 : ¬ IsOp t) (h3 : t.sym ≠ .keyword) : Shape t :=
  ⟨fun h => absurd h h1, fun h => absurd h h1, fun h => absurd h h3, fun h => absurd h h2⟩

theorem Shape.ofOp {t : Tok} (h : IsOp t) (hw : ∀ c ∈ t.text, isOperator c = true) : Shape t := by
  refine ⟨fun h1 => absurd h (IsId.not_op h1), fun h1 => absurd h (IsId.not_op h1), fun h1 => absurd h (keyword_not_op h1), fun _ => ?_⟩
  simp only [Sym.numberOfSignatureArguments, isBinary_all hw, if_true]

section
variable {C : Classes} (hC : Lex.Spec.Good C) (hd : C.isAlnum '$' = false)
include hC

theorem alnum_not_op {c : Char} (h : C.isAlnum c = true) : isOperator c = false := by
  cases ho : isOperator c with
  | false => rfl
  | true => rw [(hC.punct c (by simp [ho])).1] at h; cases h

include hd

theorem wordChars_ok {x : List Char} (h : ∀ c ∈ x, (C.isAlnum c || c == '_') = true) : NameOk x := by
  refine ⟨fun hm => ?_, fun hm => ?_⟩
  · have := h _ hm
    rw [(hC.punct ':' (by simp)).1] at this
    exact absurd this (by decide)
  · have := h _ hm
    rw [hd] at this
    exact absurd this (by decide)

theorem Shape.ofId {t : Tok} (h : IsId t) {c : Char} {cs : List Char} (he : t.text = c :: cs) (ha : C.isAlnum c = true) (hw : ∀ c ∈ t.text, (C.isAlnum c || c == '_') = true) :
    Shape t := by
  have hn := wordChars_ok hC hd hw
  refine ⟨fun _ => hn, fun _ => ?_, fun h1 => absurd h (keyword_not_id h1), fun h1 => absurd h (IsOp.not_id h1)⟩
  simp only [Sym.numberOfSignatureArguments, he, isBinary_head (alnum_not_op hC ha), Bool.false_eq_true, if_false]
  rw [← he, countColons_no hn.1]

theorem Shape.ofKey {t : Tok} (h : t.sym = .keyword) {c : Char} {cs : List Char} (he : t.text = (c :: cs) ++ [':']) (ha : C.isAlnum c = true)
    (hw : ∀ d ∈ c :: cs, (C.isAlnum d || d == '_') = true) : Shape t := by
  have hn := wordChars_ok hC hd hw
  refine ⟨fun h1 => absurd h1 (keyword_not_id h), fun h1 => absurd h1 (keyword_not_id h), fun _ => ⟨?_, ?_⟩, fun h1 => absurd h1 (keyword_not_op h)⟩
  · rw [he]; exact isBinary_append (isBinary_head (alnum_not_op hC ha))
  · rw [he, countColons_append, countColons_no hn.1]; rfl

theorem word_ok {c : Char} {r : List Char} (hc : C.isAlpha c = true) {t : Tok} {r' : List Char} (h : Lex.Spec.word C (c :: r) = .tok t r') : Shape t := by
  have ha := hC.alpha_alnum c hc
  have hw : ∀ d ∈ (c :: r).takeWhile (fun c => C.isAlnum c || c == '_'), (C.isAlnum d || d == '_') = true := fun d hd => mem_takeWhile hd
  have he : (c :: r).takeWhile (fun c => C.isAlnum c || c == '_') = c :: r.takeWhile (fun c => C.isAlnum c || c == '_') := by
    simp [ha]
  simp only [Lex.Spec.word] at h
  rw [he] at h hw
  split at h
  · split at h
    · cases h
      exact .other (by simp [IsId]) (by simp [IsOp]) (by simp)
    · cases h
      exact .ofKey hC hd rfl rfl ha hw
  · cases h
    exact .ofKey hC hd rfl rfl ha hw
  · cases h
    exact .ofId hC hd (.inl rfl) rfl ha hw

theorem token_ok {text : List Char} {t : Tok} {r : List Char} (h : Lex.Spec.token C text = .tok t r) : Shape t := by
  have other : ∀ k x, k ∉ [Sym.identifier, .primitive, .keyword, .operatorSequence, .plus, .minus, .star, .div, .mod, .less, .more, .equal, .not, .and, .or, .comma, .at, .per] → Shape ⟨k, x⟩ := by
    intro k x hk
    simp only [List.mem_cons, List.not_mem_nil, or_false, not_or] at hk
    exact .other (by simp [IsId, hk]) (by simp [IsOp, hk]) (by simp [hk])
  cases text with
  | nil => cases h; exact other _ _ (by decide)
  | cons c cs =>
    simp only [Lex.Spec.token] at h
    split at h
    · split at h <;> cases h
      exact other _ _ (by decide)
    · split at h
      · split at h <;> cases h <;> exact other _ _ (by decide)
      · split at h
        · next k hk =>
          cases h
          simp only [Lex.Spec.punctuation] at hk
          split at hk <;> first | (cases hk; exact other _ _ (by decide)) | cases hk
        · split at h
          · cases h; exact other _ _ (by decide)
          · split at h
            · next ho =>
              simp only [Lex.Spec.op, Lex.Spec.Next.tok.injEq] at h
              obtain ⟨rfl, rfl⟩ := h
              have hw : ∀ d ∈ (c :: cs).takeWhile isOperator, isOperator d = true := fun d hd => mem_takeWhile hd
              have he : (c :: cs).takeWhile isOperator = c :: cs.takeWhile isOperator := by simp [ho]
              rw [he] at hw ⊢
              cases hcs : cs.takeWhile isOperator with
              | nil =>
                simp only [Lex.Spec.opToken]
                rw [hcs] at hw
                refine .ofOp ?_ hw
                simp only [isOperator, Bool.or_eq_true, beq_iff_eq] at ho
                rcases ho with ((((((((((((rfl | rfl) | rfl) | rfl) | rfl) | rfl) | rfl) | rfl) | rfl) | rfl) | rfl) | rfl) | rfl) | rfl <;>
                  (simp only [IsOp]; decide)
              | cons d ds =>
                simp only [Lex.Spec.opToken]
                rw [hcs] at hw
                exact .ofOp (by simp [IsOp]) hw
            · split at h
              · next hp =>
                cases h
                refine ⟨fun _ => ?_, fun _ => ?_, fun h => ?_, fun h => ?_⟩
                · exact ⟨by decide, by decide⟩
                · decide
                · cases h
                · exact absurd h (by simp [IsOp])
              · split at h
                · next ha => exact word_ok hC hd ha h
                · split at h
                  · simp only [Lex.Spec.number] at h
                    split at h
                    · split at h <;> cases h <;> exact other _ _ (by decide)
                    · cases h; exact other _ _ (by decide)
                  · cases h; exact other _ _ (by decide)

theorem tokens_ok {text : List Char} {ts : List Tok} (h : Lex.Spec.Tokens C text ts) : ∀ t ∈ ts, TokOk t := by
  induction h with
  | stop => exact fun _ h => nomatch h
  | step text t r ts hn hne _ ih =>
    intro u hu
    rcases List.mem_cons.1 hu with rfl | hu
    · exact { token_ok hC hd hn with legal := hne }
    · exact ih u hu
end

/-! ## Trees -/

/-- What the parser makes of such tokens. -/
def TreeOk (t : Tree) : Prop := arity t ∧ ∀ x ∈ names t, NameOk x
def TreesOk (ts : List Tree) : Prop := arityL ts ∧ ∀ x ∈ namesL ts, NameOk x

theorem treesOk_iff {ts : List Tree} : TreesOk ts ↔ ∀ t ∈ ts, TreeOk t := by
  induction ts with
  | nil => simp [TreesOk, arityL, namesL]
  | cons t ts ih =>
    simp only [List.mem_cons, forall_eq_or_imp]
    rw [← ih]
    simp only [TreesOk, TreeOk, arityL, namesL, List.mem_append]
    constructor
    · exact fun h => ⟨⟨h.1.1, fun x hx => h.2 x (.inl hx)⟩, h.1.2, fun x hx => h.2 x (.inr hx)⟩
    · exact fun h => ⟨⟨h.1.1, h.2.1⟩, fun x hx => hx.elim (h.1.2 x) (h.2.2 x)⟩

theorem TreesOk.nil : TreesOk [] := treesOk_iff.2 fun _ h => nomatch h
theorem TreesOk.cons {t : Tree} {ts : List Tree} (h : TreeOk t) (hs : TreesOk ts) : TreesOk (t :: ts) :=
  treesOk_iff.2 fun u hu => (List.mem_cons.1 hu).elim (fun e => e ▸ h) (treesOk_iff.1 hs u)

theorem TreeOk.lit (l : Lit) : TreeOk (.lit l) := ⟨trivial, fun _ h => nomatch h⟩
theorem TreeOk.var {x : Name} (h : NameOk x) : TreeOk (.var x) := ⟨trivial, fun y hy => by rcases List.mem_singleton.1 hy with rfl; exact h⟩
theorem TreeOk.send {sup : Bool} {sel : Name} {r : Tree} {as : List Tree} (hr : TreeOk r) (ha : TreesOk as) (hs : Sym.numberOfSignatureArguments sel = as.length + 1) :
    TreeOk (.send sup sel r as) :=
  ⟨⟨hr.1, ha.1, hs⟩, fun x hx => (List.mem_append.1 hx).elim (hr.2 x) (ha.2 x)⟩
theorem TreeOk.assign {xs : List Name} {v : Tree} (hx : ∀ x ∈ xs, NameOk x) (hv : TreeOk v) : TreeOk (.assign xs v) :=
  ⟨hv.1, fun x h => (List.mem_append.1 h).elim (hx x) (hv.2 x)⟩
theorem TreeOk.block {ps ls : List Name} {ts : List Tree} {ex : Bool} (hp : ∀ x ∈ ps, NameOk x) (hl : ∀ x ∈ ls, NameOk x) (hs : TreesOk ts) : TreeOk (.block ps ls ts ex) :=
  ⟨hs.1, fun x h => (List.mem_append.1 h).elim (fun h => (List.mem_append.1 h).elim (hp x) (hl x)) (hs.2 x)⟩

/-- All tokens are as they should be. -/
def Ok (s : PSt) : Prop := ∀ t ∈ s.toks, TokOk t

theorem Ok.right {s s' : PSt} {ts : List Tok} (h : Ok s) (e : s.toks = ts ++ s'.toks) : Ok s' := fun t ht => h t (by rw [e]; exact List.mem_append_right _ ht)
theorem Ok.tail {s s' : PSt} {u : Tok} (h : Ok s) (e : s.toks = u :: s'.toks) : Ok s' := fun t ht => h t (by rw [e]; exact List.mem_cons_of_mem _ ht)
theorem Ok.head {s : PSt} {u : Tok} {r : List Tok} (h : Ok s) (e : s.toks = u :: r) : TokOk u := h u (by rw [e]; exact List.mem_cons_self)
theorem Ok.advance {s : PSt} (h : Ok s) : Ok s.advance := fun t ht => h t (List.mem_of_mem_tail ht)
theorem Ok.sup {s : PSt} (h : Ok s) (b : Bool) : Ok { s with sup := b } := h
theorem Ok.took {s s' : PSt} {R : List Tok → Prop} (h : Ok s) (ht : Took s s' R) : Ok s' := by
  obtain ⟨ts, e, _⟩ := ht
  exact h.right e

theorem Grammar.Ids.ok {ts : List Tok} {xs : List Name} (h : Ids ts xs) (ht : ∀ t ∈ ts, TokOk t) : ∀ x ∈ xs, NameOk x := by
  induction h with
  | nil => exact fun _ h => nomatch h
  | @cons t ts xs hi _ ih =>
    intro x hx
    rcases List.mem_cons.1 hx with rfl | hx
    · exact (ht t List.mem_cons_self).name hi
    · exact ih (fun u hu => ht u (List.mem_cons_of_mem _ hu)) x hx

theorem Grammar.Params.ok {ts : List Tok} {xs : List Name} (h : Params ts xs) (ht : ∀ t ∈ ts, TokOk t) : ∀ x ∈ xs, NameOk x := by
  induction h with
  | nil => exact fun _ h => nomatch h
  | @cons c t ts xs _ hi _ ih =>
    intro x hx
    rcases List.mem_cons.1 hx with rfl | hx
    · exact (ht t (List.mem_cons_of_mem _ List.mem_cons_self)).name hi
    · exact ih (fun u hu => ht u (List.mem_cons_of_mem _ (List.mem_cons_of_mem _ hu))) x hx

theorem Grammar.Targets.ok {ts : List Tok} {xs : List Name} (h : Targets ts xs) (ht : ∀ t ∈ ts, TokOk t) : ∀ x ∈ xs, NameOk x := by
  induction h with
  | @one t a hi _ =>
    intro x hx
    rcases List.mem_singleton.1 hx with rfl
    exact (ht t List.mem_cons_self).name hi
  | @cons t a ts xs hi _ _ ih =>
    intro x hx
    rcases List.mem_cons.1 hx with rfl | hx
    · exact (ht t List.mem_cons_self).name hi
    · exact ih (fun u hu => ht u (List.mem_cons_of_mem _ (List.mem_cons_of_mem _ hu))) x hx

theorem Grammar.LocalsDecl.ok {ts : List Tok} {xs : List Name} (h : LocalsDecl ts xs) (ht : ∀ t ∈ ts, TokOk t) : ∀ x ∈ xs, NameOk x := by
  cases h with
  | none => exact fun _ h => nomatch h
  | @some o c us _ _ _ hi => exact Grammar.Ids.ok hi fun t hm => ht t (List.mem_cons_of_mem _ (List.mem_append_left _ hm))

theorem Grammar.BlockHead.ok {ts : List Tok} {xs : List Name} (h : BlockHead ts xs) (ht : ∀ t ∈ ts, TokOk t) : ∀ x ∈ xs, NameOk x := by
  cases h with
  | none => exact fun _ h => nomatch h
  | @some o us _ _ hi _ => exact Grammar.Params.ok hi fun t hm => ht t (List.mem_append_left _ hm)

theorem Ok.left {s s' : PSt} {ts : List Tok} (h : Ok s) (e : s.toks = ts ++ s'.toks) : ∀ t ∈ ts, TokOk t := fun t ht => h t (by rw [e]; exact List.mem_append_left _ ht)

theorem unaryLoop_tree : ∀ (n : Nat) (r : Tree) (s : PSt) (t : Tree) (s' : PSt), unaryLoop n r s = .ok (t, s') → Ok s → TreeOk r → TreeOk t ∧ Ok s' := by
  intro n
  induction n with
  | zero => intro _ _ _ _ h; cases h
  | succ n ih =>
    intro r s t s' h hs hr
    simp only [unaryLoop] at h
    by_cases h1 : s.isIdent = true
    · rw [if_pos h1] at h
      obtain ⟨⟨t1, s1⟩, k1, h⟩ := bindInv h
      simp only [unaryMessage] at k1
      obtain ⟨⟨x, s2⟩, k2, k1⟩ := bindInv k1
      cases k1
      obtain ⟨m, e1, hm, rfl, b1⟩ := identifier_inv k2
      exact ih _ _ _ _ h (Ok.tail (s := { s with sup := false }) (hs.sup _) e1) (.send hr .nil ((hs.head e1).id hm))
    · rw [if_neg h1] at h
      cases h
      exact ⟨hr, hs⟩

/-- A sequence of keywords. -/
def KeyOk (n : Nat) (ks : Name) : Prop := Sym.countColons ks 0 = n

theorem keys_arity {k ks : Name} {n : Nat} (hk : Sym.isBinarySignature k = false ∧ Sym.countColons k 0 = 1) (h : KeyOk n ks) : Sym.numberOfSignatureArguments (k ++ ks) = n + 1 + 1 := by
  unfold KeyOk at h
  simp only [Sym.numberOfSignatureArguments, isBinary_append hk.1, Bool.false_eq_true, if_false, countColons_append, hk.2, h]
  omega

theorem parse_tree : ∀ n : Nat,
    (∀ s t s', expression .bc n s = .ok (t, s') → Ok s → TreeOk t ∧ Ok s') ∧
    (∀ s t s', evaluation .bc n s = .ok (t, s') → Ok s → TreeOk t ∧ Ok s') ∧
    (∀ s t s', primary .bc n s = .ok (t, s') → Ok s → TreeOk t ∧ Ok s') ∧
    (∀ r s t s', messages .bc n r s = .ok (t, s') → Ok s → TreeOk r → TreeOk t ∧ Ok s') ∧
    (∀ r s t s', binaryLoop .bc n r s = .ok (t, s') → Ok s → TreeOk r → TreeOk t ∧ Ok s') ∧
    (∀ r s t s', binaryMessage .bc n r s = .ok (t, s') → s.isBinOp = true → Ok s → TreeOk r → TreeOk t ∧ Ok s') ∧
    (∀ s t s', binaryOperand .bc n s = .ok (t, s') → Ok s → TreeOk t ∧ Ok s') ∧
    (∀ r s t s', keywordMessage .bc n r s = .ok (t, s') → Ok s → TreeOk r → TreeOk t ∧ Ok s') ∧
    (∀ s ks as s', keywordArgs .bc n s = .ok (ks, as, s') → Ok s → KeyOk as.length ks ∧ TreesOk as ∧ Ok s') ∧
    (∀ s t s', formula .bc n s = .ok (t, s') → Ok s → TreeOk t ∧ Ok s') ∧
    (∀ s bs ex s', Parse.body .bc n s = .ok (bs, ex, s') → Ok s → TreesOk bs ∧ Ok s') := by
  intro n
  induction n with
  | zero =>
    refine ⟨?_, ?_, ?_, ?_, ?_, ?_, ?_, ?_, ?_, ?_, ?_⟩
    · intro _ _ _ h; cases h
    · intro _ _ _ h; cases h
    · intro _ _ _ h; cases h
    · intro _ _ _ _ h; cases h
    · intro _ _ _ _ h; cases h
    · intro _ _ _ _ h; cases h
    · intro _ _ _ h; cases h
    · intro _ _ _ _ h; cases h
    · intro _ _ _ _ h; cases h
    · intro _ _ _ h; cases h
    · intro _ _ _ _ h; cases h
  | succ n ih =>
    obtain ⟨iE, iV, iP, iM, iL, iB, iO, iK, iR, iF, iS⟩ := ih
    refine ⟨?_, ?_, ?_, ?_, ?_, ?_, ?_, ?_, ?_, ?_, ?_⟩
    · -- expression
      intro s t s' h hs
      simp only [expression] at h
      by_cases h1 : s.next = .assign
      · rw [if_pos h1] at h
        obtain ⟨⟨xs, s1⟩, k1, h⟩ := bindInv h
        obtain ⟨⟨v, s2⟩, k2, h⟩ := bindInv h
        cases h
        rcases assignmentsBc_sound _ _ _ _ k1 with ⟨rfl, rfl⟩ | ⟨ts, e1, b1, g1⟩
        · exact iV _ _ _ k2 hs
        · obtain ⟨hv, h2⟩ := iV _ _ _ k2 (hs.right e1)
          refine ⟨?_, h2⟩
          split
          · exact hv
          · exact .assign (Grammar.Targets.ok g1 (hs.left e1)) hv
      · rw [if_neg h1] at h
        exact iV _ _ _ h hs
    · -- evaluation
      intro s t s' h hs
      simp only [evaluation] at h
      obtain ⟨⟨p, s1⟩, k1, h⟩ := bindInv h
      obtain ⟨hp, h1⟩ := iP _ _ _ k1 hs
      dsimp only at h
      split at h
      · obtain ⟨⟨m, s2⟩, k2, h⟩ := bindInv h
        cases h
        obtain ⟨g2, h2⟩ := iM _ _ _ _ k2 h1 hp
        exact ⟨g2, h2⟩
      · cases h
        exact ⟨hp, h1⟩
    · -- primary
      intro s t s' h hs
      simp only [primary] at h
      by_cases h1 : s.isIdent = true
      · rw [if_pos h1] at h
        obtain ⟨⟨x, s1⟩, k1, h⟩ := bindInv h
        obtain ⟨u, e1, hu, rfl, b1⟩ := identifier_inv k1
        dsimp only at h
        split at h
        · cases h
          exact ⟨.var ⟨by decide, by decide⟩, Ok.tail (s' := s1) hs e1⟩
        · cases h
          exact ⟨.var ((hs.head e1).name hu), hs.tail e1⟩
      · rw [if_neg h1] at h
        by_cases h2 : s.sym = .newTerm
        · rw [if_pos h2] at h
          obtain ⟨s1, k1, h⟩ := bindInv h
          obtain ⟨⟨x, s2⟩, k2, h⟩ := bindInv h
          obtain ⟨s3, k3, h⟩ := bindInv h
          cases h
          obtain ⟨o, e1, ho, b1⟩ := expect_inv (by decide) k1
          obtain ⟨g, h2⟩ := iE _ _ _ k2 (hs.tail e1)
          obtain ⟨c, e3, hc, b3⟩ := expect_inv (by decide) k3
          exact ⟨g, h2.tail e3⟩
        · rw [if_neg h2] at h
          by_cases h3 : s.sym = .newBlock
          · rw [if_pos h3] at h
            obtain ⟨⟨ps, s1⟩, k1, h⟩ := bindInv h
            obtain ⟨⟨ls, s2⟩, k2, h⟩ := bindInv h
            obtain ⟨⟨bs, ex, s3⟩, k3, h⟩ := bindInv h
            obtain ⟨s4, k4, h⟩ := bindInv h
            cases h
            obtain ⟨_, e1, b1, o, us, rfl, ho, g1⟩ := blockSignature_sound k1
            obtain ⟨vs, e2, b2, g2⟩ := localsDecl_sound k2
            have hs1 := hs.right e1
            obtain ⟨g3, hs3⟩ := iS _ _ _ _ k3 (hs1.right e2)
            obtain ⟨c, e4, hc, b4⟩ := expect_inv (by decide) k4
            exact ⟨.block (Grammar.BlockHead.ok g1 fun t ht => hs.left e1 t (List.mem_cons_of_mem _ ht)) (Grammar.LocalsDecl.ok g2 (hs1.left e2)) g3, hs3.tail e4⟩
          · rw [if_neg h3] at h
            obtain ⟨⟨l, s1⟩, k1, h⟩ := bindInv h
            cases h
            exact ⟨.lit l, hs.took ((literal_sound n).1 _ _ _ k1)⟩
    · -- messages
      intro r s t s' h hs hr
      have tail : ∀ (r : Tree) (s : PSt) (t : Tree) (s' : PSt),
          (do let (r, s) ← binaryLoop .bc n r s
              if s.sym = Sym.keyword then keywordMessage .bc n r s else return (r, s)) = .ok (t, s') → Ok s → TreeOk r → TreeOk t ∧ Ok s' := by
        intro r s t s' h hs hr
        obtain ⟨⟨u, s1⟩, k1, h⟩ := bindInv h
        obtain ⟨g1, h1⟩ := iL _ _ _ _ k1 hs hr
        dsimp only at h
        split at h
        · exact iK _ _ _ _ h h1 g1
        · cases h
          exact ⟨g1, h1⟩
      simp only [messages] at h
      split at h
      · obtain ⟨⟨u, s1⟩, k1, h⟩ := bindInv h
        obtain ⟨g1, h1⟩ := unaryLoop_tree n _ _ _ _ k1 hs hr
        exact tail _ _ _ _ h h1 g1
      · split at h
        · exact tail _ _ _ _ h hs hr
        · exact iK _ _ _ _ h hs hr
    · -- binaryLoop
      intro r s t s' h hs hr
      simp only [binaryLoop] at h
      by_cases h1 : s.isBinOp = true
      · rw [if_pos h1] at h
        obtain ⟨⟨u, s1⟩, k1, h⟩ := bindInv h
        obtain ⟨g1, h1⟩ := iB _ _ _ _ k1 h1 hs hr
        exact iL _ _ _ _ h h1 g1
      · rw [if_neg h1] at h
        cases h
        exact ⟨hr, hs⟩
    · -- binaryMessage
      intro r s t s' h h1 hs hr
      rcases s with ⟨toks, b⟩
      obtain ⟨op, rest, e0, hop⟩ := binop_head h1
      simp only at e0
      subst e0
      have ho := (hs.head rfl).op hop
      have hrest : Ok ⟨rest, false⟩ := Ok.tail (s := ⟨op :: rest, b⟩) hs rfl
      simp only [binaryMessage, binarySelector_cons hop, bind, Except.bind] at h
      split at h
      · cases h
        exact ⟨.send hr (.cons (.lit _) .nil) ho, hrest.advance⟩
      · cases k1 : binaryOperand .bc n ⟨rest, false⟩ with
        | error f => rw [k1] at h; cases h
        | ok q =>
          obtain ⟨a, s1⟩ := q
          rw [k1] at h
          cases h
          obtain ⟨g1, h1⟩ := iO _ _ _ k1 hrest
          exact ⟨.send hr (.cons g1 .nil) ho, h1⟩
    · -- binaryOperand
      intro s t s' h hs
      simp only [binaryOperand] at h
      obtain ⟨⟨p, s1⟩, k1, h⟩ := bindInv h
      obtain ⟨g1, h1⟩ := iP _ _ _ k1 hs
      exact unaryLoop_tree n _ _ _ _ h h1 g1
    · -- keywordMessage
      intro r s t s' h hs hr
      simp only [keywordMessage] at h
      obtain ⟨⟨k, s1⟩, k1, h⟩ := bindInv h
      obtain ⟨⟨a, s2⟩, k2, h⟩ := bindInv h
      obtain ⟨⟨ks, as, s3⟩, k3, h⟩ := bindInv h
      cases h
      obtain ⟨kt, e1, hk, rfl, b1⟩ := keyword_inv k1
      have hs' : Ok (s.atKeyword .bc) := hs
      obtain ⟨g2, h2⟩ := iF _ _ _ k2 (hs'.tail e1)
      obtain ⟨g3, g4, h3⟩ := iR _ _ _ _ k3 h2
      exact ⟨.send hr (.cons g2 g4) (keys_arity ((hs'.head e1).key hk) g3), h3⟩
    · -- keywordArgs
      intro s ks as s' h hs
      simp only [keywordArgs] at h
      by_cases h1 : s.sym = .keyword
      · rw [if_pos h1] at h
        obtain ⟨⟨k, s1⟩, k1, h⟩ := bindInv h
        obtain ⟨⟨a, s2⟩, k2, h⟩ := bindInv h
        obtain ⟨⟨ks', as', s3⟩, k3, h⟩ := bindInv h
        cases h
        obtain ⟨kt, e1, hk, rfl, b1⟩ := keyword_inv k1
        obtain ⟨g2, h2⟩ := iF _ _ _ k2 (hs.tail e1)
        obtain ⟨g3, g4, h3⟩ := iR _ _ _ _ k3 h2
        refine ⟨?_, .cons g2 g4, h3⟩
        unfold KeyOk at g3 ⊢
        rw [countColons_append, ((hs.head e1).key hk).2, g3, List.length_cons]
        exact Nat.add_comm _ _
      · rw [if_neg h1] at h
        cases h
        exact ⟨rfl, .nil, hs⟩
    · -- formula
      intro s t s' h hs
      simp only [formula] at h
      obtain ⟨⟨a, s1⟩, k1, h⟩ := bindInv h
      obtain ⟨⟨b, s2⟩, k2, h⟩ := bindInv h
      cases h
      obtain ⟨g1, h1⟩ := iO _ _ _ k1 hs
      obtain ⟨g2, h2⟩ := iL _ _ _ _ k2 h1 g1
      exact ⟨g2, h2⟩
    · -- body
      intro s bs ex s' h hs
      simp only [Parse.body] at h
      split at h
      · obtain ⟨⟨v, s1⟩, k1, h⟩ := bindInv h
        obtain ⟨g1, h1⟩ := iE _ _ _ k1 hs.advance
        cases h
        refine ⟨.cons g1 .nil, ?_⟩
        split
        · exact h1.advance
        · exact h1
      · split at h
        · cases h
          exact ⟨.nil, hs⟩
        · obtain ⟨⟨v, s1⟩, k1, h⟩ := bindInv h
          obtain ⟨g1, h1⟩ := iE _ _ _ k1 hs
          dsimp only at h
          split at h
          · obtain ⟨⟨ts, ex', s2⟩, k2, h⟩ := bindInv h
            cases h
            obtain ⟨g2, h2⟩ := iS _ _ _ _ k2 h1.advance
            exact ⟨.cons g1 g2, h2⟩
          · cases h
            exact ⟨.cons g1 .nil, h1⟩

/-! ## Methods and classes -/

/-- What is known of a parsed method: its selector has as many arguments as it has parameters, and its statements are as they should be. -/
structure MethodOk (m : Method) : Prop where
  arity : Sym.numberOfSignatureArguments m.sel = m.params.length + 1
  params : ∀ x ∈ m.params, NameOk x
  impl : ∀ ls ts ex, m.impl = some (ls, ts, ex) → (∀ x ∈ ls, NameOk x) ∧ TreesOk ts

theorem keywordPattern_tree : ∀ (n : Nat) (s : PSt) (ks : Name) (xs : List Name) (s' : PSt), keywordPattern n s = .ok (ks, xs, s') → Ok s →
    KeyOk xs.length ks ∧ (s.sym = .keyword → Sym.isBinarySignature ks = false) ∧ (∀ x ∈ xs, NameOk x) ∧ Ok s' := by
  intro n
  induction n with
  | zero => intro _ _ _ _ h; cases h
  | succ n ih =>
    intro s ks xs s' h hs
    simp only [keywordPattern] at h
    by_cases h1 : s.sym = .keyword
    · rw [if_pos h1] at h
      obtain ⟨⟨k, s1⟩, k1, h⟩ := bindInv h
      obtain ⟨⟨x, s2⟩, k2, h⟩ := bindInv h
      obtain ⟨⟨ks', xs', s3⟩, k3, h⟩ := bindInv h
      cases h
      obtain ⟨kt, e1, hk, rfl, b1⟩ := keyword_inv k1
      have hs1 := hs.tail e1
      obtain ⟨xt, e2, hx, rfl, b2⟩ := identifier_inv k2
      obtain ⟨g1, _, g2, g3⟩ := ih _ _ _ _ k3 (hs1.tail e2)
      have hkt := (hs.head e1).key hk
      refine ⟨?_, fun _ => isBinary_append hkt.1, fun y hy => ?_, g3⟩
      · unfold KeyOk at g1 ⊢
        rw [countColons_append, hkt.2, g1, List.length_cons]
        exact Nat.add_comm _ _
      · rcases List.mem_cons.1 hy with rfl | hy
        · exact (hs1.head e2).name hx
        · exact g2 y hy
    · rw [if_neg h1] at h
      cases h
      exact ⟨rfl, fun h => absurd h h1, fun _ h => (nomatch h), hs⟩

theorem pattern_tree {n : Nat} {s : PSt} {x : Name} {xs : List Name} {s' : PSt} (h : pattern n s = .ok (x, xs, s')) (hs : Ok s) :
    Sym.numberOfSignatureArguments x = xs.length + 1 ∧ (∀ x ∈ xs, NameOk x) ∧ Ok s' := by
  simp only [pattern] at h
  by_cases h1 : s.isIdent = true
  · rw [if_pos h1] at h
    obtain ⟨⟨y, s1⟩, k1, h⟩ := bindInv h
    cases h
    obtain ⟨t, e1, ht, rfl, b1⟩ := identifier_inv k1
    exact ⟨(hs.head e1).id ht, fun _ h => (nomatch h), hs.tail e1⟩
  · rw [if_neg h1] at h
    by_cases h2 : s.sym = .keyword
    · rw [if_pos h2] at h
      obtain ⟨g1, g2, g3, g4⟩ := keywordPattern_tree n _ _ _ _ h hs
      refine ⟨?_, g3, g4⟩
      simp only [Sym.numberOfSignatureArguments, g2 h2, Bool.false_eq_true, if_false]
      unfold KeyOk at g1
      rw [g1]
    · rw [if_neg h2] at h
      obtain ⟨⟨y, s1⟩, k1, h⟩ := bindInv h
      obtain ⟨⟨z, s2⟩, k2, h⟩ := bindInv h
      cases h
      obtain ⟨t, e2, ht, rfl, b2⟩ := identifier_inv k2
      rcases s with ⟨_ | ⟨o, r⟩, b⟩
      · -- the end of the text is taken for an operator, but no identifier follows
        have : s1.toks = [] := by
          simp only [PSt.binarySelector, sym_nil] at k1
          rw [if_neg (by decide), if_neg (by decide)] at k1
          obtain ⟨s3, k3, k1⟩ := bindInv k1
          cases k1
          simp only [PSt.expect, sym_nil, if_true] at k3
          cases k3
          rfl
        rw [this] at e2
        cases e2
      · have ho : IsOp o := by
          have hn := (hs o List.mem_cons_self).legal
          simp only [PSt.binarySelector, sym_cons, text_cons] at k1
          split at k1
          · next hc => simp only [IsOp]; revert hc; generalize o.sym = k; cases k <;> decide
          · split at k1
            · next hc => simp [IsOp, hc]
            · simp only [PSt.expect, sym_cons, if_neg hn] at k1
              cases k1
        rw [binarySelector_cons ho] at k1
        cases k1
        exact ⟨(hs.head rfl).op ho, fun y hy => by
          rcases List.mem_singleton.1 hy with rfl
          exact (Ok.head (s := ⟨r, b⟩) (hs.tail rfl) e2).name ht, Ok.tail (s := ⟨r, b⟩) (hs.tail rfl) e2⟩

theorem method_tree {n : Nat} {s s' : PSt} {m : Method} (h : Parse.method .bc n s = .ok (m, s')) (hs : Ok s) :
    MethodOk m ∧ Ok s' := by
  simp only [Parse.method] at h
  obtain ⟨⟨x, ps, s1⟩, k1, h⟩ := bindInv h
  obtain ⟨g1, g2, h1⟩ := pattern_tree k1 hs
  obtain ⟨s2, k2, h⟩ := bindInv h
  obtain ⟨q, e2, _, _⟩ := expect_inv (by decide) k2
  have h2 := h1.tail e2
  dsimp only at h
  split at h
  · obtain ⟨s3, k3, h⟩ := bindInv h
    cases h
    obtain ⟨p, e3, _, _⟩ := expect_inv (by decide) k3
    exact ⟨⟨g1, g2, fun _ _ _ h => (nomatch h)⟩, h2.tail e3⟩
  · obtain ⟨s3, k3, h⟩ := bindInv h
    obtain ⟨⟨ls, s4⟩, k4, h⟩ := bindInv h
    obtain ⟨⟨ts, ex, s5⟩, k5, h⟩ := bindInv h
    obtain ⟨s6, k6, h⟩ := bindInv h
    cases h
    obtain ⟨p, e3, _, _⟩ := expect_inv (by decide) k3
    obtain ⟨us, e4, _, g4⟩ := localsDecl_sound k4
    have h3 := h2.tail e3
    obtain ⟨g5, h5⟩ := (parse_tree n).2.2.2.2.2.2.2.2.2.2 _ _ _ _ k5 (h3.right e4)
    obtain ⟨c, e6, _, _⟩ := expect_inv (by decide) k6
    exact ⟨⟨g1, g2, fun _ _ _ h => by cases h; exact ⟨Grammar.LocalsDecl.ok g4 (h3.left e4), g5⟩⟩, h5.tail e6⟩

theorem methods_tree : ∀ (n : Nat) (s s' : PSt) (ms : List Method), methods .bc n s = .ok (ms, s') → Ok s →
    (∀ m ∈ ms, MethodOk m) ∧ Ok s' := by
  intro n
  induction n with
  | zero => intro _ _ _ h; cases h
  | succ n ih =>
    intro s s' ms h hs
    simp only [methods] at h
    by_cases h1 : s.atMethod = true
    · rw [if_pos h1] at h
      obtain ⟨⟨m, s1⟩, k1, h⟩ := bindInv h
      obtain ⟨⟨ns, s2⟩, k2, h⟩ := bindInv h
      cases h
      obtain ⟨g1, h1⟩ := method_tree k1 hs
      obtain ⟨g2, h2⟩ := ih _ _ _ k2 h1
      exact ⟨fun x hx => (List.mem_cons.1 hx).elim (fun e => e ▸ g1) (g2 x), h2⟩
    · rw [if_neg h1] at h
      cases h
      exact ⟨fun _ h => (nomatch h), hs⟩

theorem classdef_tree {n : Nat} {s s' : PSt} {d : ClassText} (h : classdef .bc n s = .ok (d, s')) (hs : Ok s) :
    ∀ m ∈ allMethods d, MethodOk m := by
  simp only [classdef] at h
  obtain ⟨s1, k1, h⟩ := bindInv h
  obtain ⟨s2, k2, h⟩ := bindInv h
  obtain ⟨q1, e1, _, _⟩ := expect_inv (by decide) k1
  obtain ⟨q2, e2, _, _⟩ := expect_inv (by decide) k2
  have hs2 := (hs.tail e1).tail e2
  have hs3 : Ok (superclass s2).2 := by unfold superclass; split; exact hs2.advance; exact hs2
  obtain ⟨s3, k3, h⟩ := bindInv h
  obtain ⟨q3, e3, _, _⟩ := expect_inv (by decide) k3
  obtain ⟨⟨fs, s4⟩, k4, h⟩ := bindInv h
  obtain ⟨us, e4, _, _⟩ := localsDecl_sound k4
  obtain ⟨⟨ms, s5⟩, k5, h⟩ := bindInv h
  obtain ⟨g5, hs5⟩ := methods_tree n _ _ _ k5 ((hs3.tail e3).right e4)
  simp only at h
  by_cases h6 : s5.sym = .separator
  · rw [if_pos h6] at h
    obtain ⟨⟨cfs, s6⟩, k6, h⟩ := bindInv h
    obtain ⟨⟨cms, s7⟩, k7, h⟩ := bindInv h
    obtain ⟨s8, k8, h⟩ := bindInv h
    cases h
    obtain ⟨vs, e6, _, _⟩ := localsDecl_sound k6
    obtain ⟨g7, _⟩ := methods_tree n _ _ _ k7 (hs5.advance.right e6)
    exact fun m hm => (List.mem_append.1 hm).elim (g5 m) (g7 m)
  · rw [if_neg h6] at h
    obtain ⟨s8, k8, h⟩ := bindInv h
    cases h
    exact fun m hm => (List.mem_append.1 hm).elim (g5 m) (fun h => nomatch h)

end PySOM.Elab

import Verif.Lemmas.Lexer
/-!
# Properties C24 (scanning) and C25 (looking ahead)
-/
set_option autoImplicit false
namespace PySOM.Lex
open PySOM

/-- The scanner stands between two tokens: at the start, or after a token. -/
def Between (s : St) : Prop := Full s ∨ s.cur = []

theorem between_init (text : List Char) : Between (St.init text) := Or.inr rfl

/-! ## C24 -/

/-- **C24**: the line-buffered scanner computes the flat specification: the same token and the same rest of the text, the
same exception, or divergence in the same cases; and it stands between tokens again. -/
theorem C24_scanner_meets_spec (C : Classes) (hC : Spec.Good C) (s : St) (hs : Between s) :
    match Spec.next C (flat s) with
    | .diverges => ∀ fuel, getSym C fuel s = none
    | .raises => ∃ n, ∀ fuel, n < fuel → getSym C fuel s = some (.error .other)
    | .tok t r => ∃ s', flat s' = r ∧ Between s' ∧ ∃ n, ∀ fuel, n < fuel → getSym C fuel s = some (.ok (t, s')) := by
  have h := getSym_spec hC ((flat s).length + 1) s (by omega) hs
  cases hn : Spec.next C (flat s) with
  | diverges => rw [hn] at h; exact h
  | raises => rw [hn] at h; exact ⟨_, h⟩
  | tok t r => rw [hn] at h; obtain ⟨s', a, b, c⟩ := h; exact ⟨s', a, Or.inl b, _, c⟩

theorem getSym_det {C : Classes} {s : St} {n m : Nat} {x y : Except Err (Tok × St)} (h1 : getSym C n s = some x) (h2 : getSym C m s = some y) : x = y := by
  have e1 := getSym_mono n s x h1 m
  have e2 := getSym_mono m s y h2 n
  rw [Nat.add_comm] at e2
  rw [e1] at e2; exact Option.some.inj e2

/-- What a finished call says about the specification. -/
theorem getSym_ok {C : Classes} (hC : Spec.Good C) {s s' : St} (hs : Between s) {fuel : Nat} {t : Tok} (h : getSym C fuel s = some (.ok (t, s'))) :
    Spec.next C (flat s) = .tok t (flat s') ∧ Between s' := by
  have hm := C24_scanner_meets_spec C hC s hs
  split at hm
  · rw [hm fuel] at h; cases h
  · obtain ⟨n, hn⟩ := hm
    have := getSym_det h (hn (n + 1) (by omega)); cases this
  · rename_i t' r heq
    obtain ⟨s2, a, b, n, hn⟩ := hm
    have := getSym_det h (hn (n + 1) (by omega))
    cases this
    exact ⟨by rw [heq, a], b⟩

theorem skip_blank (C : Classes) (text : List Char) : ∀ b,
    (b = false → (∃ blank, text = blank ++ Spec.skip C b text ∧ Spec.Blank C blank) ∨ (Spec.skip C b text = [])) ∧
    (b = true → (∃ body blank, text = body ++ '"' :: blank ++ Spec.skip C b text ∧ '"' ∉ body ∧ Spec.Blank C blank) ∨ Spec.skip C b text = []) := by
  induction text with
  | nil => intro b; simp [Spec.skip]
  | cons c cs ih =>
    intro b
    constructor
    · rintro rfl
      simp only [Spec.skip, Bool.false_eq_true, if_false]
      split
      · rename_i hsp
        rcases (ih false).1 rfl with ⟨bl, h1, h2⟩ | h
        · left; exact ⟨c :: bl, by rw [List.cons_append, ← h1], .space c bl hsp h2⟩
        · right; exact h
      · split
        · rename_i hsp hq
          rcases (ih true).2 rfl with ⟨body, bl, h1, h2, h3⟩ | h
          · left
            refine ⟨'"' :: body ++ '"' :: bl, ?_, .comment body bl h2 h3⟩
            rw [hq]
            conv => lhs; rw [h1]
            simp
          · right; exact h
        · left; exact ⟨[], rfl, .nil⟩
    · rintro rfl
      simp only [Spec.skip, if_true]
      by_cases hq : c = '"'
      · have : (c != '"') = false := by simp [hq]
        rw [this]
        rcases (ih false).1 rfl with ⟨bl, h1, h2⟩ | h
        · left; refine ⟨[], bl, ?_, by simp, h2⟩
          simp only [List.nil_append, List.cons_append]; rw [← h1, hq]
        · right; exact h
      · have : (c != '"') = true := by simpa using hq
        rw [this]
        rcases (ih true).2 rfl with ⟨body, bl, h1, h2, h3⟩ | h
        · left; refine ⟨c :: body, bl, ?_, ?_, h3⟩
          · simp only [List.cons_append]; simp only [List.cons_append, List.append_assoc] at h1 ⊢; rw [← h1]
          · intro hm; rcases List.mem_cons.1 hm with h | h
            · exact hq h.symm
            · exact h2 h
        · right; exact h

theorem str_done (n : Nat) : ∀ text v r, text.length < n → Spec.str text = .done v r → ∃ body, text = body ++ '\'' :: r ∧ Spec.Denotes body v := by
  induction n with
  | zero => intro text v r h; omega
  | succ n ih =>
    intro text v r hl h
    cases text with
    | nil => simp [Spec.str] at h
    | cons c cs =>
      rw [Spec.str.eq_def] at h
      simp only [List.length_cons] at h hl
      by_cases hq : c = '\''
      · simp only [hq, if_true, Spec.Str.done.injEq] at h
        obtain ⟨rfl, rfl⟩ := h
        exact ⟨[], by rw [hq]; rfl, .nil⟩
      · simp only [hq, if_false] at h
        by_cases hb : c = '\\'
        · simp only [hb, if_true] at h
          cases cs with
          | nil => cases h
          | cons e cs =>
            simp only [List.length_cons] at h hl
            cases hs : Spec.str cs with
            | unterminated => rw [hs] at h; cases h
            | badEscape => rw [hs] at h; cases h
            | done v' r' =>
              rw [hs] at h
              simp only [Spec.Str.push, Spec.Str.done.injEq] at h
              obtain ⟨rfl, rfl⟩ := h
              obtain ⟨body, h1, h2⟩ := ih cs v' r' (by omega) hs
              exact ⟨'\\' :: e :: body, by rw [hb, h1]; rfl, .esc e body v' h2⟩
        · simp only [hb, if_false] at h
          cases hs : Spec.str cs with
          | unterminated => rw [hs] at h; cases h
          | badEscape => rw [hs] at h; cases h
          | done v' r' =>
            rw [hs] at h
            simp only [Spec.Str.push, Spec.Str.done.injEq] at h
            obtain ⟨rfl, rfl⟩ := h
            obtain ⟨body, h1, h2⟩ := ih cs v' r' (by omega) hs
            exact ⟨c :: body, by rw [h1]; rfl, .plain c body v' hb hq h2⟩

theorem takeWhile_drop (p : Char → Bool) (l : List Char) : l.takeWhile p ++ l.drop (l.takeWhile p).length = l := by
  induction l with
  | nil => rfl
  | cons c cs ih =>
    simp only [List.takeWhile_cons]
    split
    · simp only [List.length_cons, List.drop_succ_cons, List.cons_append, ih]
    · rfl

theorem prefix_append {w l : List Char} (h : w.isPrefixOf l = true) : w ++ l.drop w.length = l := by
  rw [List.isPrefixOf_iff_prefix] at h
  obtain ⟨t, rfl⟩ := h
  rw [List.drop_left]

theorem token_piece {C : Classes} (hC : Spec.Good C) (text : List Char) (t : Tok) (r : List Char) (h : Spec.token C text = .tok t r) :
    ∃ piece, text = piece ++ r ∧ Spec.Piece t piece r := by
  have plain : ∀ (t : Tok) (r : List Char), text = t.text ++ r → t.text ≠ [] → t.sym ≠ .stString → t.sym ≠ .none → ∃ piece, text = piece ++ r ∧ Spec.Piece t piece r := by
    intro t r h1 h2 h3 h4
    refine ⟨t.text, h1, ?_⟩
    simp only [Spec.Piece]
    exact ⟨trivial, h2⟩
  cases text with
  | nil => simp only [Spec.token, Spec.Next.tok.injEq] at h; obtain ⟨rfl, rfl⟩ := h; exact ⟨[], rfl, rfl, Or.inl ⟨rfl, rfl⟩⟩
  | cons c cs =>
    rw [Spec.token.eq_def] at h
    simp only at h
    by_cases h1 : c = '\''
    · simp only [h1, if_true] at h
      split at h
      · cases h
      · cases h
      · rename_i v r' hs
        cases h
        obtain ⟨body, e1, e2⟩ := str_done _ cs v r (Nat.lt_succ_self _) hs
        refine ⟨'\'' :: body ++ ['\''], ?_, body, rfl, e2⟩
        rw [h1, e1]; simp
    simp only [h1, if_false] at h
    by_cases h2 : c = ':'
    · simp only [h2, if_true] at h
      split at h
      · rename_i hh
        cases h
        cases cs with
        | nil => cases hh
        | cons d ds => simp only [List.head?_cons, Option.some.injEq] at hh
                       exact plain _ _ (by rw [h2, hh]; rfl) (by simp) (by simp) (by simp)
      · cases h; exact plain _ _ (by rw [h2]; rfl) (by simp) (by simp) (by simp)
    simp only [h2, if_false] at h
    split at h
    · rename_i k hk
      cases h
      refine plain _ _ rfl (by simp) ?_ ?_ <;>
      · intro e
        simp only at e
        subst e
        revert hk
        unfold Spec.punctuation
        split <;> simp
    · split at h
      · rename_i hsep
        cases h
        refine plain _ _ (takeWhile_drop (fun x => x == '-') (c :: cs)).symm ?_ (by simp) (by simp)
        have hd : c = '-' := by
          have e : "----".toList = ['-', '-', '-', '-'] := by decide
          rw [e] at hsep
          simp only [List.isPrefixOf, Bool.and_eq_true, beq_iff_eq] at hsep
          exact hsep.1.symm
        simp [List.takeWhile_cons, hd]
      · split at h
        · rename_i hop
          simp only [Spec.op] at h
          cases h
          have hne : (c :: cs).takeWhile isOperator ≠ [] := by simp [List.takeWhile_cons, hop]
          have hmem : ∀ x ∈ (c :: cs).takeWhile isOperator, isOperator x = true := fun x hx => (List.all_takeWhile (l := c :: cs) (p := isOperator)) |> fun h => by
            rw [List.all_eq_true] at h; exact h x hx
          have htext : (Spec.opToken ((c :: cs).takeWhile isOperator)).text = (c :: cs).takeWhile isOperator := by
            unfold Spec.opToken; split <;> simp_all
          refine plain _ _ (by rw [htext]; exact (takeWhile_drop _ _).symm) (by rw [htext]; exact hne) ?_ ?_ <;>
          · unfold Spec.opToken
            split
            · rename_i x hx
              have := hmem x (by rw [hx]; simp)
              simp only [isOperator, Bool.or_eq_true, beq_iff_eq] at this
              rcases this with ((((((((((((h | h) | h) | h) | h) | h) | h) | h) | h) | h) | h) | h) | h) | h <;> subst h <;> decide
            · simp
        · split at h
          · rename_i hp
            cases h
            simp only [Spec.isPrimitive, Bool.and_eq_true] at hp
            have h9 : "primitive".toList.length = 9 := by decide
            have := prefix_append hp.1
            rw [h9] at this
            exact plain _ _ this.symm (by decide) (by simp) (by simp)
          · split at h
            · rename_i ha
              have hne : (c :: cs).takeWhile (fun c => C.isAlnum c || c == '_') ≠ [] := by
                simp [List.takeWhile_cons, hC.alpha_alnum c ha]
              have htd := takeWhile_drop (fun c => C.isAlnum c || c == '_') (c :: cs)
              simp only [Spec.word] at h
              split at h
              · rename_i d ds hdr
                rw [hdr] at htd
                split at h
                · cases h
                  refine plain _ _ ?_ (by simp) (by simp) (by simp)
                  have h2 := takeWhile_drop (fun c => C.isAlpha c || c == ':') (d :: ds)
                  simp only [List.append_assoc, List.cons_append]
                  rw [h2]; exact htd.symm
                · cases h
                  refine plain _ _ ?_ (by simp) (by simp) (by simp)
                  simp only [List.append_assoc, List.cons_append, List.nil_append]; exact htd.symm
              · rename_i hdr
                rw [hdr] at htd
                cases h
                refine plain _ _ ?_ (by simp) (by simp) (by simp)
                simp only [List.append_assoc, List.cons_append, List.nil_append]; exact htd.symm
              · cases h
                exact plain _ _ htd.symm hne (by simp) (by simp)
            · split at h
              · rename_i hd
                have hne : (c :: cs).takeWhile C.isDigit ≠ [] := by simp [List.takeWhile_cons, hd]
                have htd := takeWhile_drop C.isDigit (c :: cs)
                simp only [Spec.number] at h
                split at h
                · rename_i d ds hdr
                  rw [hdr] at htd
                  split at h
                  · cases h
                    refine plain _ _ ?_ (by simp) (by simp) (by simp)
                    have h2 := takeWhile_drop C.isDigit (d :: ds)
                    simp only [List.append_assoc, List.cons_append]
                    rw [h2]; exact htd.symm
                  · cases h
                    exact plain _ _ htd.symm hne (by simp) (by simp)
                · cases h
                  exact plain _ _ htd.symm hne (by simp) (by simp)
              · cases h
                exact ⟨[], rfl, rfl, Or.inr ⟨c, cs, rfl, rfl⟩⟩

/-- **C24**: every token comes from its own piece of the source: what the scanner passes over before it is white space and
comments, then comes the piece of text that the token denotes, and the rest of the source is still there.  (If only
blanks, perhaps an unfinished comment, are left, the token is the end mark.) -/
theorem C24_tokens_reproduce_source (C : Classes) (hC : Spec.Good C) (s s' : St) (hs : Between s) (fuel : Nat) (t : Tok)
    (h : getSym C fuel s = some (.ok (t, s'))) :
    Between s' ∧ ((∃ blank piece, flat s = blank ++ piece ++ flat s' ∧ Spec.Blank C blank ∧ Spec.Piece t piece (flat s')) ∨
      (flat s' = [] ∧ t = ⟨.none, ['\x00']⟩)) := by
  obtain ⟨h1, h2⟩ := getSym_ok hC hs h
  refine ⟨h2, ?_⟩
  simp only [Spec.next] at h1
  rcases (skip_blank C (flat s) false).1 rfl with ⟨bl, b1, b2⟩ | hz
  · left
    obtain ⟨piece, p1, p2⟩ := token_piece hC _ _ _ h1
    exact ⟨bl, piece, by rw [List.append_assoc, ← p1]; exact b1, b2, p2⟩
  · right
    rw [hz] at h1
    simp only [Spec.token, Spec.Next.tok.injEq] at h1
    exact ⟨h1.2.symm, h1.1.symm⟩

/-- **C24**: every token other than the end mark consumes text. -/
theorem C24_progress (C : Classes) (hC : Spec.Good C) (s s' : St) (hs : Between s) (fuel : Nat) (t : Tok)
    (h : getSym C fuel s = some (.ok (t, s'))) (ht : t.sym ≠ .none) : (flat s').length < (flat s).length := by
  obtain ⟨_, ⟨bl, piece, e, _, hp⟩ | ⟨_, he⟩⟩ := C24_tokens_reproduce_source C hC s s' hs fuel t h
  · have hne : piece ≠ [] := by
      unfold Spec.Piece at hp
      split at hp
      · obtain ⟨body, hb, _⟩ := hp; rw [hb]; simp
      · rename_i hn; exact absurd hn ht
      · exact hp.2
    have : 0 < piece.length := List.length_pos_iff.2 hne
    rw [e]; simp only [List.length_append]; omega
  · rw [he] at ht; exact absurd rfl ht

/-- **C24** (partial).  Full statement: a call of the scanner terminates on every text.  It does so exactly if the next token
is not a string literal without closing quote. -/
theorem C24_terminates_partial (C : Classes) (hC : Spec.Good C) (s : St) (hs : Between s) :
    (∃ fuel out, getSym C fuel s = some out) ↔ ¬ ∃ r, Spec.skip C false (flat s) = '\'' :: r ∧ Spec.str r = .unterminated := by
  have hm := C24_scanner_meets_spec C hC s hs
  have key : Spec.next C (flat s) = .diverges ↔ ∃ r, Spec.skip C false (flat s) = '\'' :: r ∧ Spec.str r = .unterminated := by
    simp only [Spec.next]
    constructor
    · intro h
      cases hsk : Spec.skip C false (flat s) with
      | nil => rw [hsk] at h; simp [Spec.token] at h
      | cons c r =>
        rw [hsk, Spec.token.eq_def] at h
        simp only at h
        by_cases hq : c = '\''
        · simp only [hq, if_true] at h
          refine ⟨r, by rw [hq], ?_⟩
          cases hstr : Spec.str r with
          | unterminated => rfl
          | badEscape => rw [hstr] at h; cases h
          | done v r' => rw [hstr] at h; cases h
        · exfalso
          simp only [hq, if_false, Spec.op, Spec.word, Spec.number] at h
          repeat' split at h
          all_goals cases h
    · rintro ⟨r, h1, h2⟩
      rw [h1, Spec.token.eq_def]; simp [h2]
  rw [← key]
  split at hm
  · rename_i hn
    simp only [hn, not_true_eq_false, iff_false]
    rintro ⟨f, o, h⟩; rw [hm f] at h; cases h
  · rename_i hn
    obtain ⟨n, h⟩ := hm
    simp only [hn, reduceCtorEq, not_false_eq_true, iff_true]
    exact ⟨n + 1, _, h _ (by omega)⟩
  · rename_i t r hn
    obtain ⟨s', _, _, n, h⟩ := hm
    simp only [hn, reduceCtorEq, not_false_eq_true, iff_true]
    exact ⟨n + 1, _, h _ (by omega)⟩

theorem scanAll_mono {C : Classes} (fuel : Nat) : ∀ s r, scanAll C fuel s = some r → ∀ k, scanAll C (fuel + k) s = some r := by
  induction fuel with
  | zero => intro s r h; cases h
  | succ n ih =>
    intro s r h k
    rw [Nat.succ_add]
    simp only [scanAll] at h ⊢
    cases hg : getSym C (n + 1) s with
    | none => rw [hg] at h; cases h
    | some x =>
      have hg' := getSym_mono (n + 1) s x hg k
      rw [Nat.succ_add] at hg'
      rw [hg] at h; rw [hg']
      cases x with
      | error e => exact h
      | ok y =>
        simp only at h ⊢
        split at h
        · rename_i hc; rw [if_pos hc]; exact h
        · rename_i hc; rw [if_neg hc]
          cases hs : scanAll C n y.2 with
          | none => rw [hs] at h; cases h
          | some z => rw [hs] at h; rw [ih _ _ hs k]; exact h

/-- **C24**: scanning a whole file answers exactly the tokens that the specification assigns to its text. -/
theorem C24_file_tokens (C : Classes) (hC : Spec.Good C) (s : St) (hs : Between s) (ts : List Tok) :
    (∃ fuel, scanAll C fuel s = some (.ok ts)) ↔ Spec.Tokens C (flat s) ts := by
  constructor
  · rintro ⟨fuel, h⟩
    induction fuel generalizing s ts with
    | zero => cases h
    | succ n ih =>
      simp only [scanAll] at h
      split at h
      · cases h
      · cases h
      · rename_i t s' hg
        obtain ⟨g1, g2⟩ := getSym_ok hC hs hg
        split at h
        · rename_i ht; cases h; exact .stop _ t _ g1 ht
        · rename_i ht
          split at h
          · cases h
          · cases h
          · rename_i ts' hsc
            cases h
            exact .step _ t _ _ g1 ht (ih s' g2 _ hsc)
  · intro h
    generalize hfl : flat s = text at h
    induction h generalizing s with
    | stop text t r h1 h2 =>
      have hm := C24_scanner_meets_spec C hC s hs
      rw [hfl, h1] at hm
      obtain ⟨s', _, _, n, hn⟩ := hm
      exact ⟨n + 1, by simp only [scanAll, hn (n + 1) (by omega), h2, if_true]⟩
    | step text t r ts h1 h2 h3 ih =>
      have hm := C24_scanner_meets_spec C hC s hs
      rw [hfl, h1] at hm
      obtain ⟨s', a, b, n, hn⟩ := hm
      obtain ⟨m, hm⟩ := ih s' b a
      refine ⟨m + n + 1, ?_⟩
      simp only [scanAll, hn (m + n + 1) (by omega), h2, if_false, scanAll_mono m s' _ hm n]

/-- **C24** (partial): scanning a file ends (with the list of its tokens or an error) exactly if no string literal without
closing quote is reached. -/
theorem C24_file_terminates_partial (C : Classes) (hC : Spec.Good C) (text : List Char) :
    (∃ fuel out, scanAll C fuel (St.init text) = some out) ↔ ∀ r, Spec.Reaches C text r → Spec.next C r ≠ .diverges := by
  have gen : ∀ n (s : St), (flat s).length < n → Between s →
      ((∃ fuel out, scanAll C fuel s = some out) ↔ ∀ r, Spec.Reaches C (flat s) r → Spec.next C r ≠ .diverges) := by
    intro n
    induction n with
    | zero => intro s h; omega
    | succ n ih =>
      intro s hl hs
      have hm := C24_scanner_meets_spec C hC s hs
      cases hn : Spec.next C (flat s) with
      | diverges =>
        rw [hn] at hm
        constructor
        · rintro ⟨f, o, h⟩
          cases f with
          | zero => cases h
          | succ f => simp only [scanAll, hm] at h; cases h
        · intro h; exact absurd hn (h _ (.refl _))
      | raises =>
        rw [hn] at hm
        obtain ⟨k, hk⟩ := hm
        constructor
        · intro _ r hr
          cases hr with
          | refl => rw [hn]; simp
          | step => rename_i _ e _; rw [hn] at e; cases e
        · intro _; exact ⟨k + 1, .error .other, by simp only [scanAll, hk (k + 1) (by omega)]⟩
      | tok t r =>
        rw [hn] at hm
        obtain ⟨s', a, b, k, hk⟩ := hm
        by_cases ht : t.sym = .none
        · constructor
          · intro _ r' hr
            cases hr with
            | refl => rw [hn]; simp
            | step => rename_i e2 e e3; rw [hn] at e; cases e; exact absurd ht e2
          · intro _; exact ⟨k + 1, .ok [], by simp only [scanAll, hk (k + 1) (by omega), ht, if_true]⟩
        · have hlen := C24_progress C hC s s' hs (k + 1) t (hk (k + 1) (by omega)) ht
          have hi := ih s' (by omega) b
          rw [a] at hi
          constructor
          · rintro ⟨f, o, h⟩ r' hr
            have h' : ∃ fuel out, scanAll C fuel s' = some out := by
              have h2 := scanAll_mono f s o h (k + 1)
              rw [← Nat.add_assoc] at h2
              simp only [scanAll, hk (f + k + 1) (by omega), ht, if_false] at h2
              cases h3 : scanAll C (f + k) s' with
              | none => rw [h3] at h2; cases h2
              | some x => exact ⟨f + k, x, h3⟩
            cases hr with
            | refl => rw [hn]; simp
            | step => rename_i e2 e e3; rw [hn] at e; cases e; exact hi.1 h' _ e3
          · intro h
            obtain ⟨f, o, h2⟩ := hi.2 (fun r' hr => h r' (.step _ t r _ hn ht hr))
            refine ⟨f + k + 1, match o with | .error e => .error e | .ok ts => .ok (t :: ts), ?_⟩
            simp only [scanAll, hk (f + k + 1) (by omega), ht, if_false, scanAll_mono f s' o h2 k]
            cases o <;> rfl
  have := gen _ (St.init text) (Nat.lt_succ_self _) (between_init text)
  simpa [St.init, flat] using this

theorem ascii_good : Spec.Good Spec.ascii where
  space_newline := by decide
  alpha_alnum c h := by simp only [Spec.ascii] at h ⊢; rw [h]; rfl
  digit_alnum c h := by simp only [Spec.ascii] at h ⊢; rw [h]; simp
  alnum_not_space c h := by
    cases hs : Spec.ascii.isSpace c with
    | false => rfl
    | true =>
      simp only [Spec.ascii, Bool.or_eq_true, beq_iff_eq] at hs
      rcases hs with ((((hs | hs) | hs) | hs) | hs) | hs <;> subst hs <;> revert h <;> decide
  punct c h := by
    rcases h with h | h | h | h | h | h | h | h | h | h | h | h | h
    case inr.inr.inr.inr.inr.inr.inr.inr.inr.inr.inr.inl =>
      simp only [isOperator, Bool.or_eq_true, beq_iff_eq] at h
      rcases h with ((((((((((((h | h) | h) | h) | h) | h) | h) | h) | h) | h) | h) | h) | h) | h <;> subst h <;> decide
    all_goals (subst h; decide)
  alpha_p := by decide

/-- A small source text with a comment and all sorts of tokens over two lines. -/
example : scanAll Spec.ascii 60 (St.init "at: i put: 'a\\n' \"x\"\n := #(1 2.5) >= foo:bar:".toList) =
    some (.ok [⟨.keyword, "at:".toList⟩, ⟨.identifier, "i".toList⟩, ⟨.keyword, "put:".toList⟩, ⟨.stString, "a\n".toList⟩, ⟨.assign, ":=".toList⟩, ⟨.pound, "#".toList⟩,
      ⟨.newTerm, "(".toList⟩, ⟨.integer, "1".toList⟩, ⟨.double, "2.5".toList⟩, ⟨.endTerm, ")".toList⟩, ⟨.operatorSequence, ">=".toList⟩,
      ⟨.keywordSequence, "foo:bar:".toList⟩]) := by decide +kernel

/-- **C24 violated**: an unterminated string literal makes the scanner run forever, on every runtime. -/
theorem C24_violated_unterminated_string (C : Classes) (hC : Spec.Good C) (fuel : Nat) : scanAll C fuel (St.init "'abc".toList) = none := by
  have hq : C.isSpace '\'' = false := (hC.punct '\'' (by simp)).2
  have hm := C24_scanner_meets_spec C hC (St.init "'abc".toList) (between_init _)
  have e : flat (St.init "'abc".toList) = ['\'', 'a', 'b', 'c'] := by decide
  have : Spec.next C ['\'', 'a', 'b', 'c'] = .diverges := by
    simp [Spec.next, Spec.skip, hq, Spec.token, Spec.str, Spec.Str.push]
  rw [e, this] at hm
  cases fuel with
  | zero => rfl
  | succ n => simp only [scanAll, hm]

/-- **C24 violated**: at a character it does not know the scanner stops advancing; every further call answers the same
`NONE`, as at the end of the file. -/
theorem C24_violated_unknown_char : Spec.next Spec.ascii "$x".toList = .tok ⟨.none, ['$']⟩ "$x".toList := by decide

/-! ## C25 -/

/-- **C25** (partial).  Full statement: with any number of peeks between reads, all reads answer the same tokens as without
peeks, and every peek answers the symbol of the next token.  Proved for any underlying scanner and any sequence in which
two peeks have a read between them: looking ahead then has no effect at all (also not on when an exception is raised). -/
theorem C25_peek_is_transparent_partial (raw : St → Except Err (Tok × St)) (rs : List Req) (h : Spec.NoDoublePeek rs) (now : Tok) (s : St) :
    (Client.mk now none s).run raw rs = Spec.requests raw s rs := by
  induction rs using Spec.NoDoublePeek.induct generalizing now s with
  | case1 rs => exact absurd h (by simp [Spec.NoDoublePeek])
  | case2 r rs hne ih =>
    have h' : Spec.NoDoublePeek rs := by
      cases rs with
      | nil => trivial
      | cons q qs =>
        cases r <;> cases q <;> simp only [Spec.NoDoublePeek] at h ⊢ <;> try exact h
    cases r with
    | get =>
      simp only [Client.run, Spec.requests, Client.getSym]
      cases raw s with
      | error e => rfl
      | ok x => simp only [Except.map, bind, Except.bind, ih h']
    | peek =>
      cases rs with
      | nil => 
        simp only [Client.run, Spec.requests, Client.peek]
        cases raw s with
        | error e => rfl
        | ok x => rfl
      | cons q qs =>
        cases q with
        | peek => exact absurd rfl (fun e => hne qs rfl e)
        | get =>
          have := ih h' now s
          simp only [Client.run, Spec.requests, Client.peek, Client.getSym] at this ⊢
          cases hr : raw s with
          | error e => rfl
          | ok x =>
            rw [hr] at this
            simp only [Except.map, bind, Except.bind] at this ⊢
            rw [← this]
  | case3 => rfl

/-- **C25**: a peek leaves the current token as it was. -/
theorem C25_peek_keeps_current (raw : St → Except Err (Tok × St)) (c c' : Client) (k : Sym) (h : c.peek raw = .ok (k, c')) : c'.now = c.now := by
  simp only [Client.peek] at h
  split at h
  · cases h
  · cases hr : raw c.st with
    | error e => rw [hr] at h; cases h
    | ok x => rw [hr] at h; cases h; rfl

example : Spec.NoDoublePeek [.get, .peek, .get, .get, .peek] := by simp [Spec.NoDoublePeek]

/-- **C25 violated**: two peeks in a row raise. -/
theorem C25_violated_double_peek (raw : St → Except Err (Tok × St)) (now : Tok) (s : St) (x : Tok × St) (h : raw s = .ok x) :
    (Client.mk now none s).run raw [.peek, .peek] = .error .value := by
  simp [Client.run, Client.peek, h, Except.map, bind, Except.bind]

end PySOM.Lex

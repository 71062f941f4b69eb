import Verif.Spec.Lexer
/-! Helper lemmas: the line-buffered scanner and the flat specification. -/
set_option autoImplicit false
namespace PySOM.Lex
open PySOM

/-- The text that is left. -/
def flat (s : St) : List Char := s.cur ++ s.rest

/-- The buffer holds the rest of a line. -/
def Full (s : St) : Prop := s.rest = [] ∨ ∃ pre, s.cur = pre ++ ['\n']

theorem line_append (t : List Char) : line t ++ afterLine t = t := by
  induction t with
  | nil => rfl
  | cons c cs ih => simp only [line, afterLine]; split
                    · rename_i h; subst h; rfl
                    · simp [ih]

theorem line_ne_nil {t : List Char} (h : t ≠ []) : line t ≠ [] := by
  cases t with
  | nil => exact absurd rfl h
  | cons c cs => simp only [line]; split <;> simp

theorem line_full (t : List Char) : afterLine t = [] ∨ ∃ pre, line t = pre ++ ['\n'] := by
  induction t with
  | nil => left; rfl
  | cons c cs ih =>
    simp only [line, afterLine]
    split
    · right; exact ⟨[], rfl⟩
    · rcases ih with h | ⟨pre, h⟩
      · left; exact h
      · right; exact ⟨c :: pre, by rw [h]; rfl⟩

theorem fill_eof {s : St} (h : flat s = []) : fillIfEnd s = (s, true) := by
  simp only [flat, List.append_eq_nil_iff] at h
  simp [fillIfEnd, h.1, h.2]

theorem fill_some {s : St} (h : flat s ≠ []) (hi : Full s ∨ s.cur = []) :
    (fillIfEnd s).2 = false ∧ flat (fillIfEnd s).1 = flat s ∧ Full (fillIfEnd s).1 ∧ (fillIfEnd s).1.cur ≠ [] := by
  simp only [fillIfEnd]
  by_cases hc : s.cur = []
  · have hr : s.rest ≠ [] := by intro hr; apply h; simp [flat, hc, hr]
    simp only [hc, if_true, hr, if_false]
    refine ⟨trivial, ?_, line_full s.rest, line_ne_nil hr⟩
    simp only [flat, line_append, hc, List.nil_append]
  · simp only [hc, if_false]
    exact ⟨trivial, trivial, hi.resolve_right hc, hc⟩

/-- In both cases the text is kept. -/
theorem fill_full {s : St} (hi : Full s ∨ s.cur = []) : flat (fillIfEnd s).1 = flat s ∧ Full (fillIfEnd s).1 := by
  by_cases h : flat s = []
  · rw [fill_eof h]
    simp only [flat, List.append_eq_nil_iff] at h
    exact ⟨rfl, Or.inl h.2⟩
  · exact ⟨(fill_some h hi).2.1, (fill_some h hi).2.2.1⟩

theorem full_tail {c : Char} {cs rest : List Char} (h : Full ⟨c :: cs, rest⟩) : Full ⟨cs, rest⟩ ∨ cs = [] := by
  rcases h with h | ⟨pre, h⟩
  · left; left; exact h
  · cases pre with
    | nil => right; injection h
    | cons d pre => left; right; injection h with _ h; exact ⟨pre, h⟩

theorem full_tail' {c : Char} {cs rest : List Char} (h : Full ⟨c :: cs, rest⟩) (hc : c ≠ '\n') : Full ⟨cs, rest⟩ := by
  rcases h with h | ⟨pre, h⟩
  · left; exact h
  · cases pre with
    | nil => injection h with h; exact absurd h hc
    | cons d pre => right; injection h with _ h; exact ⟨pre, h⟩

theorem full_nil {rest : List Char} (h : Full ⟨[], rest⟩) : rest = [] := by
  rcases h with h | ⟨pre, h⟩
  · exact h
  · simp at h

theorem full_head {cs rest : List Char} (h : Full ⟨cs, rest⟩) : (cs ++ rest).head? = cs.head? := by
  cases cs with
  | nil => rw [full_nil h]; rfl
  | cons c cs => rfl

/-! ## Within a line -/

theorem spanLoop_spec (p : Char → Bool) (hp : p '\n' = false) (rest : List Char) :
    ∀ cur, Full ⟨cur, rest⟩ → (cur ++ rest).takeWhile p = (spanLoop p cur).1 ∧ (spanLoop p cur).1 ++ (spanLoop p cur).2 = cur ∧
      Full ⟨(spanLoop p cur).2, rest⟩ := by
  intro cur
  induction cur with
  | nil => intro h; rw [full_nil h]; exact ⟨rfl, rfl, Or.inl rfl⟩
  | cons c cs ih =>
    intro h
    simp only [spanLoop, List.cons_append, List.takeWhile_cons]
    cases hc : p c with
    | false => exact ⟨rfl, rfl, h⟩
    | true =>
      obtain ⟨h1, h2, h3⟩ := ih (full_tail' h (by intro e; rw [e, hp] at hc; cases hc))
      simp only [if_true]
      exact ⟨by rw [h1], by simp only [List.cons_append, h2], h3⟩

theorem span_drop (p : Char → Bool) (hp : p '\n' = false) {cur rest : List Char} (h : Full ⟨cur, rest⟩) :
    (cur ++ rest).drop ((cur ++ rest).takeWhile p).length = (spanLoop p cur).2 ++ rest := by
  obtain ⟨h1, h2, _⟩ := spanLoop_spec p hp rest cur h
  rw [h1]
  conv => lhs; arg 2; rw [← h2]
  rw [List.append_assoc, List.drop_left]

theorem prefix_flat (w : List Char) (hw : '\n' ∉ w) (rest : List Char) :
    ∀ cur, Full ⟨cur, rest⟩ → w.isPrefixOf (cur ++ rest) = w.isPrefixOf cur ∧
      (w.isPrefixOf cur = true → Full ⟨cur.drop w.length, rest⟩ ∧ (cur ++ rest).drop w.length = cur.drop w.length ++ rest) := by
  induction w with
  | nil => intro cur h; simp; exact h
  | cons a w ih =>
    intro cur h
    cases cur with
    | nil => rw [full_nil h]; simp
    | cons c cs =>
      simp only [List.cons_append, List.isPrefixOf, List.length_cons, List.drop_succ_cons]
      by_cases hac : a = c
      · subst hac
        have hn : a ≠ '\n' := by intro e; apply hw; simp [e]
        have := ih (fun hm => hw (List.mem_cons_of_mem _ hm)) cs (full_tail' h hn)
        simpa using this
      · have : (a == c) = false := by simpa using hac
        simp [this]

theorem numberLoop_true (C : Classes) (cur : List Char) : numberLoop C true cur = (true, (spanLoop C.isDigit cur).1, (spanLoop C.isDigit cur).2) := by
  induction cur with
  | nil => rfl
  | cons c cs ih =>
    simp only [numberLoop, spanLoop]
    split
    · rw [ih]
    · rfl

/-- What follows the digits before a decimal point. -/
def numTail (C : Classes) (w : List Char) : List Char → Bool × List Char × List Char
  | '.' :: d :: ds => if C.isDigit d = true then (true, w ++ '.' :: (spanLoop C.isDigit (d :: ds)).1, (spanLoop C.isDigit (d :: ds)).2) else (false, w, '.' :: d :: ds)
  | r => (false, w, r)

theorem numTail_other {C : Classes} {w r : List Char} (h : ∀ d ds, r = '.' :: d :: ds → False) : numTail C w r = (false, w, r) := by
  unfold numTail
  split
  · exact absurd rfl (fun e => h _ _ e)
  · rfl

theorem numTail_cons {C : Classes} {w r : List Char} (c : Char) : numTail C (c :: w) r = ((numTail C w r).1, c :: (numTail C w r).2.1, (numTail C w r).2.2) := by
  unfold numTail
  split
  · split <;> rfl
  · rfl

theorem numberLoop_false (C : Classes) (hdot : C.isDigit '.' = false) (cur : List Char) : cur ≠ [] → (∀ c, cur.head? = some c → C.isDigit c = true) →
    numberLoop C false cur = numTail C (spanLoop C.isDigit cur).1 (spanLoop C.isDigit cur).2 := by
  induction cur with
  | nil => intro h; exact absurd rfl h
  | cons c cs ih =>
    intro _ hd
    have hc : C.isDigit c = true := hd c rfl
    have plain : (∀ d ds, cs = '.' :: d :: ds → False) →
        numberLoop C false (c :: cs) = ((numberLoop C false cs).1, c :: (numberLoop C false cs).2.1, (numberLoop C false cs).2.2) := by
      intro h
      rw [numberLoop.eq_def]
      simp only [hc, if_true]
      split
      · exact absurd rfl (fun e => h _ _ e)
      · rfl
    have e2 : spanLoop C.isDigit (c :: cs) = (c :: (spanLoop C.isDigit cs).1, (spanLoop C.isDigit cs).2) := by
      rw [spanLoop]; simp [hc]
    cases cs with
    | nil => rw [plain (by intro d ds h; cases h)]; simp [numberLoop, spanLoop, hc, numTail]
    | cons c2 cs2 =>
      by_cases h2 : C.isDigit c2 = true
      · have ih' := ih (by simp) (by intro x hx; simp at hx; rw [← hx]; exact h2)
        have hne : c2 ≠ '.' := by intro e; rw [e, hdot] at h2; cases h2
        rw [plain (by intro d ds h; injection h with h; exact hne h), e2, ih']
        simp only [numTail_cons]
      · have e3 : numberLoop C false (c2 :: cs2) = (false, [], c2 :: cs2) := by rw [numberLoop.eq_def]; simp [h2]
        have e4 : spanLoop C.isDigit (c2 :: cs2) = ([], c2 :: cs2) := by rw [spanLoop]; simp [h2]
        by_cases hh : ∃ d ds, c2 :: cs2 = '.' :: d :: ds
        · obtain ⟨d, ds, hh⟩ := hh
          injection hh with ha hb
          subst ha; subst hb
          rw [e2, e4]
          rw [numberLoop]
          simp only [hc, if_true, numTail]
          by_cases hd2 : C.isDigit d = true
          · simp only [hd2, if_true, numberLoop_true, List.singleton_append]
          · simp only [hd2]
            rw [e3]; rfl
        · have hh' : ∀ d ds, c2 :: cs2 = '.' :: d :: ds → False := fun d ds h => hh ⟨d, ds, h⟩
          rw [plain hh', e2, e4, e3, numTail_other hh']

/-! ## Strings -/

theorem escape_eq (c : Char) : escape c = Spec.escaped c := by
  simp only [escape]
  repeat' split
  all_goals first
    | (subst_vars; rfl)
    | skip
  unfold Spec.escaped
  split <;> first | contradiction | rfl

theorem now_cons {c : Char} {cs rest : List Char} : St.now ⟨c :: cs, rest⟩ = c := rfl
theorem now_nil {rest : List Char} : St.now ⟨[], rest⟩ = '\x00' := rfl

/-- Reading one character of a string. -/
theorem stringChar_eof : lexStringChar ⟨[], []⟩ = .ok (['\x00'], ⟨[], []⟩) := by decide

theorem string_unterminated (fuel : Nat) : ∀ s text, Full s → Spec.str (flat s) = .unterminated → lexStringLoop fuel s text = none := by
  induction fuel with
  | zero => intros; rfl
  | succ n ih =>
    intro s text hf h
    obtain ⟨cur, rest⟩ := s
    cases cur with
    | nil =>
      have := full_nil hf; subst this
      have h0 : ¬ St.now ⟨[], []⟩ = '\'' := by decide
      simp only [lexStringLoop, h0, if_false, stringChar_eof]
      exact ih _ _ hf h
    | cons c cs =>
      have hcur : flat ⟨c :: cs, rest⟩ = c :: (cs ++ rest) := rfl
      rw [hcur, Spec.str.eq_def] at h
      simp only at h
      by_cases hq : c = '\''
      · simp [hq] at h
      · simp only [hq, if_false] at h
        simp only [lexStringLoop, now_cons, hq, if_false, lexStringChar]
        by_cases hb : c = '\\'
        · simp only [hb, if_true] at h ⊢
          have hf2 : Full ⟨cs, rest⟩ := full_tail' hf (by rw [hb]; decide)
          cases cs with
          | nil => rw [full_nil hf2] at h; simp at h
          | cons e cs =>
            simp only [List.cons_append] at h
            simp only [St.advance, List.drop_succ_cons, List.drop_zero, reduceCtorEq, if_false]
            obtain ⟨f1, f2⟩ := fill_full (full_tail hf2)
            apply ih _ _ f2
            rw [f1]
            simp only [flat]
            cases hs : Spec.str (cs ++ rest) with
            | unterminated => rfl
            | badEscape => rw [hs] at h; simp [Spec.Str.push] at h
            | done v r => rw [hs] at h; simp [Spec.Str.push] at h
        · simp only [hb, if_false] at h ⊢
          obtain ⟨f1, f2⟩ := fill_full (full_tail hf)
          apply ih _ _ f2
          rw [f1]
          simp only [flat]
          cases hs : Spec.str (cs ++ rest) with
          | unterminated => rfl
          | badEscape => rw [hs] at h; simp [Spec.Str.push] at h
          | done v r => rw [hs] at h; simp [Spec.Str.push] at h

theorem string_terminated (m : Nat) : ∀ s text, (flat s).length < m → Full s →
    (Spec.str (flat s) = .badEscape → ∀ fuel, m ≤ fuel → lexStringLoop fuel s text = some (.error .other)) ∧
    (∀ v r, Spec.str (flat s) = .done v r → ∃ s', flat s' = r ∧ Full s' ∧ ∀ fuel, m ≤ fuel → lexStringLoop fuel s text = some (.ok (⟨.stString, text ++ v⟩, s'))) := by
  induction m with
  | zero => intro s text h; omega
  | succ m ih =>
    intro s text hl hf
    obtain ⟨cur, rest⟩ := s
    cases cur with
    | nil => have := full_nil hf; subst this; simp [flat, Spec.str]
    | cons c cs =>
      have hcur : flat ⟨c :: cs, rest⟩ = c :: (cs ++ rest) := rfl
      rw [hcur] at hl ⊢
      rw [Spec.str.eq_def]
      simp only [List.length_cons] at hl ⊢
      by_cases hq : c = '\''
      · subst hq
        simp only [if_true, reduceCtorEq, false_implies, Spec.Str.done.injEq, true_and]
        rintro v r ⟨rfl, rfl⟩
        refine ⟨⟨cs, rest⟩, rfl, full_tail' hf (by decide), ?_⟩
        intro fuel hfu
        obtain ⟨n, rfl⟩ : ∃ n, fuel = n + 1 := ⟨fuel - 1, by omega⟩
        simp [lexStringLoop, now_cons, St.advance]
      · simp only [hq, if_false]
        by_cases hb : c = '\\'
        · simp only [hb, if_true]
          have hf2 : Full ⟨cs, rest⟩ := full_tail' hf (by rw [hb]; decide)
          have hq2 : ¬ ('\\' = '\'') := by decide
          cases cs with
          | nil =>
            have := full_nil hf2; subst this
            simp only [List.append_nil, reduceCtorEq, false_implies, implies_true, and_true, true_implies]
            intro fuel hfu
            obtain ⟨n, rfl⟩ : ∃ n, fuel = n + 1 := ⟨fuel - 1, by omega⟩
            simp only [lexStringLoop, now_cons, hq2, if_false, lexStringChar, if_true, St.advance, List.drop_succ_cons, List.drop_nil]
          | cons e cs =>
            simp only [List.cons_append, List.length_cons] at hl ⊢
            obtain ⟨f1, f2⟩ := fill_full (full_tail hf2)
            have step : ∀ n text, lexStringLoop (n + 1) ⟨'\\' :: e :: cs, rest⟩ text = lexStringLoop n (fillIfEnd ⟨cs, rest⟩).1 (text ++ escape e) := by
              intro n text
              simp only [lexStringLoop, now_cons, hq2, if_false, lexStringChar, if_true, St.advance, List.drop_succ_cons, List.drop_zero, reduceCtorEq]
            obtain ⟨i1, i2⟩ := ih (fillIfEnd ⟨cs, rest⟩).1 (text ++ escape e) (by rw [f1]; simp only [flat, List.length_append] at hl ⊢; omega) f2
            rw [f1] at i1 i2
            simp only [flat] at i1 i2
            rw [← hb] at step ⊢
            cases hs : Spec.str (cs ++ rest) with
            | unterminated => simp [Spec.Str.push]
            | badEscape =>
              simp only [Spec.Str.push, true_implies, reduceCtorEq, false_implies, implies_true, and_true]
              intro fuel hfu
              obtain ⟨n, rfl⟩ : ∃ n, fuel = n + 1 := ⟨fuel - 1, by omega⟩
              rw [step]; exact i1 hs n (by omega)
            | done v r =>
              simp only [Spec.Str.push, reduceCtorEq, false_implies, Spec.Str.done.injEq, true_and]
              rintro v' r' ⟨rfl, rfl⟩
              obtain ⟨s', g1, g2, g3⟩ := i2 v r hs
              refine ⟨s', g1, g2, ?_⟩
              intro fuel hfu
              obtain ⟨n, rfl⟩ : ∃ n, fuel = n + 1 := ⟨fuel - 1, by omega⟩
              rw [step, g3 n (by omega), escape_eq, List.append_assoc]
        · simp only [hb, if_false]
          obtain ⟨f1, f2⟩ := fill_full (full_tail hf)
          have step : ∀ n text, lexStringLoop (n + 1) ⟨c :: cs, rest⟩ text = lexStringLoop n (fillIfEnd ⟨cs, rest⟩).1 (text ++ [c]) := by
            intro n text
            simp only [lexStringLoop, now_cons, hq, hb, if_false, lexStringChar, St.advance, List.drop_succ_cons, List.drop_zero]
          obtain ⟨i1, i2⟩ := ih (fillIfEnd ⟨cs, rest⟩).1 (text ++ [c]) (by rw [f1]; simp only [flat, List.length_append] at hl ⊢; omega) f2
          rw [f1] at i1 i2
          simp only [flat] at i1 i2
          cases hs : Spec.str (cs ++ rest) with
          | unterminated => simp [Spec.Str.push]
          | badEscape =>
            simp only [Spec.Str.push, true_implies, reduceCtorEq, false_implies, implies_true, and_true]
            intro fuel hfu
            obtain ⟨n, rfl⟩ : ∃ n, fuel = n + 1 := ⟨fuel - 1, by omega⟩
            rw [step]; exact i1 hs n (by omega)
          | done v r =>
            simp only [Spec.Str.push, reduceCtorEq, false_implies, Spec.Str.done.injEq, true_and]
            rintro v' r' ⟨rfl, rfl⟩
            obtain ⟨s', g1, g2, g3⟩ := i2 v r hs
            refine ⟨s', g1, g2, ?_⟩
            intro fuel hfu
            obtain ⟨n, rfl⟩ : ∃ n, fuel = n + 1 := ⟨fuel - 1, by omega⟩
            rw [step, g3 n (by omega), List.append_assoc]

/-! ## One token -/

/-- The scanner does what the specification says about the text, for enough fuel. -/
def Agrees (f : Nat → Option (Except Err (Tok × St))) (n : Nat) : Spec.Next → Prop
  | .diverges => ∀ fuel, f fuel = none
  | .raises => ∀ fuel, n < fuel → f fuel = some (.error .other)
  | .tok t r => ∃ s', flat s' = r ∧ Full s' ∧ ∀ fuel, n < fuel → f fuel = some (.ok (t, s'))

theorem operator_eq (c : Char) (h : isOperator c = true) : operatorSym c = (Spec.operators.lookup c).getD .none := by
  simp only [isOperator, Bool.or_eq_true, beq_iff_eq] at h
  rcases h with ((((((((((((h | h) | h) | h) | h) | h) | h) | h) | h) | h) | h) | h) | h) | h <;> subst h <;> rfl

theorem newline_not_op : isOperator '\n' = false := by decide
theorem nul_not_op : isOperator '\x00' = false := by decide

theorem getD0 (cs : List Char) : cs.getD 0 '\x00' = cs.head?.getD '\x00' := by cases cs <;> rfl

theorem op_spec {c : Char} {cs rest : List Char} (hf : Full ⟨c :: cs, rest⟩) (hc : isOperator c = true) :
    ∃ s', flat s' = (match Spec.op (c :: (cs ++ rest)) with | .tok _ r => r | _ => []) ∧ Full s' ∧
      ∃ t, Spec.op (c :: (cs ++ rest)) = .tok t (flat s') ∧ lexOperator ⟨c :: cs, rest⟩ = (t, s') := by
  have hn : c ≠ '\n' := by intro e; rw [e, newline_not_op] at hc; cases hc
  have hf2 := full_tail' hf hn
  obtain ⟨h1, h2, h3⟩ := spanLoop_spec isOperator newline_not_op rest (c :: cs) hf
  have hd := span_drop isOperator newline_not_op hf
  simp only [List.cons_append] at h1 hd
  have hop : Spec.op (c :: (cs ++ rest)) = .tok (Spec.opToken (spanLoop isOperator (c :: cs)).1)
      ((spanLoop isOperator (c :: cs)).2 ++ rest) := by
    simp only [Spec.op, hd]; rw [h1]
  have h1c : St.char ⟨c :: cs, rest⟩ 1 = cs.getD 0 '\x00' := by cases cs <;> rfl
  rw [hop]
  by_cases hn1 : isOperator (St.char ⟨c :: cs, rest⟩ 1) = true
  · refine ⟨⟨(spanLoop isOperator (c :: cs)).2, rest⟩, rfl, h3, ⟨.operatorSequence, (spanLoop isOperator (c :: cs)).1⟩, ?_, ?_⟩
    · simp only [flat, Spec.Next.tok.injEq, and_true]
      rw [h1c] at hn1
      cases cs with
      | nil => simp only [List.getD_nil] at hn1; rw [nul_not_op] at hn1; cases hn1
      | cons d ds =>
        simp only [List.getD_cons_zero] at hn1
        simp only [spanLoop, hc, hn1, if_true, Spec.opToken]
    · simp only [lexOperator, hn1, if_true]
  · have hnf : isOperator (St.char ⟨c :: cs, rest⟩ 1) = false := by simpa using hn1
    have hsp : spanLoop isOperator (c :: cs) = ([c], cs) := by
      rw [h1c] at hnf
      cases cs with
      | nil => simp [spanLoop, hc]
      | cons d ds => simp only [List.getD_cons_zero] at hnf; simp [spanLoop, hc, hnf]
    refine ⟨⟨cs, rest⟩, by rw [hsp]; rfl, hf2, ⟨(Spec.operators.lookup c).getD .none, [c]⟩, by rw [hsp]; rfl, ?_⟩
    simp only [lexOperator, hnf, now_cons, operator_eq c hc, St.advance, List.drop_succ_cons, List.drop_zero]
    rfl

theorem word_spec {C : Classes} (hC : Spec.Good C) {c : Char} {cs rest : List Char} (hf : Full ⟨c :: cs, rest⟩) :
    ∃ t s', Spec.word C (c :: (cs ++ rest)) = .tok t (flat s') ∧ Full s' ∧ lexWord C ⟨c :: cs, rest⟩ = (t, s') := by
  have hnl : C.isAlnum '\n' = false := by
    cases h : C.isAlnum '\n' with
    | false => rfl
    | true => have := hC.alnum_not_space _ h; rw [hC.space_newline] at this; cases this
  have hp : (fun c => C.isAlnum c || c == '_') '\n' = false := by simp [hnl]
  have hnul : C.isAlpha '\x00' = false := by
    cases h : C.isAlpha '\x00' with
    | false => rfl
    | true => have := hC.alpha_alnum _ h; rw [(hC.punct '\x00' (Or.inl rfl)).1] at this; cases this
  have hnla : C.isAlpha '\n' = false := by
    cases h : C.isAlpha '\n' with
    | false => rfl
    | true => have := hC.alpha_alnum _ h; rw [hnl] at this; cases this
  have hp2 : (fun c => C.isAlpha c || c == ':') '\n' = false := by simp [hnla]
  obtain ⟨h1, h2, h3⟩ := spanLoop_spec (fun c => C.isAlnum c || c == '_') hp rest (c :: cs) hf
  have hd := span_drop (fun c => C.isAlnum c || c == '_') hp hf
  simp only [List.cons_append] at h1 hd
  simp only [Spec.word, hd]
  rw [h1]
  simp only [lexWord]
  generalize hr : (spanLoop (fun c => C.isAlnum c || c == '_') (c :: cs)) = r at *
  obtain ⟨w, q⟩ := r
  simp only at *
  cases q with
  | nil =>
    have := full_nil h3; subst this
    exact ⟨⟨.identifier, w⟩, ⟨[], []⟩, rfl, h3, rfl⟩
  | cons d ds =>
    by_cases hd : d = ':'
    · subst hd
      have hf3 := full_tail' h3 (by decide)
      cases ds with
      | nil =>
        have := full_nil hf3; subst this
        refine ⟨⟨.keyword, w ++ [':']⟩, ⟨[], []⟩, rfl, hf3, ?_⟩
        simp [hnul]
      | cons e es =>
        simp only [List.cons_append, List.getD_cons_zero]
        cases he : C.isAlpha e with
        | true =>
          obtain ⟨g1, g2, g3⟩ := spanLoop_spec (fun c => C.isAlpha c || c == ':') hp2 rest (e :: es) hf3
          have gd := span_drop (fun c => C.isAlpha c || c == ':') hp2 hf3
          simp only [List.cons_append] at g1 gd
          refine ⟨⟨.keywordSequence, w ++ ':' :: (spanLoop (fun c => C.isAlpha c || c == ':') (e :: es)).1⟩, ⟨(spanLoop (fun c => C.isAlpha c || c == ':') (e :: es)).2, rest⟩, ?_, g3, ?_⟩
          · simp only [if_true, flat]; rw [gd, g1]
          · simp only [if_true]
        | false =>
          exact ⟨⟨.keyword, w ++ [':']⟩, ⟨e :: es, rest⟩, rfl, hf3, rfl⟩
    · refine ⟨⟨.identifier, w⟩, ⟨d :: ds, rest⟩, ?_, h3, ?_⟩
      · simp only [flat, List.cons_append]
        split
        · rename_i heq; injection heq with h; exact absurd h hd
        · rename_i heq; injection heq with h; exact absurd h hd
        · rfl
      · split
        · rename_i heq; injection heq with h; exact absurd h hd
        · rfl

theorem number_spec {C : Classes} (hC : Spec.Good C) {c : Char} {cs rest : List Char} (hf : Full ⟨c :: cs, rest⟩) (hc : C.isDigit c = true) :
    ∃ t s', Spec.number C (c :: (cs ++ rest)) = .tok t (flat s') ∧ Full s' ∧
      (⟨if (numberLoop C false (c :: cs)).1 then .double else .integer, (numberLoop C false (c :: cs)).2.1⟩ : Tok) = t ∧
      (⟨(numberLoop C false (c :: cs)).2.2, rest⟩ : St) = s' := by
  have nd : ∀ x, C.isAlnum x = false → C.isDigit x = false := by
    intro x hx
    cases h : C.isDigit x with
    | false => rfl
    | true => rw [hC.digit_alnum _ h] at hx; cases hx
  have hnl : C.isDigit '\n' = false := by
    cases h : C.isDigit '\n' with
    | false => rfl
    | true => have := hC.alnum_not_space _ (hC.digit_alnum _ h); rw [hC.space_newline] at this; cases this
  have hdot : C.isDigit '.' = false := nd _ (hC.punct '.' (by simp)).1
  obtain ⟨h1, h2, h3⟩ := spanLoop_spec _ hnl rest (c :: cs) hf
  have hd := span_drop _ hnl hf
  simp only [List.cons_append] at h1 hd
  rw [numberLoop_false C hdot (c :: cs) (by simp) (by intro x hx; simp at hx; rw [← hx]; exact hc)]
  simp only [Spec.number, hd]
  rw [h1]
  generalize hr : (spanLoop C.isDigit (c :: cs)) = r at *
  obtain ⟨w, q⟩ := r
  simp only at *
  by_cases hh : ∃ d ds, q = '.' :: d :: ds
  · obtain ⟨d, ds, rfl⟩ := hh
    have hf3 := full_tail' h3 (by decide)
    simp only [List.cons_append, numTail]
    cases hdd : C.isDigit d with
    | true =>
      obtain ⟨g1, g2, g3⟩ := spanLoop_spec _ hnl rest (d :: ds) hf3
      have gd := span_drop _ hnl hf3
      simp only [List.cons_append] at g1 gd
      refine ⟨_, ⟨(spanLoop C.isDigit (d :: ds)).2, rest⟩, ?_, g3, rfl, rfl⟩
      simp only [if_true, flat]; rw [gd, g1]
    | false => exact ⟨_, ⟨'.' :: d :: ds, rest⟩, rfl, h3, rfl, rfl⟩
  · have hne : ∀ d ds, q = '.' :: d :: ds → False := fun d ds h => hh ⟨d, ds, h⟩
    rw [numTail_other hne]
    refine ⟨_, _, ?_, h3, rfl, rfl⟩
    split
    · rename_i d r heq
      cases q with
      | nil => rw [full_nil h3] at heq; cases heq
      | cons x xs =>
        injection heq with e1 e2
        subst e1
        have hx := full_tail' h3 (by decide)
        cases xs with
        | nil => rw [full_nil hx] at e2; cases e2
        | cons y ys => exact absurd rfl (fun e => hne y ys e)
    · rfl

theorem agrees_tok {f : Nat → Option (Except Err (Tok × St))} {n : Nat} {t : Tok} {s' : St} (hf : Full s') (h : ∀ fuel, f fuel = some (.ok (t, s'))) :
    Agrees f n (.tok t (flat s')) := ⟨s', rfl, hf, fun fuel _ => h fuel⟩

theorem token_spec {C : Classes} (hC : Spec.Good C) {c : Char} {cs rest : List Char} (hf : Full ⟨c :: cs, rest⟩) (hs : C.isSpace c = false) :
    Agrees (fun fuel => lexToken C fuel ⟨c :: cs, rest⟩) (cs ++ rest).length (Spec.token C (c :: (cs ++ rest))) := by
  have hn : c ≠ '\n' := by intro e; rw [e, hC.space_newline] at hs; cases hs
  have hf2 := full_tail' hf hn
  have adv : St.advance ⟨c :: cs, rest⟩ 1 = ⟨cs, rest⟩ := rfl
  rw [Spec.token.eq_def]
  simp only [lexToken, now_cons, adv, ok]
  by_cases h : c = '\''
  · subst h
    simp only [if_true]
    obtain ⟨t1, t2⟩ := string_terminated ((cs ++ rest).length + 1) ⟨cs, rest⟩ [] (by simp [flat]) hf2
    simp only [flat] at t1 t2
    cases hstr : Spec.str (cs ++ rest) with
    | unterminated => intro fuel; exact string_unterminated fuel _ _ hf2 hstr
    | badEscape => intro fuel hfu; exact t1 hstr fuel hfu
    | done v r =>
      obtain ⟨s', g1, g2, g3⟩ := t2 v r hstr
      refine ⟨s', g1, g2, fun fuel hfu => ?_⟩
      simp only [g3 fuel hfu, List.nil_append]
  simp only [h, if_false]
  by_cases h : c = ':'
  · subst h
    have e1 : ¬ (':' = '[') := by decide
    have e2 : ¬ (':' = ']') := by decide
    simp only [e1, e2, if_true, if_false]
    have hh := full_head hf2
    cases cs with
    | nil =>
      have := full_nil hf2; subst this
      simp only [List.append_nil, List.head?_nil, reduceCtorEq, if_false]
      exact agrees_tok (s' := ⟨[], []⟩) hf2 (fun fuel => rfl)
    | cons d ds =>
      simp only [List.cons_append, List.head?_cons, Option.some.injEq, List.tail_cons]
      have hch : St.char ⟨':' :: d :: ds, rest⟩ 1 = d := rfl
      simp only [hch]
      by_cases hd : d = '='
      · simp only [hd, if_true]
        exact agrees_tok (s' := ⟨ds, rest⟩) (full_tail' hf2 (by rw [hd]; decide)) (fun fuel => rfl)
      · simp only [hd, if_false]
        exact agrees_tok (s' := ⟨d :: ds, rest⟩) hf2 (fun fuel => rfl)
  simp only [h, if_false]
  have single : ∀ k : Sym, Agrees (fun _ => some (.ok ((⟨k, [c]⟩ : Tok), (⟨cs, rest⟩ : St)))) (cs ++ rest).length (.tok ⟨k, [c]⟩ (cs ++ rest)) :=
    fun k => agrees_tok (s' := ⟨cs, rest⟩) hf2 (fun fuel => rfl)
  by_cases h1 : c = '['
  · subst h1; exact single _
  by_cases h2 : c = ']'
  · subst h2; exact single _
  by_cases h3 : c = '('
  · subst h3; exact single _
  by_cases h4 : c = ')'
  · subst h4; exact single _
  by_cases h5 : c = '#'
  · subst h5; exact single _
  by_cases h6 : c = '^'
  · subst h6; exact single _
  by_cases h7 : c = '.'
  · subst h7; exact single _
  have hp : Spec.punctuation c = none := by
    unfold Spec.punctuation
    split <;> first | contradiction | rfl
  simp only [h1, h2, h3, h4, h5, h6, h7, hp, if_false]
  have hsep := prefix_flat ['-', '-', '-', '-'] (by decide) rest (c :: cs) hf
  have hsep1 : "----".toList = ['-', '-', '-', '-'] := by decide
  rw [hsep1]
  have hsep2 : ['-', '-', '-', '-'].isPrefixOf (c :: (cs ++ rest)) = ['-', '-', '-', '-'].isPrefixOf (c :: cs) := hsep.1
  rw [hsep2]
  have operator : isOperator c = true →
      Agrees (fun _ => some (.ok (lexOperator ⟨c :: cs, rest⟩))) (cs ++ rest).length (Spec.op (c :: (cs ++ rest))) := by
    intro hop
    obtain ⟨s', _, g2, t, g3, g4⟩ := op_spec hf hop
    rw [g3, g4]
    exact agrees_tok g2 (fun fuel => rfl)
  by_cases h8 : c = '-'
  · subst h8
    simp only [if_true]
    have hop : isOperator '-' = true := by decide
    simp only [hop, if_true]
    cases hpre : ['-', '-', '-', '-'].isPrefixOf ('-' :: cs) with
    | true =>
      simp only [if_true]
      have hdash : (fun x : Char => x == '-') '\n' = false := by decide
      obtain ⟨g1, g2, g3⟩ := spanLoop_spec (fun x => x == '-') hdash rest ('-' :: cs) hf
      have gd := span_drop (fun x => x == '-') hdash hf
      simp only [List.cons_append] at g1 gd
      rw [gd, g1]
      exact agrees_tok (s' := ⟨(spanLoop (fun x => x == '-') ('-' :: cs)).2, rest⟩) g3 (fun fuel => rfl)
    | false => exact operator hop
  simp only [h8, if_false]
  have hnp : ['-', '-', '-', '-'].isPrefixOf (c :: cs) = false := by
    have : ('-' == c) = false := by simp only [beq_eq_false_iff_ne]; exact fun e => h8 e.symm
    simp [List.isPrefixOf, this]
  simp only [hnp]
  by_cases h9 : isOperator c = true
  · simp only [h9, if_true]; exact operator h9
  simp only [h9]
  have hpw : "primitive".toList = primitiveWord := by decide
  have hpre := prefix_flat primitiveWord (by decide) rest (c :: cs) hf
  have hprim : Spec.isPrimitive C (c :: (cs ++ rest)) = nextWordIs C primitiveWord ⟨c :: cs, rest⟩ := by
    simp only [Spec.isPrimitive, nextWordIs, hpw]
    have e1 : primitiveWord.isPrefixOf (c :: (cs ++ rest)) = primitiveWord.isPrefixOf (c :: cs) := hpre.1
    rw [e1]
    cases hb : primitiveWord.isPrefixOf (c :: cs) with
    | false => rfl
    | true =>
      obtain ⟨q1, q2⟩ := hpre.2 hb
      have e9 : primitiveWord.length = 9 := by decide
      rw [e9] at q1 q2
      have e2 : (c :: (cs ++ rest)).drop 9 = (c :: cs).drop 9 ++ rest := q2
      have e3 : St.char ⟨c :: cs, rest⟩ 9 = ((c :: cs).drop 9).getD 0 '\x00' := by
        simp only [St.char, List.getD_eq_getElem?_getD, List.getElem?_drop]
      rw [e2, e9, e3]
      cases hdr : (c :: cs).drop 9 with
      | nil =>
        rw [hdr] at q1
        rw [full_nil q1]
        simp [(hC.punct '\x00' (Or.inl rfl)).1]
      | cons d ds => rfl
  rw [hprim]
  cases hw : nextWordIs C primitiveWord ⟨c :: cs, rest⟩ with
  | true =>
    simp only [if_true]
    have hb : primitiveWord.isPrefixOf (c :: cs) = true := by
      simp only [nextWordIs, Bool.and_eq_true] at hw; exact hw.1
    obtain ⟨q1, q2⟩ := hpre.2 hb
    have e9 : primitiveWord.length = 9 := by decide
    rw [e9] at q1 q2
    have e2 : (c :: (cs ++ rest)).drop 9 = (c :: cs).drop 9 ++ rest := q2
    rw [e2, hpw]
    exact agrees_tok (s' := ⟨(c :: cs).drop 9, rest⟩) q1 (fun fuel => rfl)
  | false =>
    by_cases ha : C.isAlpha c = true
    · simp only [ha, if_true]
      obtain ⟨t, s', g1, g2, g3⟩ := word_spec hC hf
      simp only [g1, g3]
      exact agrees_tok g2 (fun fuel => rfl)
    · simp only [ha]
      by_cases hd : C.isDigit c = true
      · simp only [hd, if_true]
        obtain ⟨t, s', g1, g2, g3, g4⟩ := number_spec hC hf hd
        rw [g1, ← g3, ← g4]
        exact agrees_tok (g4 ▸ g2) (fun fuel => rfl)
      · simp only [hd]
        exact agrees_tok (s' := ⟨c :: cs, rest⟩) hf (fun fuel => rfl)

/-! ## Blanks -/

theorem skipWhiteSpace_spec {C : Classes} (hC : Spec.Good C) (m : Nat) : ∀ s, (flat s).length < m → Full s →
    ∃ s', (∀ fuel, m ≤ fuel → skipWhiteSpace C fuel s = some s') ∧ Full s' ∧ (flat s').length ≤ (flat s).length ∧
      Spec.skip C false (flat s') = Spec.skip C false (flat s) ∧ (flat s' = [] ∨ ∃ c cs, s'.cur = c :: cs ∧ C.isSpace c = false) := by
  induction m with
  | zero => intro s h; omega
  | succ m ih =>
    intro s hl hf
    obtain ⟨cur, rest⟩ := s
    cases cur with
    | nil =>
      have := full_nil hf; subst this
      refine ⟨⟨[], []⟩, ?_, hf, Nat.le_refl _, rfl, Or.inl rfl⟩
      intro fuel hfu
      obtain ⟨n, rfl⟩ : ∃ n, fuel = n + 1 := ⟨fuel - 1, by omega⟩
      simp only [skipWhiteSpace, now_nil, (hC.punct '\x00' (Or.inl rfl)).2]
      rfl
    | cons c cs =>
      cases hs : C.isSpace c with
      | false =>
        refine ⟨⟨c :: cs, rest⟩, ?_, hf, Nat.le_refl _, rfl, Or.inr ⟨c, cs, rfl, hs⟩⟩
        intro fuel hfu
        obtain ⟨n, rfl⟩ : ∃ n, fuel = n + 1 := ⟨fuel - 1, by omega⟩
        simp only [skipWhiteSpace, now_cons, hs]; rfl
      | true =>
        have hsk : Spec.skip C false (flat ⟨c :: cs, rest⟩) = Spec.skip C false (cs ++ rest) := by
          simp [flat, Spec.skip, hs]
        have hlen : (flat ⟨c :: cs, rest⟩).length = (cs ++ rest).length + 1 := by simp [flat]
        have step : ∀ n, skipWhiteSpace C (n + 1) ⟨c :: cs, rest⟩ = if (fillIfEnd ⟨cs, rest⟩).2 then some (fillIfEnd ⟨cs, rest⟩).1 else skipWhiteSpace C n (fillIfEnd ⟨cs, rest⟩).1 := by
          intro n; simp only [skipWhiteSpace, now_cons, hs, if_true, St.advance, List.drop_succ_cons, List.drop_zero]
        by_cases he : flat ⟨cs, rest⟩ = []
        · refine ⟨⟨cs, rest⟩, ?_, ?_, by rw [hlen]; simp [flat], ?_, Or.inl he⟩
          · intro fuel hfu
            obtain ⟨n, rfl⟩ : ∃ n, fuel = n + 1 := ⟨fuel - 1, by omega⟩
            rw [step, fill_eof he]; rfl
          · simp only [flat, List.append_eq_nil_iff] at he; exact Or.inl he.2
          · rw [hsk]; rfl
        · obtain ⟨f0, f1, f2, _⟩ := fill_some he (full_tail hf)
          obtain ⟨s', g1, g2, g3, g4, g5⟩ := ih (fillIfEnd ⟨cs, rest⟩).1 (by rw [f1]; rw [hlen] at hl; simp only [flat]; omega) f2
          refine ⟨s', ?_, g2, by rw [hlen]; rw [f1] at g3; simp only [flat] at g3 ⊢; omega, by rw [g4, f1, hsk]; rfl, g5⟩
          intro fuel hfu
          obtain ⟨n, rfl⟩ : ∃ n, fuel = n + 1 := ⟨fuel - 1, by omega⟩
          rw [step, f0]
          exact g1 n (by omega)

theorem skipCommentLoop_spec (C : Classes) (m : Nat) : ∀ c cs rest, (flat ⟨c :: cs, rest⟩).length < m → Full ⟨c :: cs, rest⟩ →
    ∃ s', (∀ fuel, m ≤ fuel → skipCommentLoop fuel ⟨c :: cs, rest⟩ = some s') ∧ (Full s' ∨ s'.cur = []) ∧
      (flat s').length < (flat ⟨c :: cs, rest⟩).length ∧ Spec.skip C false (flat s') = Spec.skip C true (cs ++ rest) := by
  induction m with
  | zero => intro c cs rest h; omega
  | succ m ih =>
    intro c cs rest hl hf
    have hlen : (flat ⟨c :: cs, rest⟩).length = (cs ++ rest).length + 1 := by simp [flat]
    have step : ∀ n, skipCommentLoop (n + 1) ⟨c :: cs, rest⟩ = if (fillIfEnd ⟨cs, rest⟩).2 then some (fillIfEnd ⟨cs, rest⟩).1
        else if (fillIfEnd ⟨cs, rest⟩).1.now = '"' then some ((fillIfEnd ⟨cs, rest⟩).1.advance 1) else skipCommentLoop n (fillIfEnd ⟨cs, rest⟩).1 := by
      intro n; simp only [skipCommentLoop, St.advance, List.drop_succ_cons, List.drop_zero]
    by_cases he : flat ⟨cs, rest⟩ = []
    · have he' : cs ++ rest = [] := he
      refine ⟨⟨cs, rest⟩, ?_, ?_, by rw [hlen]; simp [flat], ?_⟩
      · intro fuel hfu
        obtain ⟨n, rfl⟩ : ∃ n, fuel = n + 1 := ⟨fuel - 1, by omega⟩
        rw [step, fill_eof he]; rfl
      · right; simp only [List.append_eq_nil_iff] at he'; exact he'.1
      · rw [he, he']; rfl
    · obtain ⟨f0, f1, f2, f3⟩ := fill_some he (full_tail hf)
      cases hfe : (fillIfEnd ⟨cs, rest⟩).1 with
      | mk cur2 rest2 =>
        rw [hfe] at f1 f2 f3
        simp only at f3
        have f1' : cur2 ++ rest2 = cs ++ rest := f1
        cases cur2 with
        | nil => exact absurd rfl f3
        | cons d ds =>
          have hd : d :: (ds ++ rest2) = cs ++ rest := f1'
          by_cases hq : d = '"'
          · refine ⟨⟨ds, rest2⟩, ?_, full_tail f2, ?_, ?_⟩
            · intro fuel hfu
              obtain ⟨n, rfl⟩ : ∃ n, fuel = n + 1 := ⟨fuel - 1, by omega⟩
              rw [step, f0, hfe]
              simp [now_cons, hq, St.advance]
            · rw [hlen, ← hd]; simp only [flat, List.length_cons]; omega
            · rw [← hd]; simp [flat, Spec.skip, hq]
          · obtain ⟨s', g1, g2, g3, g4⟩ := ih d ds rest2 (by
              have e : flat ⟨d :: ds, rest2⟩ = cs ++ rest := hd
              rw [e]; rw [hlen] at hl; omega) f2
            have e : flat ⟨d :: ds, rest2⟩ = cs ++ rest := hd
            refine ⟨s', ?_, g2, by rw [hlen]; rw [e] at g3; omega, ?_⟩
            · intro fuel hfu
              obtain ⟨n, rfl⟩ : ∃ n, fuel = n + 1 := ⟨fuel - 1, by omega⟩
              rw [step, f0, hfe]
              simp only [Bool.false_eq_true, if_false, now_cons, hq]
              exact g1 n (by omega)
            · rw [g4, ← hd, Spec.skip]
              have : (d != '"') = true := by simpa using hq
              simp [this]

/-! ## More fuel does not change a result -/

theorem skipWhiteSpace_mono {C : Classes} (fuel : Nat) : ∀ s r, skipWhiteSpace C fuel s = some r → ∀ k, skipWhiteSpace C (fuel + k) s = some r := by
  induction fuel with
  | zero => intro s r h; cases h
  | succ n ih =>
    intro s r h k
    rw [Nat.succ_add]
    simp only [skipWhiteSpace] at h ⊢
    split at h
    · rename_i hc; rw [if_pos hc]
      split at h
      · rename_i h2; rw [if_pos h2]; exact h
      · rename_i h2; rw [if_neg h2]; exact ih _ _ h k
    · rename_i hc; rw [if_neg hc]; exact h

theorem skipCommentLoop_mono (fuel : Nat) : ∀ s r, skipCommentLoop fuel s = some r → ∀ k, skipCommentLoop (fuel + k) s = some r := by
  induction fuel with
  | zero => intro s r h; cases h
  | succ n ih =>
    intro s r h k
    rw [Nat.succ_add]
    simp only [skipCommentLoop] at h ⊢
    split at h
    · rename_i hc; rw [if_pos hc]; exact h
    · rename_i hc; rw [if_neg hc]
      split at h
      · rename_i h2; rw [if_pos h2]; exact h
      · rename_i h2; rw [if_neg h2]; exact ih _ _ h k

theorem skipComment_mono (fuel : Nat) (s r : St) (h : skipComment fuel s = some r) (k : Nat) : skipComment (fuel + k) s = some r := by
  simp only [skipComment] at h ⊢
  split at h
  · rename_i hc; rw [if_pos hc]; exact skipCommentLoop_mono fuel _ _ h k
  · rename_i hc; rw [if_neg hc]; exact h

theorem lexStringLoop_mono (fuel : Nat) : ∀ s text r, lexStringLoop fuel s text = some r → ∀ k, lexStringLoop (fuel + k) s text = some r := by
  induction fuel with
  | zero => intro s text r h; cases h
  | succ n ih =>
    intro s text r h k
    rw [Nat.succ_add]
    simp only [lexStringLoop] at h ⊢
    split at h
    · rename_i hc; rw [if_pos hc]; exact h
    · rename_i hc; rw [if_neg hc]
      split at h
      · exact h
      · exact ih _ _ _ h k

theorem lexToken_mono {C : Classes} (fuel : Nat) (s : St) (r : Except Err (Tok × St)) (h : lexToken C fuel s = some r) (k : Nat) :
    lexToken C (fuel + k) s = some r := by
  simp only [lexToken] at h ⊢
  by_cases hc : s.now = '\''
  · rw [if_pos hc] at h ⊢; exact lexStringLoop_mono fuel _ _ _ h k
  · rw [if_neg hc] at h ⊢; exact h

theorem getSym_mono {C : Classes} (fuel : Nat) : ∀ s r, getSym C fuel s = some r → ∀ k, getSym C (fuel + k) s = some r := by
  induction fuel with
  | zero => intro s r h; cases h
  | succ n ih =>
    intro s r h k
    rw [Nat.succ_add]
    simp only [getSym] at h ⊢
    split at h
    · rename_i hc; rw [if_pos hc]; exact h
    · rename_i hc; rw [if_neg hc]
      cases h1 : skipWhiteSpace C (n + 1) (fillIfEnd s).1 with
      | none => rw [h1] at h; cases h
      | some s1 =>
        rw [h1] at h
        have h1' := skipWhiteSpace_mono _ _ _ h1 k
        rw [Nat.succ_add] at h1'
        rw [h1']
        simp only [bind, Option.bind] at h ⊢
        cases h2 : skipComment (n + 1) s1 with
        | none => rw [h2] at h; cases h
        | some s2 =>
          rw [h2] at h
          have h2' := skipComment_mono _ _ _ h2 k
          rw [Nat.succ_add] at h2'
          rw [h2']
          simp only at h ⊢
          split at h
          · rename_i h3; rw [if_pos h3]
            have := lexToken_mono (n + 1) s2 r h k
            rw [Nat.succ_add] at this; exact this
          · rename_i h3; rw [if_neg h3]; exact ih _ _ h k

theorem agrees_mono {f : Nat → Option (Except Err (Tok × St))} {n m : Nat} {x : Spec.Next} (h : Agrees f n x) (hnm : n ≤ m) : Agrees f m x := by
  cases x with
  | diverges => exact h
  | raises => intro fuel hf; exact h fuel (by omega)
  | tok t r => obtain ⟨s', a, b, c⟩ := h; exact ⟨s', a, b, fun fuel hf => c fuel (by omega)⟩

/-- `f` is `g` for enough fuel (up to a shift). -/
theorem agrees_of {f g : Nat → Option (Except Err (Tok × St))} {n m d : Nat} {x : Spec.Next}
    (hm : ∀ fuel r, f fuel = some r → ∀ k, f (fuel + k) = some r)
    (h : Agrees g n x) (hfg : ∀ fuel, m < fuel → f fuel = g (fuel - d)) : Agrees f (max m (n + d)) x := by
  cases x with
  | diverges =>
    intro fuel
    cases hf : f fuel with
    | none => rfl
    | some r =>
      have h1 := hm fuel r hf (m + 1)
      rw [hfg _ (by omega), h] at h1; cases h1
  | raises => intro fuel hf; rw [hfg _ (by omega)]; exact h _ (by omega)
  | tok t r =>
    obtain ⟨s', a, b, c⟩ := h
    exact ⟨s', a, b, fun fuel hf => by rw [hfg _ (by omega)]; exact c _ (by omega)⟩

/-- The scanner, started between tokens, does what the specification says. -/
theorem getSym_spec {C : Classes} (hC : Spec.Good C) (m : Nat) : ∀ s, (flat s).length < m → (Full s ∨ s.cur = []) →
    Agrees (fun fuel => getSym C fuel s) (2 * m) (Spec.next C (flat s)) := by
  induction m with
  | zero => intro s h; omega
  | succ m ih =>
    intro s hl hi
    by_cases he : flat s = []
    · rw [he]
      have hs : s = ⟨[], []⟩ := by
        simp only [flat, List.append_eq_nil_iff] at he
        obtain ⟨a, b⟩ := s; simp only at he; rw [he.1, he.2]
      subst hs
      refine ⟨⟨[], []⟩, rfl, Or.inl rfl, ?_⟩
      intro fuel hfu
      obtain ⟨n, rfl⟩ : ∃ n, fuel = n + 1 := ⟨fuel - 1, by omega⟩
      simp only [getSym, fill_eof he, if_true]; rfl
    · obtain ⟨f0, f1, f2, f3⟩ := fill_some he hi
      obtain ⟨s1, g1, g2, g3, g4, g5⟩ := skipWhiteSpace_spec hC (m + 1) (fillIfEnd s).1 (by rw [f1]; exact hl) f2
      rw [f1] at g3 g4
      have hskip : Spec.next C (flat s) = Spec.next C (flat s1) := by simp only [Spec.next, g4]
      -- one round of the loop
      have round : ∀ fuel, m < fuel → getSym C fuel s = (skipComment fuel s1).bind fun s =>
          if s.cur ≠ [] ∧ C.isSpace s.now = false ∧ s.now ≠ '"' then lexToken C fuel s else getSym C (fuel - 1) s := by
        intro fuel hfu
        obtain ⟨n, rfl⟩ : ∃ n, fuel = n + 1 := ⟨fuel - 1, by omega⟩
        simp only [getSym, f0, Bool.false_eq_true, if_false, g1 (n + 1) (by omega)]
        rfl
      -- the loop ends with a token
      have finish : ∀ d ds rest2, Full ⟨d :: ds, rest2⟩ → C.isSpace d = false → d ≠ '"' → (ds ++ rest2).length ≤ m →
          (∀ fuel, m < fuel → getSym C fuel s = lexToken C fuel ⟨d :: ds, rest2⟩) →
          Agrees (fun fuel => getSym C fuel s) (2 * (m + 1)) (Spec.next C (flat ⟨d :: ds, rest2⟩)) := by
        intro d ds rest2 hfull hd1 hd2 hlen key
        have hn : Spec.next C (flat ⟨d :: ds, rest2⟩) = Spec.token C (d :: (ds ++ rest2)) := by
          simp [Spec.next, flat, Spec.skip, hd1, hd2]
        rw [hn]
        exact agrees_mono (agrees_of (d := 0) (fun fuel r h k => getSym_mono fuel s r h k) (token_spec hC hfull hd1) key) (by omega)
      rcases g5 with g5 | ⟨c, cs, g5, g6⟩
      · -- only blanks left
        have hs1 : s1 = ⟨[], []⟩ := by
          simp only [flat, List.append_eq_nil_iff] at g5
          obtain ⟨a, b⟩ := s1; simp only at g5; rw [g5.1, g5.2]
        rw [hskip, g5]
        subst hs1
        refine ⟨⟨[], []⟩, rfl, Or.inl rfl, ?_⟩
        intro fuel hfu
        have hfu' : m < fuel := by omega
        have hc : skipComment fuel ⟨[], []⟩ = some ⟨[], []⟩ := by
          have : ¬ St.now ⟨[], []⟩ = '"' := by decide
          simp only [skipComment, this, if_false]
        simp only [round fuel hfu', hc, Option.bind_some, ne_eq, not_true_eq_false, false_and, if_false]
        obtain ⟨n, hn⟩ : ∃ n, fuel - 1 = n + 1 := ⟨fuel - 2, by omega⟩
        rw [hn]
        simp only [getSym, fill_eof (s := ⟨[], []⟩) rfl, if_true]; rfl
      · obtain ⟨cur1, rest1⟩ := s1
        simp only at g5; subst g5
        have hl1 : (cs ++ rest1).length < m := by simp only [flat, List.cons_append, List.length_cons] at g3 hl; omega
        by_cases hq : c = '"'
        · -- a comment
          subst hq
          obtain ⟨s2, k1, k2, k3, k4⟩ := skipCommentLoop_spec C (m + 1) '"' cs rest1 (by omega) g2
          have hskip2 : Spec.next C (flat s) = Spec.next C (flat s2) := by
            rw [hskip]; simp only [Spec.next, k4]
            simp only [flat, List.cons_append, Spec.skip, g6]
            simp
          rw [hskip2]
          have key : ∀ fuel, m < fuel → getSym C fuel s =
              if s2.cur ≠ [] ∧ C.isSpace s2.now = false ∧ s2.now ≠ '"' then lexToken C fuel s2 else getSym C (fuel - 1) s2 := by
            intro fuel hfu
            rw [round fuel hfu]
            simp only [skipComment, now_cons, if_true, k1 fuel (by omega), Option.bind_some]
          have hl2 : (flat s2).length < m := by
            simp only [flat, List.cons_append, List.length_cons] at k3 ⊢; omega
          by_cases hc2 : s2.cur ≠ [] ∧ C.isSpace s2.now = false ∧ s2.now ≠ '"'
          · simp only [if_pos hc2] at key
            obtain ⟨cur2, rest2⟩ := s2
            cases cur2 with
            | nil => exact absurd rfl hc2.1
            | cons d ds =>
              have full2 : Full ⟨d :: ds, rest2⟩ := by
                rcases k2 with k2 | k2
                · exact k2
                · simp at k2
              exact finish d ds rest2 full2 hc2.2.1 hc2.2.2 (by simp only [flat, List.cons_append, List.length_cons] at hl2; omega) key
          · simp only [if_neg hc2] at key
            exact agrees_mono (agrees_of (d := 1) (fun fuel r h k => getSym_mono fuel s r h k) (ih s2 hl2 k2) key) (by omega)
        · rw [hskip]
          refine finish c cs rest1 g2 g6 hq (by omega) ?_
          intro fuel hfu
          rw [round fuel hfu]
          have h1 : skipComment fuel ⟨c :: cs, rest1⟩ = some ⟨c :: cs, rest1⟩ := by simp only [skipComment, now_cons, hq, if_false]
          rw [h1, Option.bind_some]
          rw [if_pos ⟨by simp, g6, hq⟩]

end PySOM.Lex

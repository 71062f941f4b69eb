import Verif.Props.Lexer
import Verif.Spec.Position
/-! Helper lemmas: the scanner with its buffer refines the one without, and its positions. -/
set_option autoImplicit false
namespace PySOM.Pos
open PySOM PySOM.Lex

/-- The state of `Model/Lexer`. -/
def Scan.abs (s : Scan) : St := ⟨s.cur, s.rest⟩

/-! ## Refinement -/

theorem char_abs (s : Scan) (k : Nat) : s.abs.char k = s.char k := by
  simp [Scan.abs, St.char, Scan.char, Scan.cur, List.getD_eq_getElem?_getD, List.getElem?_drop]

theorem now_abs (s : Scan) : s.abs.now = s.now := char_abs s 0

theorem cur_advance (s : Scan) (k : Nat) : (s.advance k).cur = s.cur.drop k := by
  simp [Scan.advance, Scan.cur, List.drop_drop]

theorem advance_abs (s : Scan) (k : Nat) : (s.advance k).abs = s.abs.advance k := by
  simp only [Scan.abs, cur_advance, St.advance]; rfl

theorem atEnd_iff (s : Scan) : s.atEnd = true ↔ s.cur = [] := by
  simp [Scan.atEnd, Scan.cur, List.drop_eq_nil_iff]

theorem atEnd_false (s : Scan) : s.atEnd = false ↔ s.cur ≠ [] := by
  rw [← Bool.not_eq_true, atEnd_iff]

theorem fill_abs (s : Scan) : (s.fillIfEnd.1.abs, s.fillIfEnd.2) = Lex.fillIfEnd s.abs := by
  simp only [Scan.fillIfEnd, Lex.fillIfEnd]
  by_cases h : s.cur = []
  · rw [if_pos ((atEnd_iff s).2 h), if_pos (show s.abs.cur = [] from h)]
    by_cases hr : s.rest = []
    · rw [if_pos (show s.abs.rest = [] from hr)]
      simp only [Scan.fill, hr, Lex.line, if_true]
      simp [Scan.abs, Scan.cur, hr, show List.drop s.bufp s.buf = [] from h]
    · rw [if_neg (show ¬ s.abs.rest = [] from hr)]
      simp only [Scan.fill, line_ne_nil hr, if_false]
      rfl
  · rw [if_neg (show ¬ s.abs.cur = [] from h), if_neg (by rw [atEnd_iff]; exact h)]

theorem fill_abs1 (s : Scan) : s.fillIfEnd.1.abs = (Lex.fillIfEnd s.abs).1 := by rw [← fill_abs]
theorem fill_abs2 (s : Scan) : s.fillIfEnd.2 = (Lex.fillIfEnd s.abs).2 := by rw [← fill_abs]

theorem skipWhiteSpace_abs (C : Classes) (n : Nat) : ∀ s : Scan, Lex.skipWhiteSpace C n s.abs = (skipWhiteSpace C n s).map Scan.abs := by
  induction n with
  | zero => intro s; rfl
  | succ n ih =>
    intro s
    simp only [Lex.skipWhiteSpace, skipWhiteSpace, now_abs]
    by_cases h : C.isSpace s.now = true
    · rw [if_pos h, if_pos h, ← advance_abs, ← fill_abs1, ← fill_abs2]
      by_cases h2 : (s.advance 1).fillIfEnd.2 = true
      · rw [if_pos h2, if_pos h2]; rfl
      · rw [if_neg h2, if_neg h2, ih]
    · rw [if_neg h, if_neg h]; rfl

theorem skipCommentLoop_abs (n : Nat) : ∀ s : Scan, Lex.skipCommentLoop n s.abs = (skipCommentLoop n s).map Scan.abs := by
  induction n with
  | zero => intro s; rfl
  | succ n ih =>
    intro s
    simp only [Lex.skipCommentLoop, skipCommentLoop]
    rw [← advance_abs, ← fill_abs1, ← fill_abs2, now_abs]
    by_cases h2 : (s.advance 1).fillIfEnd.2 = true
    · rw [if_pos h2, if_pos h2]; rfl
    · rw [if_neg h2, if_neg h2]
      by_cases h : (s.advance 1).fillIfEnd.1.now = '"'
      · rw [if_pos h, if_pos h, ← advance_abs]; rfl
      · rw [if_neg h, if_neg h, ih]

theorem skipComment_abs (n : Nat) (s : Scan) : Lex.skipComment n s.abs = (skipComment n s).map Scan.abs := by
  simp only [Lex.skipComment, skipComment, now_abs]
  by_cases h : s.now = '"'
  · rw [if_pos h, if_pos h, skipCommentLoop_abs]
  · rw [if_neg h, if_neg h]; rfl

theorem drop_of_append {a b l : List Char} (h : a ++ b = l) : l.drop a.length = b := by subst h; exact List.drop_left

theorem spanLoop_append (p : Char → Bool) (l : List Char) : (spanLoop p l).1 ++ (spanLoop p l).2 = l := by
  induction l with
  | nil => rfl
  | cons c cs ih =>
    simp only [spanLoop]
    by_cases h : p c = true
    · rw [if_pos h]; simp [ih]
    · rw [if_neg h]; rfl

theorem spanLoop_all (p : Char → Bool) (l : List Char) : ∀ c ∈ (spanLoop p l).1, p c = true := by
  induction l with
  | nil => intro c hc; simp [spanLoop] at hc
  | cons d cs ih =>
    simp only [spanLoop]
    by_cases h : p d = true
    · rw [if_pos h]; intro c hc
      rcases List.mem_cons.1 hc with rfl | hc
      · exact h
      · exact ih c hc
    · rw [if_neg h]; intro c hc; simp at hc

theorem spanLoop_drop (p : Char → Bool) (l : List Char) : l.drop (spanLoop p l).1.length = (spanLoop p l).2 := by
  exact drop_of_append (spanLoop_append p l)

theorem numberLoop_append (C : Classes) (saw : Bool) (l : List Char) : (numberLoop C saw l).2.1 ++ (numberLoop C saw l).2.2 = l := by
  fun_induction numberLoop C saw l <;> simp_all +zetaDelta

theorem numberLoop_all (C : Classes) (saw : Bool) (l : List Char) : ∀ c ∈ (numberLoop C saw l).2.1, C.isDigit c = true ∨ c = '.' := by
  fun_induction numberLoop C saw l <;> simp_all +zetaDelta

theorem numberLoop_drop (C : Classes) (saw : Bool) (l : List Char) : l.drop (numberLoop C saw l).2.1.length = (numberLoop C saw l).2.2 := by
  exact drop_of_append (numberLoop_append C saw l)

theorem span_abs (p : Char → Bool) (s : Scan) : (span p s).2.abs = { s.abs with cur := (spanLoop p s.cur).2 } := by
  simp only [span, Scan.abs, cur_advance, spanLoop_drop]; rfl

theorem span_fst (p : Char → Bool) (s : Scan) : (span p s).1 = (spanLoop p s.cur).1 := rfl

/-- The abstraction of a token with the state. -/
def absTok (r : Tok × Scan) : Tok × St := (r.1, r.2.abs)

theorem lexOperator_abs (s : Scan) : Lex.lexOperator s.abs = absTok (lexOperator s) := by
  simp only [Lex.lexOperator, lexOperator, now_abs, char_abs]
  by_cases h : isOperator (s.char 1) = true
  · rw [if_pos h, if_pos h, absTok, span_abs]; rfl
  · rw [if_neg h, if_neg h, absTok, advance_abs]

theorem lexStringChar_abs (s : Scan) : Lex.lexStringChar s.abs = (lexStringChar s).map fun r => (r.1, r.2.abs) := by
  simp only [Lex.lexStringChar, lexStringChar, now_abs]
  by_cases h : s.now = '\\'
  · rw [if_pos h, if_pos h]
    simp only [← advance_abs, now_abs, ← fill_abs1]
    by_cases he : (s.advance 1).cur = []
    · rw [if_pos (show (s.advance 1).abs.cur = [] from he), if_pos ((atEnd_iff _).2 he)]; rfl
    · rw [if_neg (show ¬ (s.advance 1).abs.cur = [] from he), if_neg (by rw [atEnd_iff]; exact he)]; rfl
  · rw [if_neg h, if_neg h, ← advance_abs, ← fill_abs1]; rfl

theorem lexStringLoop_abs (n : Nat) : ∀ (s : Scan) (text : List Char),
    Lex.lexStringLoop n s.abs text = (lexStringLoop n s text).map (·.map absTok) := by
  induction n with
  | zero => intro s text; rfl
  | succ n ih =>
    intro s text
    simp only [Lex.lexStringLoop, lexStringLoop, now_abs]
    by_cases h : s.now = '\''
    · rw [if_pos h, if_pos h, ← advance_abs]; rfl
    · rw [if_neg h, if_neg h, lexStringChar_abs]
      cases hc : lexStringChar s with
      | error e => rfl
      | ok r => exact ih r.2 (text ++ r.1)

theorem nextWordIs_abs (C : Classes) (w : List Char) (s : Scan) : Lex.nextWordIs C w s.abs = nextWordIs C w s := by
  simp only [Lex.nextWordIs, nextWordIs, char_abs]; rfl

theorem now_eq (s : Scan) : s.now = s.cur.getD 0 '\x00' := by rw [← now_abs]; rfl

theorem lexWord_abs (C : Classes) (s : Scan) : Lex.lexWord C s.abs = absTok (lexWord C s) := by
  simp only [Lex.lexWord, lexWord]
  have hcur : (span (fun c => C.isAlnum c || c == '_') s).2.cur = (spanLoop (fun c => C.isAlnum c || c == '_') s.cur).2 :=
    congrArg St.cur (span_abs _ s)
  have hrest : ∀ p, (span p s).2.rest = s.rest := fun _ => rfl
  have e : s.abs.cur = s.cur := rfl
  rw [e]
  cases hq : (spanLoop (fun c => C.isAlnum c || c == '_') s.cur).2 with
  | nil =>
    rw [hq] at hcur
    have : (span (fun c => C.isAlnum c || c == '_') s).2.now = '\x00' := by rw [now_eq, hcur]; rfl
    rw [if_neg (by rw [this]; decide)]
    simp only [absTok, span_abs, hq]; rfl
  | cons c cs =>
    rw [hq] at hcur
    have hn : (span (fun c => C.isAlnum c || c == '_') s).2.now = c := by rw [now_eq, hcur]; rfl
    by_cases hc : c = ':'
    · subst hc
      rw [if_pos hn]
      have hadv : ((span (fun c => C.isAlnum c || c == '_') s).2.advance 1).cur = cs := by rw [cur_advance, hcur]; rfl
      have hn2 : ((span (fun c => C.isAlnum c || c == '_') s).2.advance 1).now = cs.getD 0 '\x00' := by rw [now_eq, hadv]
      rw [hn2]
      simp only
      by_cases ha : C.isAlpha (cs.getD 0 '\x00') = true
      · rw [if_pos ha, if_pos ha]
        simp only [absTok, span_abs, span_fst, hadv]
        rfl
      · rw [if_neg ha, if_neg ha]
        simp only [absTok, Scan.abs, hadv]
        rfl
    · rw [if_neg (by rw [hn]; exact hc)]
      simp only [absTok, span_abs, hq]
      split
      · rename_i h; cases h; exact absurd rfl hc
      · rfl

theorem lexNumber_abs (C : Classes) (s : Scan) :
    ((⟨if (numberLoop C false s.abs.cur).1 then .double else .integer, (numberLoop C false s.abs.cur).2.1⟩ : Tok),
      ({ s.abs with cur := (numberLoop C false s.abs.cur).2.2 } : St)) = absTok (lexNumber C s) := by
  simp only [lexNumber, absTok, Scan.abs, cur_advance, numberLoop_drop]; rfl

theorem lexToken_abs (C : Classes) (fuel : Nat) (s : Scan) : Lex.lexToken C fuel s.abs = (lexToken C fuel s).map (·.map absTok) := by
  have hm : ∀ (t : Tok) (k : Nat), Lex.ok (t, s.abs.advance k) = (Lex.ok (t, s.advance k)).map (·.map absTok) := by
    intro t k; rw [← advance_abs]; rfl
  simp only [Lex.lexToken, lexToken, now_abs, char_abs, nextWordIs_abs]
  by_cases h0 : s.now = '\''
  · rw [if_pos h0, if_pos h0, ← advance_abs, lexStringLoop_abs]
  rw [if_neg h0, if_neg h0]
  by_cases h1 : s.now = '['
  · rw [if_pos h1, if_pos h1]; exact hm _ _
  rw [if_neg h1, if_neg h1]
  by_cases h2 : s.now = ']'
  · rw [if_pos h2, if_pos h2]; exact hm _ _
  rw [if_neg h2, if_neg h2]
  by_cases h3 : s.now = ':'
  · rw [if_pos h3, if_pos h3]
    by_cases h3' : s.char 1 = '='
    · rw [if_pos h3', if_pos h3']; exact hm _ _
    · rw [if_neg h3', if_neg h3']; exact hm _ _
  rw [if_neg h3, if_neg h3]
  by_cases h4 : s.now = '('
  · rw [if_pos h4, if_pos h4]; exact hm _ _
  rw [if_neg h4, if_neg h4]
  by_cases h5 : s.now = ')'
  · rw [if_pos h5, if_pos h5]; exact hm _ _
  rw [if_neg h5, if_neg h5]
  by_cases h6 : s.now = '#'
  · rw [if_pos h6, if_pos h6]; exact hm _ _
  rw [if_neg h6, if_neg h6]
  by_cases h7 : s.now = '^'
  · rw [if_pos h7, if_pos h7]; exact hm _ _
  rw [if_neg h7, if_neg h7]
  by_cases h8 : s.now = '.'
  · rw [if_pos h8, if_pos h8]; exact hm _ _
  rw [if_neg h8, if_neg h8]
  by_cases h9 : s.now = '-'
  · rw [if_pos h9, if_pos h9]
    by_cases h9' : List.isPrefixOf ['-', '-', '-', '-'] s.cur = true
    · rw [if_pos (show List.isPrefixOf ['-', '-', '-', '-'] s.abs.cur = true from h9'), if_pos h9']
      simp only [Lex.ok, Option.map, Except.map, absTok, span_abs]; rfl
    · rw [if_neg (show ¬ List.isPrefixOf ['-', '-', '-', '-'] s.abs.cur = true from h9'), if_neg h9', lexOperator_abs]; rfl
  rw [if_neg h9, if_neg h9]
  by_cases h10 : isOperator s.now = true
  · rw [if_pos h10, if_pos h10, lexOperator_abs]; rfl
  rw [if_neg h10, if_neg h10]
  by_cases h11 : nextWordIs C primitiveWord s = true
  · rw [if_pos h11, if_pos h11]; exact hm _ _
  rw [if_neg h11, if_neg h11]
  by_cases h12 : C.isAlpha s.now = true
  · rw [if_pos h12, if_pos h12, lexWord_abs]; rfl
  rw [if_neg h12, if_neg h12]
  by_cases h13 : C.isDigit s.now = true
  · rw [if_pos h13, if_pos h13, lexNumber_abs]; rfl
  rw [if_neg h13, if_neg h13]
  rfl

/-- The scanner with its buffer does what the scanner of `Model/Lexer` does. -/
theorem getSym_abs (C : Classes) (n : Nat) : ∀ s : Scan, Lex.getSym C n s.abs = (getSym C n s).map (·.map absTok) := by
  induction n with
  | zero => intro s; rfl
  | succ n ih =>
    intro s
    simp only [Lex.getSym, getSym, ← fill_abs1, ← fill_abs2]
    by_cases h : s.fillIfEnd.2 = true
    · rw [if_pos h, if_pos h]; rfl
    · rw [if_neg h, if_neg h, skipWhiteSpace_abs]
      cases h1 : skipWhiteSpace C (n + 1) s.fillIfEnd.1 with
      | none => rfl
      | some s1 =>
        simp only [Option.map, Option.bind_eq_bind, Option.bind, skipComment_abs]
        cases h2 : skipComment (n + 1) s1 with
        | none => rfl
        | some s2 =>
          simp only [now_abs]
          by_cases h3 : s2.atEnd = false ∧ C.isSpace s2.now = false ∧ s2.now ≠ '"'
          · rw [if_pos h3, if_pos ⟨(atEnd_false s2).1 h3.1, h3.2⟩, lexToken_abs]; rfl
          · rw [if_neg h3, if_neg (fun hh => h3 ⟨(atEnd_false s2).2 hh.1, hh.2⟩), ih]; rfl

/-! ## Positions -/

/-- The scanner stands in the line after `before`. -/
structure At (T : List Char) (s : Scan) (before : List Char) : Prop where
  text : T = before ++ (s.buf ++ s.rest)
  read : s.read = before.length
  line : s.line = before.count '\n' + 1
  whole : before = [] ∨ ∃ w, before = w ++ ['\n']
  ne : s.buf ≠ []
  le : s.bufp ≤ s.buf.length
  shape : (∃ w, s.buf = w ++ ['\n'] ∧ '\n' ∉ w) ∨ (s.rest = [] ∧ '\n' ∉ s.buf)

/-- It has not passed the end of the line. -/
def Mid (s : Scan) : Prop := '\n' ∉ s.buf.take s.bufp

/-- The scanner has reached the end of the text. -/
structure Eof (T : List Char) (s : Scan) : Prop where
  buf : s.buf = []
  rest : s.rest = []
  read : s.read = T.length
  empty : T = [] → s.line = 0 ∧ s.bufp = 0
  last : T ≠ [] → s.line = Spec.lineOf T.dropLast ∧ s.bufp = Spec.columnOf T.dropLast

theorem line_shape (t : List Char) (h : t ≠ []) : (∃ w, Lex.line t = w ++ ['\n'] ∧ '\n' ∉ w) ∨ (afterLine t = [] ∧ '\n' ∉ Lex.line t) := by
  induction t with
  | nil => exact absurd rfl h
  | cons c cs ih =>
    simp only [Lex.line, afterLine]
    by_cases hc : c = '\n'
    · rw [if_pos hc]; exact Or.inl ⟨[], rfl, by simp⟩
    · rw [if_neg hc, if_neg hc]
      by_cases hcs : cs = []
      · subst hcs; right; simp [afterLine, Lex.line, Ne.symm hc]
      · rcases ih hcs with ⟨w, h1, h2⟩ | ⟨h1, h2⟩
        · left; exact ⟨c :: w, by rw [h1]; rfl, by simp [h2, Ne.symm hc]⟩
        · right; exact ⟨h1, by simp [h2, Ne.symm hc]⟩

theorem At.advance {T : List Char} {s : Scan} {b : List Char} (h : At T s b) (k : Nat) (hk : k ≤ s.cur.length) : At T (s.advance k) b := by
  refine ⟨h.text, h.read, h.line, h.whole, h.ne, ?_, h.shape⟩
  have := h.le
  simp only [Scan.cur, List.length_drop] at hk
  show s.bufp + k ≤ s.buf.length
  omega

theorem Mid.advance {s : Scan} (h : Mid s) (k : Nat) (hk : '\n' ∉ s.cur.take k) : Mid (s.advance k) := by
  unfold Mid at *
  show '\n' ∉ s.buf.take (s.bufp + k)
  rw [List.take_add]
  simp only [List.mem_append, not_or]
  exact ⟨h, hk⟩

theorem At.mid {T : List Char} {s : Scan} {b : List Char} (h : At T s b) (hc : s.cur ≠ []) : Mid s := by
  unfold Mid
  have hl : s.bufp < s.buf.length := by
    apply Nat.lt_of_not_le
    intro hl
    exact hc (List.drop_eq_nil_iff.2 hl)
  rcases h.shape with ⟨w, h1, h2⟩ | ⟨_, h2⟩
  · rw [h1] at hl ⊢
    have : s.bufp ≤ w.length := by simp at hl; omega
    rw [List.take_append_of_le_length this]
    intro hm; exact h2 (List.mem_of_mem_take hm)
  · intro hm; exact h2 (List.mem_of_mem_take hm)

theorem lastLine_append {b w : List Char} (hb : b = [] ∨ ∃ v, b = v ++ ['\n']) (hw : '\n' ∉ w) : Spec.lastLine (b ++ w) = w := by
  unfold Spec.lastLine
  rw [List.reverse_append, List.takeWhile_append_of_pos]
  · rcases hb with rfl | ⟨v, rfl⟩
    · simp
    · simp
  · intro a ha
    have : a ∈ w := List.mem_reverse.1 ha
    simp only [bne_iff_ne, ne_eq]
    rintro rfl; exact hw this

theorem count_zero {w : List Char} (h : '\n' ∉ w) : w.count '\n' = 0 := List.count_eq_zero.2 h

theorem firstLine_of {s : Scan} {T b : List Char} (h : At T s b) (hm : Mid s) : Spec.firstLine (s.cur ++ s.rest) = s.cur := by
  have key : ∀ w r : List Char, '\n' ∉ w → Spec.firstLine (w ++ '\n' :: r) = w ++ ['\n'] := by
    intro w
    induction w with
    | nil => intro r _; simp [Spec.firstLine]
    | cons c w ih =>
      intro r hw
      simp only [List.mem_cons, not_or] at hw
      simp only [List.cons_append, Spec.firstLine]
      rw [if_neg (Ne.symm hw.1), ih r hw.2]
  have key2 : ∀ w : List Char, '\n' ∉ w → Spec.firstLine w = w := by
    intro w
    induction w with
    | nil => intro _; rfl
    | cons c w ih =>
      intro hw
      simp only [List.mem_cons, not_or] at hw
      simp only [Spec.firstLine]
      rw [if_neg (Ne.symm hw.1), ih hw.2]
  rcases h.shape with ⟨w, h1, h2⟩ | ⟨h1, h2⟩
  · have hle : s.bufp ≤ w.length := by
      apply Nat.le_of_lt_succ
      apply Nat.lt_of_not_le
      intro hl
      apply hm
      rw [h1, List.take_of_length_le (by simpa using hl)]
      simp
    have hc : s.cur = w.drop s.bufp ++ ['\n'] := by
      simp only [Scan.cur, h1]
      rw [List.drop_append_of_le_length hle]
    rw [hc, List.append_assoc]
    apply key
    intro hh; exact h2 (List.mem_of_mem_drop hh)
  · rw [h1, List.append_nil]
    apply key2
    intro hh; exact h2 (List.mem_of_mem_drop hh)

/-- The position. -/
theorem At.position {T : List Char} {s : Scan} {b : List Char} (h : At T s b) (hm : Mid s) :
    ∃ pre post, T = pre ++ post ∧ flat s.abs = post ∧ s.coord = Spec.position pre ∧ s.buf = Spec.lastLine pre ++ Spec.firstLine post := by
  refine ⟨b ++ s.buf.take s.bufp, s.cur ++ s.rest, ?_, rfl, ?_, ?_⟩
  · rw [h.text, List.append_assoc, ← List.append_assoc (s.buf.take s.bufp), show s.buf.take s.bufp ++ s.cur = s.buf from List.take_append_drop _ _]
  · have hl := lastLine_append h.whole hm
    simp only [Scan.coord, Spec.position, Spec.lineOf, Spec.columnOf, hl, List.count_append, count_zero hm, List.length_append, List.length_take,
      Nat.min_eq_left h.le, h.read, h.line]
  · rw [lastLine_append h.whole hm, firstLine_of h hm]
    exact (List.take_append_drop _ _).symm

/-- States between tokens. -/
def Ok (T : List Char) (s : Scan) : Prop := s = .init T ∨ (∃ b, At T s b) ∨ Eof T s

theorem fill_ok {T : List Char} {s : Scan} (h : Ok T s) :
    (s.fillIfEnd.2 = true → Eof T s.fillIfEnd.1) ∧ (s.fillIfEnd.2 = false → (∃ b, At T s.fillIfEnd.1 b) ∧ s.fillIfEnd.1.cur ≠ []) := by
  by_cases hc : s.cur = []
  · rw [Scan.fillIfEnd, if_pos ((atEnd_iff s).2 hc)]
    simp only [Scan.fill]
    by_cases hl : Lex.line s.rest = []
    · rw [if_pos hl]
      refine ⟨fun _ => ?_, fun hh => by cases hh⟩
      have hr : s.rest = [] := by
        apply Classical.byContradiction; intro hr; exact line_ne_nil hr hl
      rcases h with rfl | ⟨b, ha⟩ | he
      · have hT : T = [] := hr
        subst hT
        exact ⟨rfl, rfl, rfl, fun _ => ⟨rfl, rfl⟩, fun hh => absurd rfl hh⟩
      · have hT : T = b ++ s.buf := by rw [ha.text, hr, List.append_nil]
        have hp : s.bufp = s.buf.length := Nat.le_antisymm ha.le (List.drop_eq_nil_iff.1 hc)
        have hne : T ≠ [] := by rw [hT]; simp [ha.ne]
        refine ⟨hl, hr, ?_, fun hh => absurd hh hne, fun _ => ?_⟩
        · show s.read + s.buf.length = T.length
          rw [ha.read, hT, List.length_append]
        · show s.line = _ ∧ s.bufp = _
          have hd : T.dropLast = b ++ s.buf.dropLast := by rw [hT, List.dropLast_append_of_ne_nil ha.ne]
          have hn : '\n' ∉ s.buf.dropLast := by
            rcases ha.shape with ⟨w, h1, h2⟩ | ⟨_, h2⟩
            · rw [h1]; simpa using h2
            · intro hh; exact h2 (List.dropLast_subset _ hh)
          have hpos := List.length_pos_iff.2 ha.ne
          rw [hd]
          rw [Spec.lineOf, Spec.columnOf, lastLine_append ha.whole hn, List.count_append, count_zero hn, ha.line, hp, List.length_dropLast]
          exact ⟨rfl, by omega⟩
      · refine ⟨hl, he.rest, ?_, he.empty, he.last⟩
        show s.read + s.buf.length = T.length
        rw [he.buf, he.read]; rfl
    · rw [if_neg hl]
      refine ⟨fun hh => (nomatch hh), fun _ => ⟨?_, by simpa [Scan.cur] using hl⟩⟩
      have hr : s.rest ≠ [] := by rintro hr; rw [hr] at hl; exact hl rfl
      rcases h with rfl | ⟨b, ha⟩ | he
      · refine ⟨[], ?_, rfl, rfl, Or.inl rfl, hl, Nat.zero_le _, ?_⟩
        · exact (line_append T).symm
        · exact line_shape T hr
      · have hp : s.bufp = s.buf.length := Nat.le_antisymm ha.le (List.drop_eq_nil_iff.1 hc)
        obtain ⟨w, h1, h2⟩ := ha.shape.resolve_right (fun hh => hr hh.1)
        refine ⟨b ++ s.buf, ?_, ?_, ?_, ?_, hl, Nat.zero_le _, ?_⟩
        · show T = (b ++ s.buf) ++ (Lex.line s.rest ++ afterLine s.rest)
          rw [line_append, List.append_assoc]; exact ha.text
        · show s.read + s.buf.length = _
          rw [ha.read, List.length_append]
        · show s.line + 1 = _
          rw [ha.line, List.count_append, h1, List.count_append, count_zero h2]; simp
        · right; exact ⟨b ++ w, by rw [h1, List.append_assoc]⟩
        · exact line_shape s.rest hr
      · exact absurd he.rest hr
  · have : s.fillIfEnd = (s, false) := by rw [Scan.fillIfEnd, if_neg (by rw [atEnd_iff]; exact hc)]
    rw [this]
    refine ⟨fun hh => (nomatch hh), fun _ => ⟨?_, hc⟩⟩
    rcases h with rfl | ha | he
    · exact absurd rfl hc
    · exact ha
    · exact absurd (by simp [Scan.cur, he.buf]) hc

theorem now_ne {s : Scan} {c : Char} (h : s.now = c) (hc : c ≠ '\x00') : s.cur ≠ [] := by
  intro he; rw [now_eq, he] at h; exact hc h.symm

theorem cur_pos {s : Scan} (h : s.cur ≠ []) : 1 ≤ s.cur.length := List.length_pos_iff.2 h

theorem skipWhiteSpace_ok {C : Classes} (hC : Lex.Spec.Good C) {T : List Char} (n : Nat) : ∀ s s', (∃ b, At T s b) → skipWhiteSpace C n s = some s' → (∃ b, At T s' b) ∨ Eof T s' := by
  induction n with
  | zero => intro s s' _ h; cases h
  | succ n ih =>
    intro s s' ⟨b, ha⟩ h
    simp only [skipWhiteSpace] at h
    by_cases hs : C.isSpace s.now = true
    · rw [if_pos hs] at h
      have hne : s.cur ≠ [] := by
        intro he
        have : s.now = '\x00' := by rw [now_eq, he]; rfl
        rw [this, (hC.punct '\x00' (Or.inl rfl)).2] at hs; cases hs
      have hf := fill_ok (Or.inr (Or.inl ⟨b, ha.advance 1 (cur_pos hne)⟩))
      by_cases h2 : (s.advance 1).fillIfEnd.2 = true
      · rw [if_pos h2] at h
        cases h
        exact Or.inr (hf.1 h2)
      · rw [if_neg h2] at h
        exact ih _ _ (hf.2 (by simpa using h2)).1 h
    · rw [if_neg hs] at h
      cases h
      exact Or.inl ⟨b, ha⟩

theorem skipCommentLoop_ok {T : List Char} (n : Nat) : ∀ s s', (∃ b, At T s b) → s.cur ≠ [] → skipCommentLoop n s = some s' → (∃ b, At T s' b) ∨ Eof T s' := by
  induction n with
  | zero => intro s s' _ _ h; cases h
  | succ n ih =>
    intro s s' ⟨b, ha⟩ hne h
    simp only [skipCommentLoop] at h
    have hf := fill_ok (Or.inr (Or.inl ⟨b, ha.advance 1 (cur_pos hne)⟩))
    by_cases h2 : (s.advance 1).fillIfEnd.2 = true
    · rw [if_pos h2] at h
      cases h
      exact Or.inr (hf.1 h2)
    · rw [if_neg h2] at h
      obtain ⟨⟨b', hb⟩, hn⟩ := hf.2 (by simpa using h2)
      by_cases hq : (s.advance 1).fillIfEnd.1.now = '"'
      · rw [if_pos hq] at h
        cases h
        exact Or.inl ⟨b', hb.advance 1 (cur_pos hn)⟩
      · rw [if_neg hq] at h
        exact ih _ _ ⟨b', hb⟩ hn h

theorem skipComment_ok {T : List Char} (n : Nat) (s s' : Scan) (ha : (∃ b, At T s b) ∨ Eof T s) (h : skipComment n s = some s') : (∃ b, At T s' b) ∨ Eof T s' := by
  simp only [skipComment] at h
  by_cases hq : s.now = '"'
  · rw [if_pos hq] at h
    have hne := now_ne hq (by decide)
    rcases ha with ha | he
    · exact skipCommentLoop_ok n s s' ha hne h
    · exact absurd (by simp [Scan.cur, he.buf]) hne
  · rw [if_neg hq] at h
    cases h
    exact ha

/-- In the middle of a line. -/
def Inside (T : List Char) (s : Scan) : Prop := ∃ b, At T s b ∧ Mid s

theorem Inside.advance {T : List Char} {s : Scan} (h : Inside T s) (k : Nat) (hk : k ≤ s.cur.length) (hn : '\n' ∉ s.cur.take k) : Inside T (s.advance k) := by
  obtain ⟨b, ha, hm⟩ := h
  exact ⟨b, ha.advance k hk, hm.advance k hn⟩

theorem Inside.one {T : List Char} {s : Scan} (h : Inside T s) {c : Char} (hc : s.now = c) (h0 : c ≠ '\x00') (hn : c ≠ '\n') : Inside T (s.advance 1) := by
  have hne := now_ne hc h0
  refine h.advance 1 (cur_pos hne) ?_
  cases hcur : s.cur with
  | nil => exact absurd hcur hne
  | cons d ds =>
    rw [now_eq, hcur] at hc
    have hd : d = c := hc
    subst hd
    simp [Ne.symm hn]

theorem Inside.prefix {T : List Char} {s : Scan} (h : Inside T s) (w r : List Char) (hw : w ++ r = s.cur) (hn : '\n' ∉ w) : Inside T (s.advance w.length) := by
  refine h.advance _ (by rw [← hw, List.length_append]; omega) ?_
  rw [← hw, List.take_left]; exact hn

theorem Inside.span {T : List Char} {s : Scan} (h : Inside T s) (p : Char → Bool) (hp : p '\n' = false) : Inside T (span p s).2 := by
  refine h.prefix _ _ (spanLoop_append p s.cur) ?_
  intro hh
  have := spanLoop_all p s.cur _ hh
  rw [hp] at this; cases this

theorem newline_not {C : Classes} (hC : Lex.Spec.Good C) : C.isAlnum '\n' = false := by
  cases h : C.isAlnum '\n' with
  | false => rfl
  | true => have := hC.alnum_not_space _ h; rw [hC.space_newline] at this; cases this
theorem newline_not_alpha {C : Classes} (hC : Lex.Spec.Good C) : C.isAlpha '\n' = false := by
  cases h : C.isAlpha '\n' with
  | false => rfl
  | true => have := hC.alpha_alnum _ h; rw [newline_not hC] at this; cases this
theorem newline_not_digit {C : Classes} (hC : Lex.Spec.Good C) : C.isDigit '\n' = false := by
  cases h : C.isDigit '\n' with
  | false => rfl
  | true => have := hC.digit_alnum _ h; rw [newline_not hC] at this; cases this

theorem lexOperator_ok {T : List Char} {s : Scan} (h : Inside T s) (ho : isOperator s.now = true) : Inside T (lexOperator s).2 := by
  simp only [lexOperator]
  by_cases h1 : isOperator (s.char 1) = true
  · rw [if_pos h1]; exact h.span _ newline_not_op
  · rw [if_neg h1]
    refine h.one rfl ?_ ?_
    · intro hh; rw [hh] at ho; exact absurd ho (by decide)
    · intro hh; rw [hh] at ho; exact absurd ho (by decide)

theorem lexWord_ok {C : Classes} (hC : Lex.Spec.Good C) {T : List Char} {s : Scan} (h : Inside T s) : Inside T (lexWord C s).2 := by
  have hp : (fun c => C.isAlnum c || c == '_') '\n' = false := by simp [newline_not hC]
  have hq : (fun c => C.isAlpha c || c == ':') '\n' = false := by simp [newline_not_alpha hC]
  have h1 := h.span (fun c => C.isAlnum c || c == '_') hp
  simp only [lexWord]
  by_cases hc : (span (fun c => C.isAlnum c || c == '_') s).2.now = ':'
  · rw [if_pos hc]
    have h2 := h1.one hc (by decide) (by decide)
    by_cases ha : C.isAlpha ((span (fun c => C.isAlnum c || c == '_') s).2.advance 1).now = true
    · rw [if_pos ha]; exact h2.span _ hq
    · rw [if_neg ha]; exact h2
  · rw [if_neg hc]; exact h1

theorem lexNumber_ok {C : Classes} (hC : Lex.Spec.Good C) {T : List Char} {s : Scan} (h : Inside T s) : Inside T (lexNumber C s).2 := by
  refine h.prefix _ _ (numberLoop_append C false s.cur) ?_
  intro hh
  rcases numberLoop_all C false s.cur _ hh with h | h
  · rw [newline_not_digit hC] at h; cases h
  · exact absurd h (by decide)

theorem fill_at_end {s : Scan} (h : s.atEnd = true) (hr : s.rest = []) : s.fillIfEnd.1.buf = [] ∧ s.fillIfEnd.1.rest = [] := by
  simp [Scan.fillIfEnd, h, Scan.fill, hr, Lex.line]

theorem operatorSym_ne (c : Char) : operatorSym c ≠ .none := by
  have key : ∀ (p : Prop) [Decidable p] (a b : Sym), a ≠ .none → b ≠ .none → (if p then a else b) ≠ .none := by
    intro p _ a b ha hb
    by_cases h : p
    · rw [if_pos h]; exact ha
    · rw [if_neg h]; exact hb
  unfold operatorSym
  repeat (refine key _ _ _ (by decide) ?_)
  decide

theorem lexStringLoop_eof (n : Nat) : ∀ (s : Scan) (text : List Char), s.buf = [] → s.rest = [] → lexStringLoop n s text = none := by
  induction n with
  | zero => intro _ _ _ _; rfl
  | succ n ih =>
    intro s text hb hr
    have hnow : s.now = '\x00' := by simp [Scan.now, Scan.char, hb]
    simp only [lexStringLoop, lexStringChar, hnow]
    rw [if_neg (by decide), if_neg (by decide)]
    have hae : (s.advance 1).atEnd = true := by simp [Scan.atEnd, Scan.advance, hb]
    have := fill_at_end hae hr
    exact ih _ _ this.1 this.2

theorem lexStringLoop_ok {T : List Char} (n : Nat) : ∀ s text t s', (∃ b, At T s b) → (s.cur = [] → s.rest = []) →
    lexStringLoop n s text = some (.ok (t, s')) → Inside T s' ∧ t.sym = .stString := by
  induction n with
  | zero => intro s text t s' _ _ h; cases h
  | succ n ih =>
    intro s text t s' ⟨b, ha⟩ hr h
    simp only [lexStringLoop] at h
    by_cases hq : s.now = '\''
    · rw [if_pos hq] at h
      cases h
      have hin : Inside T s := ⟨b, ha, ha.mid (now_ne hq (by decide))⟩
      exact ⟨hin.one hq (by decide) (by decide), rfl⟩
    · rw [if_neg hq] at h
      have go : ∀ (s2 : Scan) (text' : List Char), (∃ b, At T s2 b) → lexStringLoop n s2.fillIfEnd.1 text' = some (.ok (t, s')) → Inside T s' ∧ t.sym = .stString := by
        intro s2 text' ha2 h
        have hf := fill_ok (Or.inr (Or.inl ha2))
        cases h2 : s2.fillIfEnd.2 with
        | true =>
          have he := hf.1 h2
          rw [lexStringLoop_eof n _ _ he.buf he.rest] at h
          cases h
        | false =>
          obtain ⟨ha3, hn3⟩ := hf.2 h2
          exact ih _ _ _ _ ha3 (fun hh => absurd hh hn3) h
      simp only [lexStringChar] at h
      by_cases hb : s.now = '\\'
      · rw [if_pos hb] at h
        by_cases he : (s.advance 1).atEnd = true
        · rw [if_pos he] at h; cases h
        · rw [if_neg he] at h
          have hne1 := now_ne hb (by decide)
          have hne2 : (s.advance 1).cur ≠ [] := by rw [← atEnd_false]; simpa using he
          exact go _ _ ⟨b, (ha.advance 1 (cur_pos hne1)).advance 1 (cur_pos hne2)⟩ h
      · rw [if_neg hb] at h
        by_cases hne : s.cur = []
        · have hrest := hr hne
          exfalso
          have hae : (s.advance 1).atEnd = true := by rw [atEnd_iff, cur_advance, hne]; rfl
          have := fill_at_end hae hrest
          simp only [lexStringLoop_eof n _ _ this.1 this.2] at h
          cases h
        · exact go _ _ ⟨b, ha.advance 1 (cur_pos hne)⟩ h

theorem lexToken_ok {C : Classes} (hC : Lex.Spec.Good C) {T : List Char} {fuel : Nat} {s s' : Scan} {t : Tok} (h : Inside T s) (hne : s.cur ≠ [])
    (hs : C.isSpace s.now = false) (e : lexToken C fuel s = some (.ok (t, s'))) : Inside T s' ∧ (t.sym = .none → s'.cur ≠ []) := by
  have one : ∀ (c : Char) (k : Sym), s.now = c → c ≠ '\x00' → c ≠ '\n' → k ≠ .none → ok ((⟨k, [s.now]⟩ : Tok), s.advance 1) = some (.ok (t, s')) →
      Inside T s' ∧ (t.sym = .none → s'.cur ≠ []) := by
    intro c k hc h0 hn hk e
    cases e
    exact ⟨h.one hc h0 hn, fun hh => absurd hh hk⟩
  have oper : isOperator s.now = true → ok (lexOperator s) = some (.ok (t, s')) → Inside T s' ∧ (t.sym = .none → s'.cur ≠ []) := by
    intro ho e
    have e' : lexOperator s = (t, s') := by simpa [ok] using e
    have hi := lexOperator_ok h ho
    rw [e'] at hi
    refine ⟨hi, fun hk => ?_⟩
    exfalso
    simp only [lexOperator] at e'
    by_cases h1 : isOperator (s.char 1) = true
    · rw [if_pos h1] at e'; cases e'; cases hk
    · rw [if_neg h1] at e'; cases e'
      exact operatorSym_ne _ hk
  unfold lexToken at e
  simp only at e
  by_cases h0 : s.now = '\''
  · rw [if_pos h0] at e
    obtain ⟨b, ha, hm⟩ := h.one h0 (by decide) (by decide)
    have := lexStringLoop_ok fuel _ _ _ _ ⟨b, ha⟩ (by
      intro hh
      rcases ha.shape with ⟨w, h1, h2⟩ | ⟨h1, _⟩
      · exfalso
        apply hm
        have hp : (s.advance 1).buf.length ≤ (s.advance 1).bufp := List.drop_eq_nil_iff.1 hh
        rw [List.take_of_length_le hp, h1]
        simp
      · exact h1) e
    exact ⟨this.1, fun hk => by rw [this.2] at hk; cases hk⟩
  rw [if_neg h0] at e
  by_cases h1 : s.now = '['
  · rw [if_pos h1] at e; exact one _ _ h1 (by decide) (by decide) (by decide) e
  rw [if_neg h1] at e
  by_cases h2 : s.now = ']'
  · rw [if_pos h2] at e; exact one _ _ h2 (by decide) (by decide) (by decide) e
  rw [if_neg h2] at e
  by_cases h3 : s.now = ':'
  · rw [if_pos h3] at e
    have hi := h.one h3 (by decide) (by decide)
    by_cases h3' : s.char 1 = '='
    · rw [if_pos h3'] at e
      cases e
      refine ⟨?_, fun hh => by cases hh⟩
      have : (s.advance 1).now = '=' := by
        rw [← h3']; simp [Scan.now, Scan.char, Scan.advance]
      exact hi.one this (by decide) (by decide)
    · rw [if_neg h3'] at e
      cases e
      exact ⟨hi, fun hh => by cases hh⟩
  rw [if_neg h3] at e
  by_cases h4 : s.now = '('
  · rw [if_pos h4] at e; exact one _ _ h4 (by decide) (by decide) (by decide) e
  rw [if_neg h4] at e
  by_cases h5 : s.now = ')'
  · rw [if_pos h5] at e; exact one _ _ h5 (by decide) (by decide) (by decide) e
  rw [if_neg h5] at e
  by_cases h6 : s.now = '#'
  · rw [if_pos h6] at e; exact one _ _ h6 (by decide) (by decide) (by decide) e
  rw [if_neg h6] at e
  by_cases h7 : s.now = '^'
  · rw [if_pos h7] at e; exact one _ _ h7 (by decide) (by decide) (by decide) e
  rw [if_neg h7] at e
  by_cases h8 : s.now = '.'
  · rw [if_pos h8] at e; exact one _ _ h8 (by decide) (by decide) (by decide) e
  rw [if_neg h8] at e
  by_cases h9 : s.now = '-'
  · rw [if_pos h9] at e
    by_cases h9' : List.isPrefixOf ['-', '-', '-', '-'] s.cur = true
    · rw [if_pos h9'] at e
      cases e
      exact ⟨h.span _ (by decide), fun hh => by cases hh⟩
    · rw [if_neg h9'] at e
      exact oper (by rw [h9]; decide) e
  rw [if_neg h9] at e
  by_cases h10 : isOperator s.now = true
  · rw [if_pos h10] at e; exact oper h10 e
  rw [if_neg h10] at e
  by_cases h11 : nextWordIs C primitiveWord s = true
  · rw [if_pos h11] at e
    cases e
    simp only [nextWordIs, Bool.and_eq_true] at h11
    exact ⟨h.prefix _ _ (prefix_append h11.1) (by decide), fun hh => by cases hh⟩
  rw [if_neg h11] at e
  by_cases h12 : C.isAlpha s.now = true
  · rw [if_pos h12] at e
    have e' : lexWord C s = (t, s') := by simpa [ok] using e
    have hi := lexWord_ok hC h
    rw [e'] at hi
    refine ⟨hi, fun hk => ?_⟩
    exfalso
    simp only [lexWord] at e'
    by_cases hc : (span (fun c => C.isAlnum c || c == '_') s).2.now = ':'
    · rw [if_pos hc] at e'
      by_cases ha : C.isAlpha ((span (fun c => C.isAlnum c || c == '_') s).2.advance 1).now = true
      · rw [if_pos ha] at e'; cases e'; cases hk
      · rw [if_neg ha] at e'; cases e'; cases hk
    · rw [if_neg hc] at e'; cases e'; cases hk
  rw [if_neg h12] at e
  by_cases h13 : C.isDigit s.now = true
  · rw [if_pos h13] at e
    cases e
    refine ⟨lexNumber_ok hC h, fun hk => ?_⟩
    exfalso
    simp only [lexNumber] at hk
    split at hk <;> cases hk
  rw [if_neg h13] at e
  cases e
  exact ⟨h, fun _ => hne⟩

/-- After a token the scanner stands in the middle of a line, or has reached the end of the text. -/
theorem getSym_position {C : Classes} (hC : Lex.Spec.Good C) {T : List Char} (n : Nat) : ∀ (s s' : Scan) (t : Tok), Ok T s → getSym C n s = some (.ok (t, s')) →
    (t = ⟨.none, ['\x00']⟩ ∧ Eof T s') ∨ (Inside T s' ∧ (t.sym = .none → s'.cur ≠ [])) := by
  induction n with
  | zero => intro s s' t _ h; cases h
  | succ n ih =>
    intro s s' t hok h
    simp only [getSym] at h
    have hf := fill_ok hok
    by_cases h2 : s.fillIfEnd.2 = true
    · rw [if_pos h2] at h
      cases h
      exact Or.inl ⟨rfl, hf.1 h2⟩
    · rw [if_neg h2] at h
      obtain ⟨ha, _⟩ := hf.2 (by simpa using h2)
      cases h3 : skipWhiteSpace C (n + 1) s.fillIfEnd.1 with
      | none => rw [h3] at h; cases h
      | some s1 =>
        rw [h3] at h
        simp only [Option.bind_eq_bind, Option.bind] at h
        have hk1 := skipWhiteSpace_ok hC (n + 1) _ _ ha h3
        cases h4 : skipComment (n + 1) s1 with
        | none => rw [h4] at h; cases h
        | some s2 =>
          rw [h4] at h
          simp only at h
          have hk2 := skipComment_ok (n + 1) _ _ hk1 h4
          by_cases h5 : s2.atEnd = false ∧ C.isSpace s2.now = false ∧ s2.now ≠ '"'
          · rw [if_pos h5] at h
            have hne := (atEnd_false s2).1 h5.1
            rcases hk2 with ⟨b, hb⟩ | he
            · exact Or.inr (lexToken_ok hC ⟨b, hb, hb.mid hne⟩ hne h5.2.1 h)
            · exact absurd (by simp [Scan.cur, he.buf]) hne
          · rw [if_neg h5] at h
            exact ih _ _ _ (Or.inr hk2) h

end PySOM.Pos

import Verif.Lemmas.Position
/-!
# Property C63: where a syntax error is reported, and how

With the buffer of the scanner, C24 is proved about it as well.
-/
set_option autoImplicit false
namespace PySOM.Pos
open PySOM PySOM.Lex

/-- **C24**: the scanner with its buffer and index delivers exactly the tokens, exceptions and non-termination of the scanner for which the
other theorems of C24 are stated, and is left with the same text. -/
theorem C24_buffered (C : Classes) (n : Nat) (s : Scan) :
    Lex.getSym C n ⟨s.buf.drop s.bufp, s.rest⟩ =
      (getSym C n s).map (·.map fun r => (r.1, (⟨r.2.buf.drop r.2.bufp, r.2.rest⟩ : St))) := getSym_abs C n s

/-! ## What the parser asks for -/

theorem next_split {C : Classes} (hC : Lex.Spec.Good C) {text : List Char} {t : Tok} {r : List Char} (h : Lex.Spec.next C text = .tok t r) :
    (∃ blank piece, text = blank ++ piece ++ r ∧ Lex.Spec.Blank C blank ∧ Lex.Spec.Piece t piece r) ∨ (r = [] ∧ t = ⟨.none, ['\x00']⟩) := by
  simp only [Lex.Spec.next] at h
  rcases (skip_blank C text false).1 rfl with ⟨bl, b1, b2⟩ | hz
  · left
    obtain ⟨piece, p1, p2⟩ := token_piece hC _ _ _ h
    exact ⟨bl, piece, by rw [List.append_assoc, ← p1]; exact b1, b2, p2⟩
  · right
    rw [hz] at h
    simp only [Lex.Spec.token, Lex.Spec.Next.tok.injEq] at h
    exact ⟨h.2.symm, h.1.symm⟩

theorem next_suffix {C : Classes} (hC : Lex.Spec.Good C) {text : List Char} {t : Tok} {r : List Char} (h : Lex.Spec.next C text = .tok t r) :
    ∃ pre, text = pre ++ r := by
  rcases next_split hC h with ⟨bl, p, e, _⟩ | ⟨e, _⟩
  · exact ⟨bl ++ p, e⟩
  · exact ⟨text, by rw [e, List.append_nil]⟩

theorem nth_suffix {C : Classes} (hC : Lex.Spec.Good C) {T : List Char} {n : Nat} {t : Tok} {r : List Char} (h : Spec.Nth C T n t r) : ∃ pre, T = pre ++ r := by
  induction h with
  | first t r h => exact next_suffix hC h
  | next n t t' r r' _ h ih =>
    obtain ⟨a, ha⟩ := ih
    obtain ⟨b, hb⟩ := next_suffix hC h
    exact ⟨a ++ b, by rw [ha, hb, List.append_assoc]⟩

/-- The source text of the `n`-th token. -/
theorem nth_piece {C : Classes} (hC : Lex.Spec.Good C) {T : List Char} {n : Nat} {t : Tok} {r : List Char} (h : Spec.Nth C T n t r) (ht : t.sym ≠ .none) :
    ∃ pre piece, T = pre ++ piece ++ r ∧ Lex.Spec.Piece t piece r := by
  cases h with
  | first _ _ h =>
    rcases next_split hC h with ⟨bl, p, e, _, hp⟩ | ⟨_, e⟩
    · exact ⟨bl, p, e, hp⟩
    · rw [e] at ht; exact absurd rfl ht
  | next n t0 _ r0 _ h0 h =>
    obtain ⟨a, ha⟩ := nth_suffix hC h0
    rcases next_split hC h with ⟨bl, p, e, _, hp⟩ | ⟨_, e⟩
    · exact ⟨a ++ bl, p, by rw [ha, e]; simp only [List.append_assoc], hp⟩
    · rw [e] at ht; exact absurd rfl ht

/-- `r` is left after `n` tokens. -/
def Prev (C : Classes) (T : List Char) (n : Nat) (r : List Char) : Prop := (n = 0 ∧ r = T) ∨ ∃ t, Spec.Nth C T n t r

theorem Prev.step {C : Classes} {T : List Char} {n : Nat} {r r' : List Char} {t : Tok} (h : Prev C T n r) (hn : Lex.Spec.next C r = .tok t r') : Spec.Nth C T (n + 1) t r' := by
  rcases h with ⟨rfl, rfl⟩ | ⟨t0, h⟩
  · exact .first t r' hn
  · exact .next n t0 t r r' h hn

/-- The state after the token `t`. -/
def Fine (T : List Char) (t : Tok) (s : Scan) : Prop := (t = ⟨.none, ['\x00']⟩ ∧ Eof T s) ∨ (Inside T s ∧ (t.sym = .none → s.cur ≠ []))

/-- The invariant of the parser's use of the scanner, `n` being the number of tokens it has asked for. -/
structure Inv (C : Classes) (T : List Char) (n : Nat) (c : Client) : Prop where
  ok : Ok T c.st
  between : Between c.st.abs
  none : c.next = none → Prev C T n (flat c.st.abs) ∧ (n ≠ 0 → Spec.Nth C T n c.now (flat c.st.abs) ∧ Fine T c.now c.st)
  some : ∀ t, c.next = some t → Spec.Nth C T (n + 1) t (flat c.st.abs) ∧ Fine T t c.st ∧ (n ≠ 0 → ∃ r, Spec.Nth C T n c.now r)

theorem Fine.ok {T : List Char} {t : Tok} {s : Scan} (h : Fine T t s) : Ok T s := by
  rcases h with ⟨_, h⟩ | ⟨⟨b, h, _⟩, _⟩
  · exact Or.inr (Or.inr h)
  · exact Or.inr (Or.inl ⟨b, h⟩)

theorem raw_step {C : Classes} (hC : Lex.Spec.Good C) {T : List Char} {n : Nat} {c : Client} (h : Inv C T n c) (hn : c.next = Option.none) {fuel : Nat} {t : Tok} {s : Scan}
    (e : getSym C fuel c.st = Option.some (.ok (t, s))) : Spec.Nth C T (n + 1) t (flat s.abs) ∧ Fine T t s ∧ Between s.abs := by
  have ha : Lex.getSym C fuel c.st.abs = Option.some (.ok (t, s.abs)) := by rw [getSym_abs, e]; rfl
  have hg := getSym_ok hC h.between ha
  exact ⟨(h.none hn).1.step hg.1, getSym_position hC fuel _ _ _ h.ok e, hg.2⟩

theorem inv_get {C : Classes} (hC : Lex.Spec.Good C) {T : List Char} {n : Nat} {c c' : Client} (h : Inv C T n c) {fuel : Nat} (e : c.get C fuel = Option.some (.ok c')) :
    Inv C T (n + 1) c' := by
  unfold Client.get at e
  cases hn : c.next with
  | some t =>
    rw [hn] at e
    cases e
    obtain ⟨a, b, _⟩ := h.some t hn
    exact ⟨h.ok, h.between, fun _ => ⟨Or.inr ⟨t, a⟩, fun _ => ⟨a, b⟩⟩, fun _ hh => by cases hh⟩
  | none =>
    rw [hn] at e
    simp only at e
    cases hg : getSym C fuel c.st with
    | none => rw [hg] at e; cases e
    | some x =>
      rw [hg] at e
      cases x with
      | error x => cases e
      | ok r =>
        obtain ⟨t, s⟩ := r
        cases e
        obtain ⟨a, b, d⟩ := raw_step hC h hn hg
        exact ⟨b.ok, d, fun _ => ⟨Or.inr ⟨t, a⟩, fun _ => ⟨a, b⟩⟩, fun _ hh => by cases hh⟩

theorem inv_peek {C : Classes} (hC : Lex.Spec.Good C) {T : List Char} {n : Nat} {c c' : Client} (h : Inv C T n c) {fuel : Nat} (e : c.peek C fuel = Option.some (.ok c')) :
    Inv C T n c' := by
  unfold Client.peek at e
  cases hn : c.next with
  | some t => rw [hn] at e; cases e
  | none =>
    rw [hn] at e
    simp only at e
    cases hg : getSym C fuel c.st with
    | none => rw [hg] at e; cases e
    | some x =>
      rw [hg] at e
      cases x with
      | error x => cases e
      | ok r =>
        obtain ⟨t, s⟩ := r
        cases e
        obtain ⟨a, b, d⟩ := raw_step hC h hn hg
        refine ⟨b.ok, d, fun hh => (nomatch hh), fun t' hh => ?_⟩
        cases hh
        exact ⟨a, b, fun h0 => ⟨_, ((h.none hn).2 h0).1⟩⟩

theorem inv_run {C : Classes} (hC : Lex.Spec.Good C) {T : List Char} {fuel : Nat} (rs : List Req) : ∀ (n : Nat) (c c' : Client), Inv C T n c → c.run C fuel rs = some (.ok c') →
    Inv C T (n + rs.count .get) c' := by
  induction rs with
  | nil => intro n c c' h e; cases e; exact h
  | cons r rs ih =>
    intro n c c' h e
    unfold Client.run at e
    cases r with
    | get =>
      simp only at e
      cases hg : c.get C fuel with
      | none => rw [hg] at e; cases e
      | some x =>
        rw [hg] at e
        cases x with
        | error x => cases e
        | ok c1 =>
          have := ih _ _ _ (inv_get hC h hg) e
          rw [List.count_cons_self, Nat.add_comm (rs.count _) 1, ← Nat.add_assoc]
          exact this
    | peek =>
      simp only at e
      cases hg : c.peek C fuel with
      | none => rw [hg] at e; cases e
      | some x =>
        rw [hg] at e
        cases x with
        | error x => cases e
        | ok c1 =>
          have := ih _ _ _ (inv_peek hC h hg) e
          rw [List.count_cons_of_ne (by decide)]
          exact this

theorem inv_init (C : Classes) (T : List Char) : Inv C T 0 (.init T) :=
  ⟨Or.inl rfl, Or.inr rfl, fun _ => ⟨Or.inl ⟨rfl, rfl⟩, fun h => absurd rfl h⟩, fun _ h => by cases h⟩

theorem inv_of {C : Classes} (hC : Lex.Spec.Good C) {T : List Char} {fuel : Nat} {rs : List Req} {c : Client} (h : (Client.init T).run C fuel rs = some (.ok c)) :
    Inv C T (rs.count .get) c := by
  have := inv_run hC rs 0 _ _ (inv_init C T) h
  rwa [Nat.zero_add] at this

theorem fine_position {T : List Char} {t : Tok} {s : Scan} (h : Fine T t s) (ht : t.sym ≠ .none) {pre post : List Char} (hT : T = pre ++ post) (hp : flat s.abs = post) :
    s.coord = Spec.position pre ∧ s.buf = Spec.lastLine pre ++ Spec.firstLine post := by
  rcases h with ⟨e, _⟩ | ⟨⟨b, ha, hm⟩, _⟩
  · rw [e] at ht; exact absurd rfl ht
  · obtain ⟨pre', post', e1, e2, e3, e4⟩ := ha.position hm
    rw [hp] at e2
    subst e2
    have : pre = pre' := List.append_cancel_right (hT.symm.trans e1)
    subst this
    exact ⟨e3, e4⟩

/-- **C63** (partial).  Whatever the parser has asked of the scanner: the position it reports is the one right after the current token, in line,
column and number of characters, and the line shown is the line on which this token ends.

Full statement: the position reported with a syntax error is the one of the current token, the one that the message names.  Missing: if
the parser has looked ahead, the position is that of the token after it (`C63_lookahead`, `C63_violated_lookahead`), and at the end of
the text the number of characters is wrong and no line is shown (`C63_no_token`, `C63_violated_end`). -/
theorem C63_position_partial (C : Classes) (hC : Lex.Spec.Good C) (T : List Char) (fuel : Nat) (rs : List Req) (c : Client)
    (h : (Client.init T).run C fuel rs = some (.ok c)) (hg : .get ∈ rs) (hn : c.next = none) (ht : c.now.sym ≠ .none) :
    ∃ pre piece post, T = pre ++ piece ++ post ∧ Lex.Spec.Piece c.now piece post ∧ Spec.Nth C T (rs.count .get) c.now post ∧
      c.st.coord = Spec.position (pre ++ piece) ∧ c.st.buf = Spec.lastLine (pre ++ piece) ++ Spec.firstLine post := by
  have hi := inv_of hC h
  have h0 : rs.count .get ≠ 0 := fun hh => List.count_eq_zero.1 hh hg
  obtain ⟨a, b⟩ := (hi.none hn).2 h0
  obtain ⟨pre, piece, e, hp⟩ := nth_piece hC a ht
  obtain ⟨p1, p2⟩ := fine_position b ht e rfl
  exact ⟨pre, piece, _, e, hp, a, p1, p2⟩

/-- **C63**: after looking ahead the position is the one right after the token looked at, not after the current one. -/
theorem C63_lookahead (C : Classes) (hC : Lex.Spec.Good C) (T : List Char) (fuel : Nat) (rs : List Req) (c : Client)
    (h : (Client.init T).run C fuel rs = some (.ok c)) (hg : .get ∈ rs) (t : Tok) (hn : c.next = some t) (ht : t.sym ≠ .none) :
    (∃ r, Spec.Nth C T (rs.count .get) c.now r) ∧
    ∃ pre piece post, T = pre ++ piece ++ post ∧ Lex.Spec.Piece t piece post ∧ Spec.Nth C T (rs.count .get + 1) t post ∧
      c.st.coord = Spec.position (pre ++ piece) ∧ c.st.buf = Spec.lastLine (pre ++ piece) ++ Spec.firstLine post := by
  have hi := inv_of hC h
  have h0 : rs.count .get ≠ 0 := fun hh => List.count_eq_zero.1 hh hg
  obtain ⟨a, b, d⟩ := hi.some t hn
  obtain ⟨pre, piece, e, hp⟩ := nth_piece hC a ht
  obtain ⟨p1, p2⟩ := fine_position b ht e rfl
  exact ⟨d h0, pre, piece, _, e, hp, a, p1, p2⟩

/-- **C63**: where the scanner finds no token, it either stands before a character that begins none, and the position is that of this
character; or it is at the end of the text. -/
theorem C63_no_token (C : Classes) (hC : Lex.Spec.Good C) (T : List Char) (fuel : Nat) (rs : List Req) (c : Client)
    (h : (Client.init T).run C fuel rs = some (.ok c)) (hg : .get ∈ rs) (hn : c.next = none) (ht : c.now.sym = .none) :
    (∃ pre x post, T = pre ++ x :: post ∧ c.now.text = [x] ∧ c.st.coord = Spec.position pre ∧
      c.st.buf = Spec.lastLine pre ++ Spec.firstLine (x :: post)) ∨
    (Spec.Nth C T (rs.count .get) c.now [] ∧ c.now.text = ['\x00'] ∧ c.st.buf = [] ∧
      (T = [] → c.st.coord = ⟨0, 1, 0⟩) ∧
      (T ≠ [] → c.st.coord = ⟨Spec.lineOf T.dropLast, Spec.columnOf T.dropLast + 1, T.length + Spec.columnOf T.dropLast⟩)) := by
  have hi := inv_of hC h
  have h0 : rs.count .get ≠ 0 := fun hh => List.count_eq_zero.1 hh hg
  obtain ⟨a, b⟩ := (hi.none hn).2 h0
  rcases b with ⟨e, he⟩ | ⟨⟨b, ha, hm⟩, hc⟩
  · right
    have hf : flat c.st.abs = [] := by simp [flat, Scan.abs, Scan.cur, he.buf, he.rest]
    rw [hf] at a
    refine ⟨a, by rw [e], he.buf, fun hT => ?_, fun hT => ?_⟩
    · obtain ⟨h1, h2⟩ := he.empty hT
      simp [Scan.coord, h1, h2, he.read, hT]
    · obtain ⟨h1, h2⟩ := he.last hT
      simp [Scan.coord, h1, h2, he.read]
  · left
    obtain ⟨pre, post, e1, e2, e3, e4⟩ := ha.position hm
    have hne : post ≠ [] := by
      rw [← e2]; simp only [flat, Scan.abs, ne_eq, List.append_eq_nil_iff, not_and]
      intro hh; exact absurd hh (hc ht)
    have hlast : ∃ r0, Lex.Spec.next C r0 = .tok c.now (flat c.st.abs) := by
      generalize rs.count .get = n at a
      cases a with
      | first _ _ h => exact ⟨_, h⟩
      | next n t0 _ r0 _ h0 h => exact ⟨r0, h⟩
    obtain ⟨r0, hr0⟩ := hlast
    rcases next_split hC hr0 with ⟨bl, p, _, _, hp⟩ | ⟨hz, _⟩
    · simp only [Lex.Spec.Piece, ht] at hp
      rw [e2] at hp
      rcases hp.2 with ⟨hz, _⟩ | ⟨x, xs, hx, htx⟩
      · exact absurd hz hne
      · rw [hx] at e1 e4
        exact ⟨pre, x, xs, e1, htx, e3, e4⟩
    · exact absurd (e2.symm.trans hz) hne

/-! ## Messages -/

theorem key_length (cs : List Char) : ∀ k r, key cs = some (k, r) → r.length < cs.length := by
  induction cs with
  | nil => intro k r h; cases h
  | cons c cs ih =>
    intro k r h
    simp only [key] at h
    by_cases hc : c = ')'
    · rw [if_pos hc] at h; cases h; simp
    · rw [if_neg hc] at h
      cases hk : key cs with
      | none => rw [hk] at h; cases h
      | some x =>
        rw [hk] at h
        cases h
        have := ih x.1 x.2 hk
        simp only [List.length_cons]; omega

theorem spanLoop_length (p : Char → Bool) (l : List Char) : (spanLoop p l).2.length ≤ l.length := by
  have := congrArg List.length (spanLoop_append p l)
  rw [List.length_append] at this; omega

theorem precision_length (cs : List Char) : (precision cs).2.length ≤ cs.length := by
  cases cs with
  | nil => exact Nat.le_refl _
  | cons c cs =>
    simp only [precision]
    by_cases h : c = '.'
    · rw [if_pos h]
      have := spanLoop_length isNum cs
      simp only [List.length_cons]; omega
    · rw [if_neg h]; exact Nat.le_refl _

theorem lengthModifier_length (cs : List Char) : (lengthModifier cs).2.length ≤ cs.length := by
  cases cs with
  | nil => exact Nat.le_refl _
  | cons c cs =>
    simp only [lengthModifier]
    by_cases h : ['h', 'l', 'L'].contains c = true
    · rw [if_pos h]; simp only [List.length_cons]; omega
    · rw [if_neg h]; exact Nat.le_refl _

theorem modifiers_length (cs : List Char) : (modifiers cs).2.length ≤ cs.length :=
  Nat.le_trans (lengthModifier_length _) (Nat.le_trans (precision_length _) (Nat.le_trans (spanLoop_length _ _) (spanLoop_length _ _)))

theorem directive_length (P : Printf) (v : Option Value) (cs t r : List Char) (h : directive P v cs = some (t, r)) : r.length < cs.length := by
  unfold directive at h
  simp only at h
  have hm := modifiers_length cs
  cases hx : (modifiers cs).2 with
  | nil => rw [hx] at h; cases h
  | cons c ds =>
    rw [hx] at h hm
    simp only [List.length_cons] at hm
    simp only at h
    by_cases hc : c = '%'
    · rw [if_pos hc] at h; cases h; omega
    · rw [if_neg hc] at h
      by_cases hd : conversions.contains c = true
      · rw [if_pos hd] at h
        obtain ⟨a, _, ha⟩ := Option.map_eq_some_iff.1 h
        cases ha; omega
      · rw [if_neg hd] at h; cases h

/-- The fuel of `format` does not matter once it exceeds the length. -/
theorem format_enough (P : Printf) (m : List (List Char × Value)) (n : Nat) : ∀ (k : Nat) (f : List Char), f.length < n → f.length < k → format P m n f = format P m k f := by
  induction n with
  | zero => intro k f h; exact absurd h (Nat.not_lt_zero _)
  | succ n ih =>
    intro k f hn hk
    cases k with
    | zero => exact absurd hk (Nat.not_lt_zero _)
    | succ k =>
      cases f with
      | nil => rfl
      | cons c cs =>
        simp only [List.length_cons] at hn hk
        rw [format.eq_def, format.eq_def P m (k + 1)]
        simp only
        by_cases hc : c = '%'
        · rw [if_pos hc, if_pos hc]
          split
          · rename_i ds
            simp only [List.length_cons] at hn hk
            cases hkey : key ds with
            | none => rfl
            | some x =>
              obtain ⟨kk, r⟩ := x
              have hl := key_length _ _ _ hkey
              simp only [Option.bind_eq_bind, Option.bind]
              cases m.lookup kk with
              | none => rfl
              | some v =>
                simp only
                cases hd : directive P (some v) r with
                | none => rfl
                | some y =>
                  obtain ⟨t, r2⟩ := y
                  have hl2 := directive_length _ _ _ _ _ hd
                  simp only
                  rw [ih k r2 (by omega) (by omega)]
          · simp only [Option.bind_eq_bind, Option.bind]
            cases hd : directive P none cs with
            | none => rfl
            | some y =>
              obtain ⟨t, r2⟩ := y
              have hl2 := directive_length _ _ _ _ _ hd
              simp only
              rw [ih k r2 (by omega) (by omega)]
        · rw [if_neg hc, if_neg hc, ih k cs (by omega) (by omega)]

/-- `format` with enough fuel. -/
def fmt (P : Printf) (m : List (List Char × Value)) (f : List Char) : Option (List Char) := format P m (f.length + 1) f

theorem fmt_text (P : Printf) (m : List (List Char × Value)) (w r : List Char) (hw : '%' ∉ w) : fmt P m (w ++ r) = (fmt P m r).map (w ++ ·) := by
  induction w with
  | nil => simp [fmt]
  | cons c w ih =>
    simp only [List.mem_cons, not_or] at hw
    have : fmt P m (c :: (w ++ r)) = (fmt P m (w ++ r)).map (c :: ·) := by
      rw [fmt, format.eq_def]
      simp only
      rw [if_neg (Ne.symm hw.1)]; rfl
    rw [List.cons_append, this, ih hw.2, Option.map_map]; rfl

theorem key_of (k r : List Char) (hk : ')' ∉ k) : key (k ++ ')' :: r) = some (k, r) := by
  induction k with
  | nil => rfl
  | cons c k ih =>
    simp only [List.mem_cons, not_or] at hk
    simp only [List.cons_append, key]
    rw [if_neg (Ne.symm hk.1), ih hk.2]; rfl

theorem fmt_directive (P : Printf) (m : List (List Char × Value)) (k cs r t : List Char) (v : Value) (hk : ')' ∉ k) (hm : m.lookup k = some v)
    (hd : directive P (some v) cs = some (t, r)) : fmt P m ('%' :: '(' :: (k ++ ')' :: cs)) = (fmt P m r).map (t ++ ·) := by
  rw [fmt, format.eq_def]
  simp only [if_true, key_of k cs hk, Option.bind_eq_bind, Option.bind, hm, hd]
  have hl := directive_length _ _ _ _ _ hd
  rw [format_enough P m _ (r.length + 1) r (by simp; omega) (by omega)]
  show _ = Option.map _ (format P m (r.length + 1) r)
  cases format P m (r.length + 1) r <;> rfl

theorem directive_s (P : Printf) (s r : List Char) : directive P (some (.str s)) ('s' :: r) = some (s, r) := by
  have hm : modifiers ('s' :: r) = ([], 's' :: r) := rfl
  rw [directive, hm]
  show Option.map _ (P.conv [] 's' (.str s)) = _
  rw [P.str]; rfl

theorem directive_d (P : Printf) (n : Nat) (r : List Char) : directive P (some (.int n)) ('d' :: r) = some ((toString n).toList, r) := by
  have hm : modifiers ('d' :: r) = ([], 'd' :: r) := rfl
  rw [directive, hm]
  show Option.map _ (P.conv [] 'd' (.int n)) = _
  rw [P.int]; rfl

/-- The beginning of every message. -/
theorem fmt_head (P : Printf) (e : PError) (r : List Char) :
    fmt P e.mapping ("%(file)s:%(line)d:%(column)d: error: ".toList ++ r) =
      (fmt P e.mapping r).map (e.file ++ ":".toList ++ (toString e.client.st.coord.line).toList ++ ":".toList ++ (toString e.client.st.coord.column).toList ++ ": error: ".toList ++ ·) := by
  have e1 : "%(file)s:%(line)d:%(column)d: error: ".toList ++ r =
      '%' :: '(' :: ("file".toList ++ ')' :: 's' :: (":".toList ++ '%' :: '(' :: ("line".toList ++ ')' :: 'd' :: (":".toList ++ '%' :: '(' :: ("column".toList ++ ')' :: 'd' ::
        (": error: ".toList ++ r)))))) := rfl
  rw [e1, fmt_directive P _ _ _ _ _ (.str e.file) (by decide) rfl (directive_s P _ _), fmt_text P _ _ _ (by decide),
    fmt_directive P _ _ _ _ _ (.int e.client.st.coord.line) (by decide) rfl (directive_d P _ _), fmt_text P _ _ _ (by decide),
    fmt_directive P _ _ _ _ _ (.int e.client.st.coord.column) (by decide) rfl (directive_d P _ _), fmt_text P _ _ _ (by decide)]
  simp only [Option.map_map]
  congr 1
  funext x
  simp only [Function.comp, List.append_assoc]

theorem symbolAsStr_eq (k : Sym) : symbolAsStr k = (Spec.name k).toList := by cases k <;> rfl

theorem printable_iff (k : Sym) : printable k = true ↔ k ∈ Spec.withText := by cases k <;> decide

theorem found_eq (e : PError) : e.found = Spec.token e.client.now := by
  simp only [PError.found, Spec.token, symbolAsStr_eq]
  by_cases h : printable e.client.now.sym = true
  · rw [if_pos h, if_pos ((printable_iff _).1 h)]; rfl
  · rw [if_neg h, if_neg (fun hh => h ((printable_iff _).2 hh))]

theorem joinComma_eq (xs : List (List Char)) : joinComma xs = [',', ' '].intercalate xs := by
  induction xs with
  | nil => rfl
  | cons x xs ih =>
    cases xs with
    | nil => simp [joinComma, List.intercalate, List.intersperse]
    | cons y ys =>
      rw [joinComma, ih]
      · simp [List.intercalate, List.intersperse]
      · nofun

theorem expected_eq (e : PError) : joinComma (e.expected.map symbolAsStr) = [',', ' '].intercalate (e.expected.map fun k => (Spec.name k).toList) := by
  rw [joinComma_eq, show symbolAsStr = (fun k => (Spec.name k).toList) from funext symbolAsStr_eq]

theorem fmt_parts (P : Printf) (e : PError) (ps : List Spec.Part) (hp : ∀ p ∈ ps, p.clean) (r : List Char) :
    fmt P e.mapping ((ps.map Spec.Part.source).flatten ++ r) = (fmt P e.mapping r).map ((ps.map (Spec.Part.meant e)).flatten ++ ·) := by
  induction ps with
  | nil => simp
  | cons p ps ih =>
    have ih := ih (fun q hq => hp q (List.mem_cons_of_mem _ hq))
    have hc := hp p (List.mem_cons_self ..)
    simp only [List.map_cons, List.flatten_cons, List.append_assoc]
    cases p with
    | text s =>
      show fmt P e.mapping (s ++ _) = _
      rw [fmt_text P _ _ _ hc, ih, Option.map_map]
      rfl
    | expected =>
      have e1 : ∀ x : List Char, Spec.Part.expected.source ++ x = '%' :: '(' :: ("expected".toList ++ ')' :: 's' :: x) := fun _ => rfl
      rw [e1, fmt_directive P _ _ _ _ _ (.str (joinComma (e.expected.map symbolAsStr))) (by decide) rfl (directive_s P _ _), ih, Option.map_map, expected_eq]
      rfl
    | found =>
      have e1 : ∀ x : List Char, Spec.Part.found.source ++ x = '%' :: '(' :: ("found".toList ++ ')' :: 's' :: x) := fun _ => rfl
      rw [e1, fmt_directive P _ _ _ _ _ (.str e.found) (by decide) rfl (directive_s P _ _), ih, Option.map_map, found_eq]
      rfl

theorem show_eq (P : Printf) (e : PError) (ps : List Spec.Part) (hm : e.message = (ps.map Spec.Part.source).flatten) (hp : ∀ p ∈ ps, p.clean) :
    e.show P = (fmt P e.mapping e.client.st.buf).map (fun x => Spec.shown e ps e.client.st.coord x) := by
  have h0 : e.show P = fmt P e.mapping e.template := by unfold PError.show fmt; rfl
  have h1 : e.template = "%(file)s:%(line)d:%(column)d: error: ".toList ++ ((ps.map Spec.Part.source).flatten ++ (": ".toList ++ e.client.st.buf)) := by
    unfold PError.template
    rw [hm]
    simp only [List.append_assoc]
  rw [h0, h1, fmt_head, fmt_parts P e ps hp, fmt_text P _ ": ".toList e.client.st.buf (by decide), Option.map_map, Option.map_map]
  refine congrArg (fun f => Option.map f _) (funext fun x => ?_)
  unfold Spec.shown
  simp only [Function.comp, List.append_assoc]

/-- **C63** (partial).  The message of a syntax error gives the file, the position, the text of the error with the symbols expected and
found, and the line of the source.

Full statement: for every line.  Missing: lines and texts with a percent sign, `C63_violated_percent`. -/
theorem C63_message_partial (P : Printf) (e : PError) (ps : List Spec.Part) (hm : e.message = (ps.map Spec.Part.source).flatten)
    (hp : ∀ p ∈ ps, p.clean) (hb : '%' ∉ e.client.st.buf) : e.show P = some (Spec.shown e ps e.client.st.coord e.client.st.buf) := by
  have : fmt P e.mapping e.client.st.buf = some e.client.st.buf := by
    have := fmt_text P e.mapping e.client.st.buf [] hb
    rw [List.append_nil] at this
    rw [this]
    simp [fmt, format]
  rw [show_eq P e ps hm hp, this]; rfl

/-- **C63**: no message can be made if the first percent sign in the line does not begin a directive of Python: making it raises an
exception other than the syntax error. -/
theorem C63_violated_percent (P : Printf) (e : PError) (ps : List Spec.Part) (hm : e.message = (ps.map Spec.Part.source).flatten)
    (hp : ∀ p ∈ ps, p.clean) (x y : List Char) (hb : e.client.st.buf = x ++ '%' :: y) (hx : '%' ∉ x) (hy : y.head? ≠ some '(')
    (hd : directive P none y = none) : e.show P = none := by
  rw [show_eq P e ps hm hp, hb, fmt_text P _ _ _ hx]
  have : fmt P e.mapping ('%' :: y) = none := by
    rw [fmt, format.eq_def]
    simp only [if_true]
    split
    · exact absurd rfl hy
    · rw [hd]; rfl
  rw [this]; rfl

/-- **C63**: a percent sign written twice is shown once. -/
theorem C63_violated_double (P : Printf) (e : PError) (ps : List Spec.Part) (hm : e.message = (ps.map Spec.Part.source).flatten)
    (hp : ∀ p ∈ ps, p.clean) (x y : List Char) (hb : e.client.st.buf = x ++ '%' :: '%' :: y) (hx : '%' ∉ x) (hy : '%' ∉ y) :
    e.show P = some (Spec.shown e ps e.client.st.coord (x ++ '%' :: y)) := by
  rw [show_eq P e ps hm hp, hb, fmt_text P _ _ _ hx]
  have hr : fmt P e.mapping y = some y := by
    have := fmt_text P e.mapping y [] hy
    rw [List.append_nil] at this
    rw [this]
    simp [fmt, format]
  have hd : directive P none ('%' :: y) = some (['%'], y) := rfl
  have : fmt P e.mapping ('%' :: '%' :: y) = some ('%' :: y) := by
    rw [fmt, format.eq_def]
    simp only [if_true]
    split
    · rename_i h; cases h
    · simp only [Option.bind_eq_bind, hd, Option.bind]
      rw [format_enough P _ _ (y.length + 1) y (by simp only [List.length_cons]; omega) (by omega)]
      rw [show format P e.mapping (y.length + 1) y = some y from hr]; rfl
  rw [this]; rfl

/-- **C63**: lines like this, among others, are those with a blank, a number and a blank after the percent sign. -/
theorem C63_violated_modulo (P : Printf) (d : Char) (w r : List Char) (hd : isNum d = true) (h0 : d ≠ '0') (hw : ∀ c ∈ w, isNum c = true) :
    directive P none (' ' :: d :: (w ++ ' ' :: r)) = none := by
  have hnf : isFlag d = false := by
    revert hd h0
    simp only [isNum, isFlag, List.contains_iff_mem, List.mem_cons, List.not_mem_nil, or_false]
    rintro (rfl | rfl | rfl | rfl | rfl | rfl | rfl | rfl | rfl | rfl) h <;> first | exact absurd rfl h | decide
  have h1 : spanLoop isFlag (' ' :: d :: (w ++ ' ' :: r)) = ([' '], d :: (w ++ ' ' :: r)) := by
    simp only [spanLoop, show isFlag ' ' = true from rfl, hnf, if_true]; rfl
  have h2 : ∀ l : List Char, (∀ c ∈ l, isNum c = true) → (spanLoop isNum (l ++ ' ' :: r)).2 = ' ' :: r := by
    intro l
    induction l with
    | nil => intro _; rfl
    | cons c l ih =>
      intro h
      simp only [List.cons_append, spanLoop, h c (List.mem_cons_self ..), if_true]
      exact ih (fun x hx => h x (List.mem_cons_of_mem _ hx))
  have h3 : (modifiers (' ' :: d :: (w ++ ' ' :: r))).2 = ' ' :: r := by
    simp only [modifiers, h1]
    rw [← List.cons_append, h2 (d :: w) (by intro c hc; rcases List.mem_cons.1 hc with rfl | hc; exact hd; exact hw c hc)]
    rfl
  simp only [directive, h3]
  rfl

/-! ## Examples -/

/-- A class whose body is not a list of methods. -/
def sample : List Char := "Foo = (\n  ^ 5 + 4 )\n".toList
/-- What the parser asks for until it finds that `^` begins no method (`parser.py:78-114`). -/
def sampleRequests : List Req := [.get, .get, .get, .get]

def okay {α : Type} : Option (Except Err α) → Option α
  | some (.ok x) => some x
  | _ => none

/-- The error of `_expect` (`parser.py:157-162`). -/
def unexpected : List Spec.Part := [.text "Unexpected symbol. Expected ".toList, .expected, .text ", but found ".toList, .found]

/-- The hypotheses of the theorems hold for it. -/
example : ∃ c, (Client.init sample).run Lex.Spec.ascii 100 sampleRequests = some (.ok c) ∧ c.next = none ∧ c.now = ⟨.exit, ['^']⟩ ∧
    c.st.coord = ⟨2, 4, 11⟩ ∧ c.st.buf = "  ^ 5 + 4 )\n".toList := by
  refine ⟨⟨⟨.exit, ['^']⟩, none, ⟨"  ^ 5 + 4 )\n".toList, 3, [], 2, 8⟩⟩, ?_, rfl, rfl, rfl, rfl⟩
  decide +kernel

/-- The message. -/
example (P : Printf) (c : Client) (hc : c = ⟨⟨.exit, ['^']⟩, none, ⟨"  ^ 5 + 4 )\n".toList, 3, [], 2, 8⟩⟩) :
    PError.show P ⟨(unexpected.map Spec.Part.source).flatten, [.endTerm], c, "Foo.som".toList⟩ =
      some "Foo.som:2:4: error: Unexpected symbol. Expected EndTerm, but found Exit:   ^ 5 + 4 )\n".toList := by
  subst hc
  rw [C63_message_partial P _ unexpected rfl (by
    intro p hp
    simp only [unexpected, List.mem_cons, List.not_mem_nil, or_false] at hp
    rcases hp with rfl | rfl | rfl | rfl
    · show '%' ∉ _; decide
    · trivial
    · show '%' ∉ _; decide
    · trivial) (by decide)]
  decide +kernel

/-- **C63** is violated: after looking ahead the line is wrong.  The expression after `^` is missing; the parser looks ahead before it looks at the
expression (`parser.py:255-260`), so the error about `)` on line 1 is reported on line 2. -/
theorem C63_violated_lookahead :
    (okay ((Client.init "A = ( a = ( ^ )\n b = ( ^ 1 ) )".toList).run Lex.Spec.ascii 100
      (List.replicate 8 .get ++ [.peek]))).map (fun c => (c.now, c.st.coord)) = some (⟨.endTerm, [')']⟩, ⟨2, 3, 18⟩) ∧
    Spec.position "A = ( a = ( ^ )".toList = ⟨1, 16, 15⟩ := by
  constructor <;> decide +kernel

/-- **C63** is violated at the end of a text: the last line is counted twice, and the line shown is empty. -/
theorem C63_violated_end :
    (okay ((Client.init "A = (".toList).run Lex.Spec.ascii 100 (List.replicate 4 .get))).map (fun c => (c.now.sym, c.st.coord, c.st.buf)) =
      some (.none, ⟨1, 6, 10⟩, []) ∧ Spec.position "A = (".toList = ⟨1, 6, 5⟩ := by
  constructor <;> decide +kernel

/-- The same class with a percent sign: no message. -/
example (P : Printf) (c : Client) (hc : c = ⟨⟨.exit, ['^']⟩, none, ⟨"  ^ 5 % 4 )\n".toList, 3, [], 2, 8⟩⟩) :
    PError.show P ⟨(unexpected.map Spec.Part.source).flatten, [.endTerm], c, "Foo.som".toList⟩ = none := by
  subst hc
  refine C63_violated_percent P _ unexpected rfl (by
    intro p hp
    simp only [unexpected, List.mem_cons, List.not_mem_nil, or_false] at hp
    rcases hp with rfl | rfl | rfl | rfl
    · show '%' ∉ _; decide
    · trivial
    · show '%' ∉ _; decide
    · trivial) "  ^ 5 ".toList " 4 )\n".toList rfl (by decide) (by decide) ?_
  exact C63_violated_modulo P '4' [] [')', '\n'] rfl (by decide) (by simp)

/-- There is a way of printing as `Printf` wants it. -/
example : Nonempty Printf :=
  ⟨{ conv := fun _ _ v => match v with | .str s => some s | .int n => some (toString n).toList
     whole := fun _ _ => none
     str := fun _ => rfl
     int := fun _ => rfl
     whole_number := fun _ _ _ => rfl }⟩

end PySOM.Pos

import Verif.Model.Strings
/-!
# Properties C41 (strings), C42 (string streams), C43 (paths) and the string part of C49
-/
set_option autoImplicit false
namespace PySOM.Str

/-! ## C41 -/

/-- Strings and symbols with their characters. -/
def Chars (o : Obj) (s : Str) : Prop := o = .str s ∨ o = .sym s

theorem Chars.emb {o : Obj} {s : Str} (h : Chars o s) : embeddedString o = .ok s := by
  rcases h with h | h <;> subst h <;> rfl

/-- **C41**: concatenation and length. -/
theorem C41_concat_length (a b : Obj) (s t : Str) (ha : Chars a s) (hb : Chars b t) :
    concat a b = .ok (.str (s ++ t)) ∧ length a = .ok (.int s.length) := by
  simp [concat, length, ha.emb, hb.emb, bind, Except.bind, pure, Except.pure]

/-- **C41**: concatenating anything but a string is an error. -/
theorem C41_concat_rejects (a b : Obj) (s : Str) (ha : Chars a s) (hb : ∀ t, ¬ Chars b t) : concat a b = .error .attribute := by
  have : embeddedString b = .error .attribute := by
    cases b with
    | str t => exact absurd (.inl rfl) (hb t)
    | sym t => exact absurd (.inr rfl) (hb t)
    | int _ => rfl
    | other _ => rfl
  simp [concat, ha.emb, this, bind, Except.bind]

/-- **C41**: `charAt: i` answers the `i`-th character (counting from 1) for every `i` in `1..length`, and the error text for
every other index. -/
theorem C41_charAt (a : Obj) (s : Str) (ha : Chars a s) (i : Int) :
    (∀ (k : Nat) (c : Char), i = k + 1 → s[k]? = some c → charAt a (.int i) = .ok (.str [c])) ∧
    (i < 1 ∨ (s.length : Int) < i → charAt a (.int i) = .ok (.str errText)) := by
  constructor
  · intro k c hi hk
    have hlt : k < s.length := by
      by_cases h : k < s.length
      · exact h
      · rw [List.getElem?_eq_none (by omega)] at hk; cases hk
    have hcond : ¬ (i - 1 < 0 ∨ i - 1 ≥ s.length) := by omega
    have hn : (i - 1).toNat = k := by omega
    have hn' : i.toNat - 1 = k := by omega
    simp only [charAt, embeddedInteger, ha.emb, bind, Except.bind, pure, Except.pure, hcond, if_false, hn, hk]
  · intro hi
    have hcond : (i - 1 < 0 ∨ i - 1 ≥ s.length) := by omega
    simp only [charAt, embeddedInteger, ha.emb, bind, Except.bind, pure, Except.pure, hcond, if_true]

/-- **C41**: `primSubstringFrom: i to: j` with `1 ≤ i ≤ length` and `i - 1 ≤ j ≤ length` answers exactly the characters at
positions `i..j`; every other pair of bounds answers the error text. -/
theorem C41_substring (a : Obj) (s : Str) (ha : Chars a s) (i j : Int) :
    (1 ≤ i → i ≤ s.length → i - 1 ≤ j → j ≤ s.length →
      ∃ t : Str, substring a (.int i) (.int j) = .ok (.str t) ∧ (t.length : Int) = j - (i - 1) ∧
        ∀ k : Nat, k < t.length → t[k]? = s[(i - 1).toNat + k]?) ∧
    (¬ (1 ≤ i ∧ i ≤ s.length ∧ i - 1 ≤ j ∧ j ≤ s.length) → substring a (.int i) (.int j) = .ok (.str errText)) := by
  constructor
  · intro h1 h2 h3 h4
    have hcond : ¬ (i - 1 < 0 ∨ i - 1 ≥ s.length ∨ j > s.length ∨ j < i - 1) := by omega
    refine ⟨slice s (i - 1).toNat j.toNat, ?_, ?_, ?_⟩
    · simp only [substring, embeddedInteger, ha.emb, bind, Except.bind, pure, Except.pure, hcond, if_false]
    · simp only [slice, List.length_drop, List.length_take]; omega
    · intro k hk
      simp only [slice, List.length_drop, List.length_take] at hk
      simp only [slice, List.getElem?_drop, List.getElem?_take]
      rw [if_pos (by omega)]
  · intro h
    have hcond : (i - 1 < 0 ∨ i - 1 ≥ s.length ∨ j > s.length ∨ j < i - 1) := by omega
    simp only [substring, embeddedInteger, ha.emb, bind, Except.bind, pure, Except.pure, hcond, if_true]

/-- **C41**: taking a string apart and concatenating gives it back. -/
theorem C41_split_concat (s : Str) (k : Nat) (h1 : 1 ≤ k) (h2 : k < s.length) :
    ∃ a b, substring (.str s) (.int 1) (.int k) = .ok a ∧ substring (.str s) (.int (k + 1)) (.int s.length) = .ok b ∧
      concat a b = .ok (.str s) := by
  refine ⟨.str (s.take k), .str (s.drop k), ?_, ?_, ?_⟩
  · have hcond : ¬ ((1 : Int) - 1 < 0 ∨ (1 : Int) - 1 ≥ s.length ∨ (k : Int) > s.length ∨ (k : Int) < 1 - 1) := by omega
    simp only [substring, embeddedInteger, embeddedString, bind, Except.bind, pure, Except.pure, hcond, if_false]
    simp [slice]
  · have hcond : ¬ ((k : Int) + 1 - 1 < 0 ∨ (k : Int) + 1 - 1 ≥ s.length ∨ (s.length : Int) > s.length ∨ (s.length : Int) < k + 1 - 1) := by omega
    simp only [substring, embeddedInteger, embeddedString, bind, Except.bind, pure, Except.pure, hcond, if_false]
    simp only [slice, Int.toNat_natCast, List.take_length, Except.ok.injEq, Obj.str.injEq]
    congr 1
    omega
  · simp [concat, embeddedString, bind, Except.bind, pure, Except.pure]

/-- **C41**: the character-class tests hold exactly for non-empty strings all of whose characters are of the class. -/
theorem C41_kinds (p : Char → Bool) (s : Str) : isKind p s = true ↔ s ≠ [] ∧ ∀ c ∈ s, p c = true := by
  have hall : ∀ s : Str, allChars p s = true ↔ ∀ c ∈ s, p c = true := by
    intro s; induction s with
    | nil => simp [allChars]
    | cons c cs ih =>
      simp only [allChars, List.mem_cons, forall_eq_or_imp]
      by_cases h : p c = true <;> simp [h, ih]
  simp only [isKind]
  by_cases h : allChars p s = true
  · simp only [h, if_true]
    have := (hall s).1 h
    cases s with
    | nil => simp
    | cons c cs => simpa using this
  · simp only [h]
    constructor
    · intro h'; cases h'
    · intro h'; exact absurd ((hall s).2 h'.2) h

example : charAt (.str "abc".toList) (.int 3) = .ok (.str "c".toList) ∧ charAt (.str "abc".toList) (.int 4) = .ok (.str errText) ∧
    substring (.sym "hello".toList) (.int 2) (.int 4) = .ok (.str "ell".toList) ∧
    substring (.str "hello".toList) (.int 2) (.int 1) = .ok (.str []) := by decide

/-- **C41 violated** ("reported"): the error is reported as an ordinary String, so a legitimate answer can be
indistinguishable from the report. -/
theorem C41_violated_error_is_a_string : ∃ (s : Str) (i j i' j' : Int),
    (1 ≤ i ∧ i ≤ s.length ∧ i - 1 ≤ j ∧ j ≤ s.length) ∧ ¬ (1 ≤ i' ∧ i' ≤ s.length ∧ i' - 1 ≤ j' ∧ j' ≤ s.length) ∧
    substring (.str s) (.int i) (.int j) = substring (.str s) (.int i') (.int j') :=
  ⟨errText, 1, 27, 28, 28, by decide, by decide, by decide⟩

/-- Limits: the empty piece after the last character, `from: length + 1 to: length`, is refused, so a string cannot be
split at its end. -/
theorem C41_limit_empty_tail (s : Str) :
    substring (.str s) (.int (s.length + 1)) (.int s.length) = .ok (.str errText) :=
  (C41_substring (.str s) s (.inl rfl) _ _).2 (by omega)

/-! ## C49, strings and symbols -/

/-- The `=` a string or symbol receives. -/
def eq (a b : Obj) : Except Err Bool := match a with
  | .sym _ => symbolEquals a b
  | _ => equals a b

/-- **C49**: `=` on strings and symbols compares the characters, in any mix, and is false for any other argument; it is thus
reflexive, symmetric and transitive on strings and symbols. -/
theorem C49_string_equality (a b : Obj) (s : Str) (ha : Chars a s) :
    ∃ r, eq a b = .ok r ∧ (r = true ↔ Chars b s) := by
  rcases ha with ha | ha <;> subst ha <;> cases b <;>
    simp [eq, equals, symbolEquals, embeddedString, bind, Except.bind, pure, Except.pure, Chars, eq_comm]
  split <;> simp_all

example : eq (.str "ab".toList) (.sym "ab".toList) = .ok true ∧ eq (.sym "ab".toList) (.str "ab".toList) = .ok true ∧
    eq (.sym "ab".toList) (.int 3) = .ok false := by decide

/-- **C49**/**C21**: `asSymbol` and `asString` are inverse to each other. -/
theorem C49_asSymbol_asString (s : Str) :
    (asSymbol (.str s) >>= asString) = .ok (.str s) ∧ (asString (.sym s) >>= asSymbol) = .ok (.sym s) := ⟨rfl, rfl⟩

/-! ## C42 -/

theorem findNewline_some (s : Str) (i k : Nat) (h : findNewline s i = some k) :
    i ≤ k ∧ s[k]? = some '\n' ∧ ∀ j, i ≤ j → j < k → s[j]? ≠ some '\n' := by
  fun_induction findNewline s i with
  | case1 i h1 h2 =>
    cases h
    exact ⟨Nat.le_refl _, by rw [List.getElem?_eq_getElem h1, h2], by omega⟩
  | case2 i h1 h2 ih =>
    obtain ⟨a, b, c⟩ := ih h
    refine ⟨by omega, b, ?_⟩
    intro j hj hk
    by_cases hij : i = j
    · subst hij; rw [List.getElem?_eq_getElem h1]; simpa using h2
    · exact c j (by omega) hk
  | case3 i h1 => cases h

theorem findNewline_none (s : Str) (i : Nat) (h : findNewline s i = none) : ∀ j : Nat, i ≤ j → s[j]? ≠ some '\n' := by
  fun_induction findNewline s i with
  | case1 i h1 h2 => cases h
  | case2 i h1 h2 ih =>
    intro j hj
    by_cases hij : i = j
    · subst hij; rw [List.getElem?_eq_getElem h1]; simpa using h2
    · exact ih h j (by omega)
  | case3 i h1 =>
    intro j hj; rw [List.getElem?_eq_none (by omega)]; simp

/-- What a successful call does: it answers the piece starting at the position and moves past it. -/
def Advances (st : Stream) (d : Str) (st' : Stream) : Prop :=
  st'.string = st.string ∧ st'.pos = st.pos + d.length ∧ st'.pos ≤ st.string.length ∧
  st.string.take st.pos ++ d = st.string.take st'.pos

theorem read_advances (st : Stream) (n : Nat) (h : st.pos ≤ st.string.length) :
    ∃ d st', st.read n = .ok (d, st') ∧ Advances st d st' ∧ d.length = min n (st.string.length - st.pos) := by
  have he : ¬ ((st.pos : Int) + n < 0) := by omega
  have ht : ((st.pos : Int) + n).toNat = st.pos + n := by omega
  have hslice : slice st.string st.pos (st.pos + n) = (st.string.drop st.pos).take n := by
    simp only [slice, List.drop_take]; congr 1; omega
  refine ⟨(st.string.drop st.pos).take n, ⟨st.string, st.pos + ((st.string.drop st.pos).take n).length⟩, ?_, ?_, ?_⟩
  · simp only [Stream.read, he, if_false, ht, hslice]
  · refine ⟨rfl, rfl, ?_, ?_⟩
    · simp only [List.length_take, List.length_drop]; omega
    · simp only [List.length_take, List.length_drop]
      by_cases hc : n ≤ st.string.length - st.pos
      · rw [Nat.min_eq_left hc, List.take_add]
      · rw [Nat.min_eq_right (by omega), List.take_add]
        congr 1
        rw [List.take_of_length_le (by simp; omega), List.take_of_length_le (by simp)]
  · simp

/-- A line: all characters up to and including the next newline, or up to the end if there is none. -/
def IsLine (st : Stream) (d : Str) : Prop :=
  (∃ body, d = body ++ ['\n'] ∧ '\n' ∉ body) ∨ ('\n' ∉ d ∧ st.pos + d.length = st.string.length)

theorem mem_take_drop {s : Str} {p n : Nat} {c : Char} (h : c ∈ (s.drop p).take n) : ∃ j, p ≤ j ∧ j < p + n ∧ s[j]? = some c := by
  obtain ⟨k, hk⟩ := List.mem_iff_getElem?.1 h
  rw [List.getElem?_take] at hk
  split at hk
  · rw [List.getElem?_drop] at hk
    exact ⟨p + k, by omega, by omega, hk⟩
  · cases hk

theorem readline_advances (st : Stream) (h : st.pos ≤ st.string.length) :
    ∃ d st', st.readline = .ok (d, st') ∧ Advances st d st' ∧ IsLine st d := by
  unfold Stream.readline
  cases hf : findNewline st.string st.pos with
  | some i =>
    obtain ⟨h1, h2, h3⟩ := findNewline_some _ _ _ hf
    have hi : i < st.string.length := by
      by_cases hc : i < st.string.length
      · exact hc
      · rw [List.getElem?_eq_none (by omega)] at h2; cases h2
    obtain ⟨n, hn⟩ : ∃ n : Nat, n = i - st.pos := ⟨_, rfl⟩
    have hcast : (i : Int) - st.pos + 1 = ((n + 1 : Nat) : Int) := by omega
    obtain ⟨d, st', e1, e2, e3⟩ := read_advances st (n + 1) h
    refine ⟨d, st', by rw [← e1]; simp only [hcast], e2, .inl ?_⟩
    have hd : d = (st.string.drop st.pos).take (n + 1) := by
      have := e1
      simp only [Stream.read] at this
      split at this
      · cases this
      · simp only [Except.ok.injEq, Prod.mk.injEq] at this
        rw [← this.1]
        simp only [slice, List.drop_take]; congr 1; omega
    refine ⟨(st.string.drop st.pos).take n, ?_, ?_⟩
    · rw [hd, List.take_add_one]
      congr 1
      rw [List.getElem?_drop]
      have : st.pos + n = i := by omega
      rw [this, h2]; rfl
    · intro hm
      obtain ⟨j, j1, j2, j3⟩ := mem_take_drop hm
      exact h3 j j1 (by omega) j3
  | none =>
    have hno := findNewline_none _ _ hf
    simp only
    split
    · rename_i hp
      refine ⟨_, _, rfl, ⟨rfl, by simp [hp], Nat.le_refl _, by simp [hp]⟩, .inr ⟨?_, by simp [hp]⟩⟩
      intro hm
      obtain ⟨k, hk⟩ := List.mem_iff_getElem?.1 hm
      exact hno k (by omega) hk
    · have hcast : (st.string.length : Int) - st.pos = ((st.string.length - st.pos : Nat) : Int) := by omega
      obtain ⟨d, st', e1, e2, e3⟩ := read_advances st (st.string.length - st.pos) h
      refine ⟨d, st', by rw [hcast]; exact e1, e2, .inr ⟨?_, by omega⟩⟩
      have hd : d = st.string.drop st.pos := by
        have h4 := e2.2.2.2
        have h5 : st'.pos = st.string.length := by have := e2.2.1; omega
        rw [h5, List.take_length] at h4
        have := List.take_append_drop st.pos st.string
        exact List.append_cancel_left (h4.trans this.symm)
      rw [hd]
      intro hm
      obtain ⟨k, hk⟩ := List.mem_iff_getElem?.1 hm
      rw [List.getElem?_drop] at hk
      exact hno _ (by omega) hk

theorem step_advances (st : Stream) (h : st.pos ≤ st.string.length) (op : StreamOp) :
    ∃ d st', st.step op = .ok (d, st') ∧ Advances st d st' := by
  cases op with
  | read n => obtain ⟨d, st', a, b, _⟩ := read_advances st n h; exact ⟨d, st', a, b⟩
  | readline => obtain ⟨d, st', a, b, _⟩ := readline_advances st h; exact ⟨d, st', a, b⟩

/-- **C42**: any sequence of `read` and `readline` calls on a fresh stream succeeds, and the answers concatenate to exactly
the text read so far: the text up to the final position. -/
theorem C42_pieces_concatenate (text : Str) (ops : List StreamOp) :
    ∃ ds st, (Stream.mk text 0).run ops = .ok (ds, st) ∧ st.string = text ∧ st.pos ≤ text.length ∧
      ds.flatten = text.take st.pos ∧ ds.length = ops.length := by
  have gen : ∀ (ops : List StreamOp) (st : Stream), st.pos ≤ st.string.length →
      ∃ ds st', st.run ops = .ok (ds, st') ∧ st'.string = st.string ∧ st'.pos ≤ st.string.length ∧
        st.string.take st.pos ++ ds.flatten = st.string.take st'.pos ∧ ds.length = ops.length := by
    intro ops
    induction ops with
    | nil => intro st h; exact ⟨[], st, rfl, rfl, h, by simp, rfl⟩
    | cons op ops ih =>
      intro st h
      obtain ⟨d, st1, e1, a1, a2, a3, a4⟩ := step_advances st h op
      obtain ⟨ds, st2, e2, b1, b2, b3, b4⟩ := ih st1 (by rw [a1]; exact a3)
      refine ⟨d :: ds, st2, ?_, by rw [b1, a1], by rw [a1] at b2; exact b2, ?_, by simp [b4]⟩
      · simp [Stream.run, e1, e2, bind, Except.bind, pure, Except.pure]
      · rw [List.flatten_cons, ← List.append_assoc, a4]
        rw [a1] at b3; exact b3
  obtain ⟨ds, st, h1, h2, h3, h4, h5⟩ := gen ops ⟨text, 0⟩ (Nat.zero_le _)
  exact ⟨ds, st, h1, h2, h3, by simpa using h4, h5⟩

/-- **C42**: `readline` answers exactly one line: up to and including the next newline, or the rest of the text. -/
theorem C42_readline (st : Stream) (h : st.pos ≤ st.string.length) :
    ∃ d st', st.readline = .ok (d, st') ∧ Advances st d st' ∧ IsLine st d := readline_advances st h

/-- **C42**: `read n` answers `n` characters, or what is left. -/
theorem C42_read (st : Stream) (n : Nat) (h : st.pos ≤ st.string.length) :
    ∃ d st', st.read n = .ok (d, st') ∧ Advances st d st' ∧ d.length = min n (st.string.length - st.pos) :=
  read_advances st n h

/-- **C42**: before the end a `readline` always makes progress, so reading line by line reaches the end. -/
theorem C42_readline_progress (st : Stream) (h : st.pos < st.string.length) :
    ∃ d st', st.readline = .ok (d, st') ∧ st.pos < st'.pos := by
  obtain ⟨d, st', h1, h2, h3⟩ := readline_advances st (Nat.le_of_lt h)
  refine ⟨d, st', h1, ?_⟩
  have := h2.2.1
  rcases h3 with ⟨b, hb, _⟩ | ⟨_, hd⟩
  · subst hb; simp at this; omega
  · omega

example : (Stream.mk "ab\ncd".toList 0).run [.read 1, .readline, .readline, .readline] =
    .ok (["a".toList, "b\n".toList, "cd".toList, []], ⟨"ab\ncd".toList, 5⟩) := by decide +kernel

/-! ## C43 -/

theorem rsplit1_some {sep : Char} {s a b : Str} (h : rsplit1 sep s = some (a, b)) : s = a ++ [sep] ++ b ∧ sep ∉ b := by
  induction s generalizing a with
  | nil => cases h
  | cons c cs ih =>
    simp only [rsplit1] at h
    cases hr : rsplit1 sep cs with
    | some p =>
      obtain ⟨a', b'⟩ := p
      rw [hr] at h
      simp only [Option.some.injEq, Prod.mk.injEq] at h
      obtain ⟨rfl, rfl⟩ := h
      obtain ⟨h1, h2⟩ := ih hr
      exact ⟨by rw [h1]; simp, h2⟩
    | none =>
      rw [hr] at h
      simp only at h
      split at h
      · rename_i hc
        simp only [Option.some.injEq, Prod.mk.injEq] at h
        obtain ⟨rfl, rfl⟩ := h
        refine ⟨by simp [hc], ?_⟩
        have : ∀ t : Str, rsplit1 sep t = none → sep ∉ t := by
          intro t; induction t with
          | nil => simp
          | cons d ds ihd =>
            intro ht
            simp only [rsplit1] at ht
            cases hr2 : rsplit1 sep ds with
            | some p => rw [hr2] at ht; cases ht
            | none =>
              rw [hr2] at ht
              simp only at ht
              split at ht
              · cases ht
              · rename_i hd
                simp only [List.mem_cons, not_or]
                exact ⟨fun h => hd h.symm, ihd hr2⟩
        exact this _ hr
      · cases h

theorem rsplit1_none {sep : Char} {t : Str} (ht : rsplit1 sep t = none) : sep ∉ t := by
  induction t with
  | nil => simp
  | cons d ds ihd =>
    simp only [rsplit1] at ht
    cases hr2 : rsplit1 sep ds with
    | some p => rw [hr2] at ht; cases ht
    | none =>
      rw [hr2] at ht
      simp only at ht
      split at ht
      · cases ht
      · rename_i hd
        simp only [List.mem_cons, not_or]
        exact ⟨fun h => hd h.symm, ihd hr2⟩

namespace Spec
/-- Recombining directory, name and extension; an empty part is left out together with its separator. -/
def recombine (sep : Char) (r : Str × Str × Str) : Str :=
  (if r.1 = [] then [] else r.1 ++ [sep]) ++ r.2.1 ++ (if r.2.2 = [] then [] else ['.'] ++ r.2.2)
end Spec

theorem splitExt_join (f : Str) :
    ((splitExt f).1 ++ (if (splitExt f).2 = [] then [] else ['.'] ++ (splitExt f).2) = f ↔ ∀ g, f ≠ g ++ ['.']) ∧
    ((splitExt f).1 ++ (if (splitExt f).2 = [] then [] else ['.'] ++ (splitExt f).2)).length ≤ f.length := by
  unfold splitExt
  cases hr : rsplit1 '.' f with
  | none =>
    have := rsplit1_none hr
    simp only [if_true, List.append_nil, true_iff]
    refine ⟨?_, Nat.le_refl _⟩
    intro g hg; exact this (by rw [hg]; simp)
  | some q =>
    obtain ⟨a, b⟩ := q
    obtain ⟨h1, h2⟩ := rsplit1_some hr
    cases b with
    | nil =>
      simp only [if_true, List.append_nil] at h1 ⊢
      subst h1
      refine ⟨⟨?_, ?_⟩, by simp⟩
      · intro h; have := congrArg List.length h; simp at this
      · intro h; exact absurd rfl (h a)
    | cons c cs =>
      have hl : a ++ (['.'] ++ c :: cs) = f := by rw [h1]; simp
      simp only [List.cons_ne_nil, if_false, hl, true_iff]
      refine ⟨?_, Nat.le_refl _⟩
      intro g hg
      apply h2
      have e := h1.symm.trans hg
      have := congrArg List.getLast? e
      simp [List.getLast?_append] at this
      rw [List.mem_iff_getElem?]
      have hlast := List.getLast?_eq_some_iff.1 this
      obtain ⟨ys, hys⟩ := hlast
      exact ⟨ys.length, by rw [hys]; simp⟩

/-- **C43**: exactly which paths are the recombination of their parts: all but the files directly in the root directory
(one leading separator and no other) and the names ending in a dot. -/
theorem C43_recombine_iff (sep : Char) (hsep : sep ≠ '.') (p : Str) :
    Spec.recombine sep (pathSplit sep p) = p ↔ (∀ f, p = sep :: f → sep ∈ f) ∧ (∀ f, p ≠ f ++ ['.']) := by
  unfold pathSplit Spec.recombine splitDir
  cases hr : rsplit1 sep p with
  | none =>
    have hno := rsplit1_none hr
    simp only [if_true, List.nil_append]
    rw [(splitExt_join p).1]
    constructor
    · intro h
      exact ⟨fun f hf => absurd (by rw [hf]; exact List.mem_cons_self) hno, h⟩
    · intro h; exact h.2
  | some q =>
    obtain ⟨d, f⟩ := q
    obtain ⟨h1, h2⟩ := rsplit1_some hr
    obtain ⟨j1, j2⟩ := splitExt_join f
    simp only
    by_cases hd : d = []
    · subst hd
      simp only [if_true, List.nil_append]
      constructor
      · intro h
        have hl := congrArg List.length h
        rw [h1] at hl
        simp only [List.length_append, List.length_cons, List.length_nil] at hl j2
        omega
      · intro h; exact absurd (h.1 f (by simpa using h1)) h2
    · simp only [hd, if_false]
      rw [List.append_assoc]
      have e1 : (d ++ [sep] ++ ((splitExt f).1 ++ (if (splitExt f).2 = [] then [] else ['.'] ++ (splitExt f).2)) = p) ↔
          ((splitExt f).1 ++ (if (splitExt f).2 = [] then [] else ['.'] ++ (splitExt f).2) = f) := by
        rw [h1]
        exact ⟨fun h => List.append_cancel_left h, fun h => by rw [h]⟩
      rw [e1, j1]
      constructor
      · intro h
        refine ⟨?_, ?_⟩
        · intro g hg
          cases d with
          | nil => exact absurd rfl hd
          | cons x xs =>
            rw [h1] at hg
            simp only [List.append_assoc, List.cons_append, List.cons.injEq] at hg
            rw [← hg.2]; simp
        · intro g hg
          rw [h1] at hg
          cases hf : f.getLast? with
          | none =>
            have : f = [] := by simpa using hf
            subst this
            have := congrArg List.getLast? hg
            simp at this
            exact hsep this
          | some c =>
            obtain ⟨ys, hys⟩ := List.getLast?_eq_some_iff.1 hf
            have := congrArg List.getLast? hg
            rw [List.getLast?_append, hf] at this
            simp at this
            exact h ys (by rw [hys, this])
      · intro h g hg
        exact h.2 (d ++ [sep] ++ g) (by rw [h1, hg]; simp)

/-- **C43** (partial).  Full statement: `Spec.recombine sep (pathSplit sep p) = p` for every path `p`.  Proved for every path
that does not lie directly in the root directory and whose name does not end in a dot; by `C43_recombine_iff` these
are the only ones. -/
theorem C43_split_recombine_partial (sep : Char) (hsep : sep ≠ '.') (p : Str)
    (hroot : ∀ f, p = sep :: f → sep ∈ f) (hdot : ∀ f, p ≠ f ++ ['.']) :
    Spec.recombine sep (pathSplit sep p) = p := (C43_recombine_iff sep hsep p).2 ⟨hroot, hdot⟩

/-- **C43 violated**: a class file in the root directory loses its directory (so it is not searched there), and a trailing
dot disappears. -/
theorem C43_violated_split : Spec.recombine '/' (pathSplit '/' "/Foo.som".toList) = "Foo.som".toList ∧
    (programArgument '/' [".".toList] "/Foo.som".toList).1 = [".".toList] ∧
    Spec.recombine '/' (pathSplit '/' "a/b.".toList) = "a/b".toList := by decide

/-- **C43**: splitting a name formed from a directory, a name without separator and an extension gives back the parts. -/
theorem C43_split_of_combined (sep : Char) (hsep : sep ≠ '.') (dir name ext : Str) (hd : dir ≠ []) (h1 : sep ∉ name)
    (h2 : sep ∉ ext) (h3 : '.' ∉ ext) :
    pathSplit sep (dir ++ [sep] ++ name ++ ['.'] ++ ext) = (dir, name, ext) := by
  have none_of : ∀ (c : Char) (t : Str), c ∉ t → rsplit1 c t = none := by
    intro c t; induction t with
    | nil => intro _; rfl
    | cons d ds ih =>
      intro h
      simp only [List.mem_cons, not_or] at h
      simp [rsplit1, ih h.2, Ne.symm h.1]
  have key : ∀ (c : Char) (a b : Str), c ∉ b → rsplit1 c (a ++ [c] ++ b) = some (a, b) := by
    intro c a b hb
    induction a with
    | nil => simp [rsplit1, none_of c b hb]
    | cons x xs ih =>
      simp only [List.cons_append, rsplit1]
      rw [ih]
  have e1 : rsplit1 sep (dir ++ [sep] ++ (name ++ ['.'] ++ ext)) = some (dir, name ++ ['.'] ++ ext) := by
    apply key
    simp [h1, h2, hsep]
  have e2 := key '.' name ext h3
  simp only [pathSplit, splitDir]
  rw [show dir ++ [sep] ++ name ++ ['.'] ++ ext = dir ++ [sep] ++ (name ++ ['.'] ++ ext) by simp, e1]
  simp only [splitExt, e2]

example : pathSplit '/' "../foo/Test.som".toList = ("../foo".toList, "Test".toList, "som".toList) ∧
    programArgument '/' [".".toList] "Examples/Hello.som".toList = (["Examples".toList, ".".toList], "Hello".toList) := by decide

/-- **C43**: a class is loaded from the first directory of the class path that has a file of its name, directories before
it having none; it is not found only if no directory has one. -/
theorem C43_first_on_classpath {C : Type} (sep : Char) (fs : FileSystem C) (name : Str) (cps : List Str) :
    (∀ (before : List Str) (cp : Str) (after : List Str) (cname : Str) (c : C), cps = before ++ cp :: after →
      (∀ d ∈ before, fs (d ++ [sep] ++ name ++ ".som".toList) = none) →
      fs (cp ++ [sep] ++ name ++ ".som".toList) = some (cname, c) →
      loadClassFile sep fs name cps = if name = cname then .cls c else .nameMismatch) ∧
    (loadClassFile sep fs name cps = .notFound ↔ ∀ d ∈ cps, fs (d ++ [sep] ++ name ++ ".som".toList) = none) := by
  constructor
  · intro before cp after cname c h hb hc
    subst h
    induction before with
    | nil => simp only [List.nil_append, loadClassFile, hc]
    | cons d ds ih =>
      simp only [List.cons_append, loadClassFile, hb d List.mem_cons_self]
      exact ih (fun e he => hb e (List.mem_cons_of_mem _ he))
  · induction cps with
    | nil => simp [loadClassFile]
    | cons d ds ih =>
      simp only [loadClassFile]
      cases hf : fs (d ++ [sep] ++ name ++ ".som".toList) with
      | none =>
        simp only [ih]
        constructor
        · intro h e he
          rcases List.mem_cons.1 he with he | he
          · rw [he]; exact hf
          · exact h e he
        · intro h e he; exact h e (List.mem_cons_of_mem _ he)
      | some p =>
        constructor
        · intro h; simp only at h; split at h <;> cases h
        · intro h
          have := h d List.mem_cons_self
          rw [hf] at this; cases this

example : loadClassFile '/' (fun p => if p = "b/X.som".toList then some ("X".toList, 1) else if p = "c/X.som".toList then some ("X".toList, 2) else none)
    "X".toList ["a".toList, "b".toList, "c".toList] = .cls 1 := by decide

end PySOM.Str

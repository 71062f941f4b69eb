import Verif.Model.Symbols
/-!
# Properties C21 and C22 (symbols)
-/
set_option autoImplicit false
namespace PySOM.Sym

/-- The table maps a string to a symbol exactly if that symbol's object holds the string. -/
def Inv (st : State) : Prop := ∀ (s : Str) (i : Nat), List.lookup s st.table = some i ↔ st.objects[i]? = some s

theorem Inv.init : Inv State.init := by intro s i; simp [State.init]

theorem symbolFor_inv (st : State) (s : Str) (h : Inv st) : Inv (symbolFor st s).2 := by
  unfold symbolFor
  cases hl : List.lookup s st.table with
  | some r => exact h
  | none =>
    intro t i
    have hno : ∀ i : Nat, st.objects[i]? ≠ some s := by
      intro i hi; rw [(h s i).2 hi] at hl; cases hl
    simp only [List.lookup]
    by_cases ht : (t == s) = true
    · simp only [beq_iff_eq] at ht; subst ht
      simp only [beq_self_eq_true, Option.some.injEq]
      constructor
      · intro hi; subst hi; simp
      · intro hi
        rw [List.getElem?_append] at hi
        split at hi
        · exact absurd hi (hno i)
        · rename_i hlt
          have : (i - st.objects.length) < 1 := by
            cases hk : (i - st.objects.length) with
            | zero => omega
            | succ k => simp [hk] at hi
          omega
    · simp only [Bool.not_eq_true] at ht
      simp only [ht]
      rw [h t i, List.getElem?_append]
      split
      · rfl
      · rename_i hlt
        have hne : t ≠ s := by simpa using ht
        constructor
        · intro hi
          rw [List.getElem?_eq_none (by omega)] at hi; cases hi
        · intro hi
          cases hk : (i - st.objects.length) with
          | zero => simp [hk] at hi; exact absurd hi.symm hne
          | succ k => simp [hk] at hi

theorem symbolFor_string (st : State) (s : Str) (h : Inv st) : stringOf (symbolFor st s).2 (symbolFor st s).1 = some s := by
  unfold symbolFor stringOf
  cases hl : List.lookup s st.table with
  | some r => exact (h s r).1 hl
  | none => simp

theorem symbolFor_grows (st : State) (s t : Str) (i : Nat) (hi : stringOf st i = some t) :
    stringOf (symbolFor st s).2 i = some t := by
  unfold symbolFor stringOf at *
  cases hl : List.lookup s st.table with
  | some r => exact hi
  | none =>
    simp only
    have : i < st.objects.length := by
      by_cases hc : i < st.objects.length
      · exact hc
      · rw [List.getElem?_eq_none (by omega)] at hi; cases hi
    rw [List.getElem?_append_left this]; exact hi

theorem internAll_inv (ss : List Str) : ∀ st, Inv st → Inv (internAll st ss).2 := by
  induction ss with
  | nil => intro st h; exact h
  | cons s ss ih => intro st h; exact ih _ (symbolFor_inv st s h)

theorem internAll_grows (ss : List Str) : ∀ st (i : Nat) (t : Str), stringOf st i = some t →
    stringOf (internAll st ss).2 i = some t := by
  induction ss with
  | nil => intro st i t h; exact h
  | cons s ss ih => intro st i t h; exact ih _ i t (symbolFor_grows st s t i h)

theorem internAll_strings (ss : List Str) : ∀ st, Inv st →
    ∀ (k : Nat) (s : Str), ss[k]? = some s →
      ∃ i, (internAll st ss).1[k]? = some i ∧ stringOf (internAll st ss).2 i = some s := by
  induction ss with
  | nil => intro st h k s hk; simp at hk
  | cons s ss ih =>
    intro st h k t hk
    cases k with
    | zero =>
      simp only [List.getElem?_cons_zero, Option.some.injEq] at hk; subst hk
      exact ⟨_, rfl, internAll_grows ss _ _ _ (symbolFor_string st s h)⟩
    | succ k => exact ih _ (symbolFor_inv st s h) k t (by simpa using hk)

/-- **C21**: among all symbols obtained by any history of interning, two are identical exactly if the strings they were
made from are equal, and every symbol keeps the string it was made from. -/
theorem C21_symbols_unique (ss : List Str) (j k : Nat) (s t : Str) (a b : Nat)
    (hj : ss[j]? = some s) (hk : ss[k]? = some t)
    (ha : (internAll State.init ss).1[j]? = some a) (hb : (internAll State.init ss).1[k]? = some b) :
    (a = b ↔ s = t) ∧ stringOf (internAll State.init ss).2 a = some s := by
  obtain ⟨a', h1, h2⟩ := internAll_strings ss _ Inv.init j s hj
  obtain ⟨b', h3, h4⟩ := internAll_strings ss _ Inv.init k t hk
  rw [ha] at h1; cases h1
  rw [hb] at h3; cases h3
  have hinv := internAll_inv ss _ Inv.init
  refine ⟨⟨?_, ?_⟩, h2⟩
  · intro h; subst h; rw [h2] at h4; exact Option.some.inj h4
  · intro h; subst h
    have e1 := (hinv s a).2 h2
    have e2 := (hinv s b).2 h4
    rw [e1] at e2; exact Option.some.inj e2

/-- Every interning answers a symbol. -/
theorem C21_always_answers (ss : List Str) : (internAll State.init ss).1.length = ss.length := by
  have : ∀ (ss : List Str) st, (internAll st ss).1.length = ss.length := by
    intro ss; induction ss with
    | nil => intro st; rfl
    | cons s ss ih => intro st; simp [internAll, ih]
  exact this ss _

example : (internAll State.init ["a".toList, "at:".toList, "a".toList, "b".toList, "at:".toList]).1 = [0, 1, 0, 2, 1] := by decide

/-! ## C22, the arity of a selector -/

namespace Spec
/-- The three ways the grammar forms a selector. -/
inductive Selector where
  /-- an identifier -/
  | unary (id : Str)
  /-- a non-empty run of operator characters -/
  | binary (op : Str)
  /-- the identifiers of the keywords, without the colons -/
  | keyword (parts : List Str)

/-- The operator characters of the language (the scanner's `_is_operator`, `lexer.py:305-321`). -/
def opChars : List Char := ['~', '&', '|', '*', '/', '\\', '+', '=', '>', '<', ',', '@', '%', '-']

/-- An identifier: non-empty, no operator character and no colon in it. -/
def IsIdent (s : Str) : Prop := s ≠ [] ∧ ∀ c ∈ s, c ∉ opChars ∧ c ≠ ':'

def Selector.WF : Selector → Prop
  | .unary id => IsIdent id
  | .binary op => op ≠ [] ∧ ∀ c ∈ op, c ∈ opChars
  | .keyword parts => parts ≠ [] ∧ ∀ p ∈ parts, IsIdent p

/-- The text of a selector. -/
def Selector.text : Selector → Str
  | .unary id => id
  | .binary op => op
  | .keyword parts => (parts.map (· ++ [':'])).flatten

/-- Number of operands of a send, receiver included. -/
def Selector.operands : Selector → Nat
  | .unary _ => 1
  | .binary _ => 2
  | .keyword parts => parts.length + 1

end Spec
open Spec

theorem isOperatorChar_iff (c : Char) : isOperatorChar c = true ↔ c ∈ opChars := by
  simp [isOperatorChar, opChars]
  grind

theorem isBinary_iff (s : Str) : isBinarySignature s = true ↔ ∀ c ∈ s, c ∈ opChars := by
  induction s with
  | nil => simp [isBinarySignature]
  | cons c cs ih =>
    simp only [isBinarySignature]
    by_cases h : isOperatorChar c = true
    · simp [h, ih, (isOperatorChar_iff c).1 h]
    · have : c ∉ opChars := fun hc => h ((isOperatorChar_iff c).2 hc)
      simp [h, this]

theorem countColons_eq (s : Str) (n : Nat) : countColons s n = n + s.count ':' := by
  induction s generalizing n with
  | nil => simp [countColons]
  | cons c cs ih =>
    simp only [countColons, ih, List.count_cons]
    by_cases h : c = ':' <;> simp [h]
    omega

theorem isIdent_count {s : Str} (h : IsIdent s) : s.count ':' = 0 := by
  rw [List.count_eq_zero]; intro hc; exact (h.2 ':' hc).2 rfl

theorem isIdent_not_binary {s : Str} (h : IsIdent s) (t : Str) : isBinarySignature (s ++ t) = false := by
  cases s with
  | nil => exact absurd rfl h.1
  | cons c cs =>
    rw [Bool.eq_false_iff]; intro hb
    exact (h.2 c List.mem_cons_self).1 ((isBinary_iff _).1 hb c (by simp))

/-- **C22**: for every selector the grammar can form, the computed number of arguments is the number of operands a send
pushes: 1 for a unary, 2 for a binary selector and one more than the number of keywords for a keyword selector. -/
theorem C22_arity (sel : Selector) (h : sel.WF) : numberOfSignatureArguments sel.text = sel.operands := by
  cases sel with
  | unary id =>
    have hb : isBinarySignature id = false := by simpa using isIdent_not_binary h []
    simp [Selector.text, Selector.operands, numberOfSignatureArguments, hb, countColons_eq, isIdent_count h]
  | binary op =>
    have hb : isBinarySignature op = true := (isBinary_iff op).2 h.2
    simp [Selector.text, Selector.operands, numberOfSignatureArguments, hb]
  | keyword parts =>
    have hcount : ∀ ps : List Str, (∀ p ∈ ps, IsIdent p) → ((ps.map (· ++ [':'])).flatten).count ':' = ps.length := by
      intro ps hps
      induction ps with
      | nil => rfl
      | cons p ps ih =>
        have := ih (fun q hq => hps q (List.mem_cons_of_mem _ hq))
        simp only [List.map_cons, List.flatten_cons, List.count_append, this, isIdent_count (hps p List.mem_cons_self),
          List.length_cons]
        simp; omega
    have hb : isBinarySignature ((parts.map (· ++ [':'])).flatten) = false := by
      cases parts with
      | nil => exact absurd rfl h.1
      | cons p ps =>
        simp only [List.map_cons, List.flatten_cons, List.append_assoc]
        exact isIdent_not_binary (h.2 p List.mem_cons_self) _
    simp [Selector.text, Selector.operands, numberOfSignatureArguments, hb, countColons_eq, hcount parts h.2]

example : (Selector.keyword ["at".toList, "put".toList]).WF ∧ numberOfSignatureArguments "at:put:".toList = 3 ∧
    (Selector.binary "<=".toList).WF ∧ numberOfSignatureArguments "<=".toList = 2 ∧
    (Selector.unary "size".toList).WF ∧ numberOfSignatureArguments "size".toList = 1 := by
  simp [Selector.WF, IsIdent, opChars, numberOfSignatureArguments, isBinarySignature, isOperatorChar, countColons]

/-- **C22**, for arbitrary symbol strings (reflective sends may use any): 2 exactly for a run of operator characters,
otherwise the number of colons plus one.  The empty string counts as an operator. -/
theorem C22_arity_any (s : Str) :
    ((∀ c ∈ s, c ∈ opChars) → numberOfSignatureArguments s = 2) ∧
    (¬ (∀ c ∈ s, c ∈ opChars) → numberOfSignatureArguments s = s.count ':' + 1) := by
  constructor
  · intro h; simp [numberOfSignatureArguments, (isBinary_iff s).2 h]
  · intro h
    have : isBinarySignature s = false := by rw [Bool.eq_false_iff]; exact fun hb => h ((isBinary_iff s).1 hb)
    simp [numberOfSignatureArguments, this, countColons_eq]

example : numberOfSignatureArguments [] = 2 ∧ numberOfSignatureArguments "::".toList = 3 := by decide

end PySOM.Sym

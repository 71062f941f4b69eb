import Verif.Spec.Shell
import Std.Data.String.ToNat
/-!
# C60: the shell
-/
set_option autoImplicit false
namespace PySOM.Shell
open PySOM.Str Spec

/-- **C60**: reading a line gives the text of exactly that line and leaves what follows, if no character is cut by the
buffer of 32 bytes. -/
theorem C60_line_partial (decode : Bytes → Option Str) (answer l : Str) (cs rest : List Bytes) (h : TypedLine decode l cs) :
    rawInput decode answer (cs ++ rest) = ⟨some (answer ++ l), rest⟩ := by
  induction h generalizing answer with
  | last hd => simp [rawInput, hd]
  | more hd hne hnl _ ih =>
    simp only [List.cons_append, rawInput, List.length_eq_zero_iff, hne, hnl, if_false, hd, ih, List.append_assoc]

/-- **C60**: a line of ASCII characters may be cut anywhere. -/
theorem C60_ascii (decode : Bytes → Option Str)
    (hdec : ∀ bs : Bytes, (∀ b ∈ bs, b < 128) → decode bs = some (bs.map fun b => Char.ofNat b.toNat))
    (l : Bytes) (hl : ∀ b ∈ l, b < 128) (hnl : 10 ∉ l) (cs : List Bytes) (hcs : cs.flatten = l ++ [10]) (hne : ∀ c ∈ cs, c ≠ []) :
    TypedLine decode (l.map fun b => Char.ofNat b.toNat) cs := by
  induction cs generalizing l with
  | nil => simp at hcs
  | cons c cs ih =>
    rw [List.flatten_cons] at hcs
    have hc := hne c List.mem_cons_self
    by_cases hcs0 : cs = []
    · subst hcs0
      simp only [List.flatten_nil, List.append_nil] at hcs
      subst hcs
      exact .last (hdec l hl)
    · obtain ⟨t, ht⟩ : ∃ t, l = c ++ t := by
        have hpos : 0 < cs.flatten.length := by
          cases cs with
          | nil => exact absurd rfl hcs0
          | cons d ds =>
            have := hne d (by simp)
            have := List.length_pos_iff.2 this
            simp only [List.flatten_cons, List.length_append]; omega
        have hlen := congrArg List.length hcs
        simp only [List.length_append, List.length_cons, List.length_nil] at hlen
        refine ⟨l.drop c.length, ?_⟩
        have := congrArg (List.take c.length) hcs
        rw [List.take_left' rfl, List.take_append_of_le_length (by omega)] at this
        have e := (List.take_append_drop c.length l).symm
        rwa [← this] at e
      subst ht
      rw [List.append_assoc] at hcs
      have hcs := List.append_cancel_left hcs
      rw [List.map_append]
      refine .more (hdec c (fun b hb => hl b (by simp [hb]))) hc ?_ (ih t (fun b hb => hl b (by simp [hb])) (fun hh => hnl (by simp [hh])) hcs (fun d hd => hne d (by simp [hd])))
      intro hlast
      exact hnl (by simp [List.mem_of_getLast? hlast])

theorem typedLine_ne {decode : Bytes → Option Str} {l : Str} {cs : List Bytes} (h : TypedLine decode l cs) : cs ≠ [] := by
  cases h <;> simp

/-- One step of the shell. -/
theorem start_line {S V : Type} (decode : Bytes → Option Str) (eval : S → Str → V → S × Result V) (s : S) (n : Nat) (it : V)
    (l : Str) (cs rest : List Bytes) (h : TypedLine decode l cs) :
    start decode eval s n it (cs ++ rest) =
      if l = "quit".toList ∨ l = [] then (.answer it, s, [])
      else if l = ['\n'] then start decode eval s n it rest
      else
        let text := classText n l
        match (eval s text it).2 with
        | .exit c => (.exit c, (eval s text it).1, [(text, it)])
        | .badMessage => (.raised, (eval s text it).1, [(text, it)])
        | r =>
          let e := start decode eval (eval s text it).1 (n + 1) (newIt it r) rest
          (e.1, e.2.1, (text, it) :: e.2.2) := by
  have hr := C60_line_partial decode [] l cs rest h
  have hne : cs ++ rest ≠ [] := by simp [typedLine_ne h]
  rw [start.eq_def]
  split
  · rename_i hl; rw [hr] at hl; simp at hl
  · rename_i stmt rest' hl
    rw [hr] at hl
    simp only [List.nil_append, Line.mk.injEq, Option.some.injEq] at hl
    obtain ⟨rfl, rfl⟩ := hl
    simp only [dif_neg hne]
    split
    · rfl
    · split
      · rfl
      · rcases he : eval s (classText n l) it with ⟨s', r⟩
        cases r <;> simp [newIt, he]

/-- **C60** (partial).  Full statement: whatever lines are typed, the shell does with them what `session` says, however
the operating system delivers them.  Proved if no line is empty and the lines are delivered one at a time without cutting
characters, and the message of every syntax error can be made; see the violations below. -/
theorem C60_session_partial {S V : Type} (decode : Bytes → Option Str) (eval : S → Str → V → S × Result V) (s : S) (n : Nat) (it : V)
    (ls : List Str) (cs : List Bytes) (h : Typed decode ls cs) (hne : ∀ l ∈ ls, l ≠ [] ∧ l ≠ ['\n'])
    (hmsg : ∀ s t it, (eval s t it).2 ≠ .badMessage) :
    start decode eval s n it cs = session eval s n it ls := by
  induction h generalizing s n it with
  | nil => rw [start.eq_def]; simp [rawInput, session]
  | cons hl _ ih =>
    rename_i l ls cs ds _
    rw [start_line decode eval s n it l cs ds hl]
    obtain ⟨h1, h2⟩ := hne l List.mem_cons_self
    have ih' := fun s n it => ih s n it (fun x hx => hne x (List.mem_cons_of_mem _ hx))
    simp only [h1, h2, or_false, if_false, session, ih']
    split
    · rfl
    · rcases he : (eval s (classText n l) it).2 <;> first | rfl | exact absurd he (hmsg _ _ _)

/-- **C60**: every statement gets a class of its own: the texts of the classes are made, in order, of the lines typed, with
numbers that count up. -/
theorem C60_classes {S V : Type} (eval : S → Str → V → S × Result V) (s : S) (n : Nat) (it : V) (ls : List Str) :
    ∃ k, ((session eval s n it ls).2.2.map Prod.fst) =
      ((((ls.takeWhile (· ≠ "quit".toList)).filter (· ≠ [])).take k).zipIdx n).map fun p => classText p.2 p.1 := by
  induction ls generalizing s n it with
  | nil => exact ⟨0, rfl⟩
  | cons l ls ih =>
    simp only [session]
    split
    · exact ⟨0, by simp⟩
    · rename_i hq
      split
      · rename_i he
        subst he
        obtain ⟨k, hk⟩ := ih s n it
        exact ⟨k, by simpa using hk⟩
      · rename_i he
        split
        · refine ⟨1, ?_⟩
          rw [List.takeWhile_cons_of_pos (by simpa only [ne_eq, decide_not, Bool.not_eq_true', decide_eq_false_iff_not] using hq),
            List.filter_cons_of_pos (by simpa using he)]
          simp
        · obtain ⟨k, hk⟩ := ih (eval s (classText n l) it).1 (n + 1) (newIt it (eval s (classText n l) it).2)
          refine ⟨k + 1, ?_⟩
          rw [List.takeWhile_cons_of_pos (by simpa only [ne_eq, decide_not, Bool.not_eq_true', decide_eq_false_iff_not] using hq),
            List.filter_cons_of_pos (by simpa using he)]
          simp only [List.map_cons, hk, List.take_succ_cons, List.zipIdx_cons]

/-- **C60**: the numbers make the names of the classes different. -/
theorem C60_names (i j : Nat) : "Shell_Class_".toList ++ (toString i).toList = "Shell_Class_".toList ++ (toString j).toList ↔ i = j := by
  rw [List.append_cancel_left_eq, String.toList_inj]
  exact Nat.repr_inj

/-- **C60**: errors are not fatal and do not change `it`; the values of the lines are passed on. -/
theorem C60_it {S V : Type} (eval : S → Str → V → S × Result V) (s : S) (n : Nat) (it : V) (l : Str) (ls : List Str)
    (h1 : l ≠ []) (h2 : l ≠ "quit".toList) :
    (∀ (s' : S) (v : V), eval s (classText n l) it = (s', .value v) →
      (session eval s n it (l :: ls)).1 = (session eval s' (n + 1) v ls).1) ∧
    (∀ (s' : S), eval s (classText n l) it = (s', .error) ∨ eval s (classText n l) it = (s', .noClass) →
      (session eval s n it (l :: ls)).1 = (session eval s' (n + 1) it ls).1) ∧
    (∀ (s' : S) (c : Int), eval s (classText n l) it = (s', .exit c) → (session eval s n it (l :: ls)).1 = .exit c) := by
  refine ⟨?_, ?_, ?_⟩
  · intro s' v h; simp only [session, h1, h2, h, newIt, if_false]
  · rintro s' (h | h) <;> simp only [session, h1, h2, h, newIt, if_false]
  · intro s' c h; simp only [session, h1, h2, h, if_false]

/-- **C60 violated**: an empty line ends the shell, though lines follow; the test for a line that is only a newline
(`shell.py:27-28`) can never succeed, since the newline is removed. -/
theorem C60_violated_empty {S V : Type} (decode : Bytes → Option Str) (hd : decode [] = some []) (eval : S → Str → V → S × Result V)
    (s : S) (n : Nat) (it : V) (rest : List Bytes) :
    start decode eval s n it ([10] :: rest) = (.answer it, s, []) := by
  have := start_line decode eval s n it [] [[10]] rest (.last (b := []) hd)
  simpa using this

/-- **C60 violated**: a statement with a syntax error ends the shell with an exception if the message of the error cannot be made, as
when the statement has a percent sign (C63: the line shown in the message is the whole class, with the statement). -/
theorem C60_violated_percent {S V : Type} (decode : Bytes → Option Str) (eval : S → Str → V → S × Result V) (s s' : S) (n : Nat) (it : V)
    (l : Str) (cs rest : List Bytes) (h : TypedLine decode l cs) (h1 : l ≠ "quit".toList) (h2 : l ≠ []) (h3 : l ≠ ['\n'])
    (he : eval s (classText n l) it = (s', .badMessage)) :
    start decode eval s n it (cs ++ rest) = (.raised, s', [(classText n l, it)]) := by
  rw [start_line decode eval s n it l cs rest h, if_neg (fun hh => hh.elim h1 h2), if_neg h3]
  simp only [he]

/-- **C60 violated**: lines that arrive together, as from a pipe or a paste, are read as one statement with a newline
in it. -/
theorem C60_violated_together (decode : Bytes → Option Str) (a b : Bytes) (t : Str) (rest : List Bytes)
    (hd : decode (a ++ [10] ++ b) = some t) :
    rawInput decode [] ((a ++ [10] ++ b ++ [10]) :: rest) = ⟨some t, rest⟩ := by
  have := C60_line_partial decode [] t [a ++ [10] ++ b ++ [10]] rest (.last hd)
  simpa using this

/-- **C60 violated**: if the buffer of 32 bytes cuts a character, the first part of the line is an error (caught by the loop),
and the rest of the line is then taken for a line of its own. -/
theorem C60_violated_cut {S V : Type} (decode : Bytes → Option Str) (eval : S → Str → V → S × Result V) (s : S) (n : Nat) (it : V)
    (c : Bytes) (hc : c ≠ []) (hcut : decode c = none) (hnl : c.getLast? ≠ some 10) (rest : List Bytes) :
    start decode eval s n it (c :: rest) = start decode eval s n it rest := by
  rw [start.eq_def]
  have hr : rawInput decode [] (c :: rest) = ⟨none, rest⟩ := by simp [rawInput, hc, hcut, hnl]
  split
  · rename_i hl
    rw [hr] at hl
    simp only [Line.mk.injEq, true_and] at hl
    subst hl
    simp
  · rename_i hl; rw [hr] at hl; simp at hl

/-- Decoding of ASCII bytes. -/
def asciiDecode (bs : Bytes) : Option Str :=
  if bs.all (· < 128) then some (bs.map fun b => Char.ofNat b.toNat) else none

/-- An evaluator for examples: the VM counts lines, the letter `e` is an error, everything else has its length as value. -/
def toyEval (s : Nat) (t : Str) (it : Nat) : Nat × Result Nat :=
  if 'q' ∈ t.drop 40 ∧ it = 100 then (s, .exit 1) else if '!' ∈ t then (s + 1, .error) else (s + 1, .value (t.length + it))

example : Typed asciiDecode ["1+2".toList, "!".toList, "it".toList, "quit".toList]
    ([[49, 43], [50, 10]] ++ ([[33, 10]] ++ ([[105, 116, 10]] ++ ([[113, 117, 105, 116, 10]] ++ [])))) :=
  .cons (.more (t := "1+".toList) (by decide) (by decide) (by decide) (.last (b := [50]) (by decide)))
    (.cons (.last (b := [33]) (by decide)) (.cons (.last (b := [105, 116]) (by decide))
      (.cons (.last (b := [113, 117, 105, 116]) (by decide)) .nil)))

example : (session toyEval 0 0 0 ["1+2".toList, "!".toList, [], "it".toList, "quit".toList]).1 = .answer 167 ∧
    ((session toyEval 0 0 0 ["1+2".toList, "!".toList, [], "it".toList, "quit".toList]).2.2.map Prod.snd) = [0, 84, 84] := by
  decide +kernel

end PySOM.Shell

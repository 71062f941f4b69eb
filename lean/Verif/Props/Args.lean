import Verif.Model.Args
import Verif.Spec.Args
import Verif.Props.Strings
/-!
# C59: the command line
-/
set_option autoImplicit false
namespace PySOM.Args
open PySOM.Str Spec

theorem splitAll_ne (sep : Char) (s : Str) : splitAll sep s ≠ [] := by
  cases s with
  | nil => simp [splitAll]
  | cons c cs =>
    simp only [splitAll]
    split
    · simp
    · split <;> simp

/-- **C59**: the class path is the list of the parts of the option's text between the separators, and that is the only
way to divide it so. -/
theorem C59_classpath (sep : Char) (s : Str) (ps : List Str) : splitAll sep s = ps ↔ Parts sep s ps := by
  have fwd : ∀ s : Str, Parts sep s (splitAll sep s) := by
    intro s
    induction s with
    | nil => exact ⟨by simp [splitAll], by simp [splitAll, List.intercalate], by simp [splitAll]⟩
    | cons c cs ih =>
      obtain ⟨h1, h2, h3⟩ := ih
      refine ⟨splitAll_ne sep _, ?_, ?_⟩
      · simp only [splitAll]
        cases hs : splitAll sep cs with
        | nil => exact absurd hs h1
        | cons p ps =>
          rw [hs] at h2
          split
          · rename_i hc
            subst hc
            rw [← h2]
            simp [List.intercalate, List.intersperse]
          · rw [← h2]
            cases ps <;> simp [List.intercalate, List.intersperse]
      · simp only [splitAll]
        cases hs : splitAll sep cs with
        | nil => exact absurd hs h1
        | cons p ps =>
          rw [hs] at h3
          split
          · intro q hq
            rcases List.mem_cons.1 hq with rfl | hq
            · simp
            · exact h3 q hq
          · rename_i hc
            intro q hq
            rcases List.mem_cons.1 hq with rfl | hq
            · simp only [List.mem_cons, not_or]
              exact ⟨Ne.symm hc, h3 p List.mem_cons_self⟩
            · exact h3 q (List.mem_cons_of_mem _ hq)
  have part : ∀ (p rest : Str), sep ∉ p → splitAll sep (p ++ sep :: rest) = p :: splitAll sep rest := by
    intro p rest
    induction p with
    | nil => intro _; simp [splitAll]
    | cons c cs ih =>
      intro h
      simp only [List.mem_cons, not_or] at h
      simp only [List.cons_append, splitAll, Ne.symm h.1, if_false, ih h.2]
  have single : ∀ (p : Str), sep ∉ p → splitAll sep p = [p] := by
    intro p
    induction p with
    | nil => intro _; simp [splitAll]
    | cons c cs ih =>
      intro h
      simp only [List.mem_cons, not_or] at h
      simp only [splitAll, Ne.symm h.1, if_false, ih h.2]
  constructor
  · intro h; subst h; exact fwd s
  · rintro ⟨h1, h2, h3⟩
    subst h2
    induction ps with
    | nil => exact absurd rfl h1
    | cons p qs ih =>
      cases qs with
      | nil => simpa [List.intercalate] using single p (h3 p List.mem_cons_self)
      | cons q rs =>
        have e : [sep].intercalate (p :: q :: rs) = p ++ sep :: [sep].intercalate (q :: rs) := by
          simp [List.intercalate, List.intersperse]
        rw [e, part p _ (h3 p List.mem_cons_self), ih (by simp) (fun x hx => h3 x (List.mem_cons_of_mem _ hx))]

example : splitAll ':' "Smalltalk:Examples/a".toList = ["Smalltalk".toList, "Examples/a".toList] := by decide

/-- What a list of options sets. -/
def apply (pathsep : Char) (s : Settings) : Opt → Settings
  | .cp p => { s with classpath := some (splitAll pathsep p) }
  | .dump => { s with dump := true }
  | .noGc => { s with noGc := true }

theorem scan_opts (pathsep : Char) (avoid : Bool) (os : List Opt) (s : Settings) (rest more : List Str) :
    scan pathsep avoid s false rest (os.flatMap Opt.words ++ more) =
      scan pathsep avoid (os.foldl (apply pathsep) s) false rest more := by
  induction os generalizing s with
  | nil => rfl
  | cons o os ih =>
    cases o with
    | cp p =>
      simp only [List.flatMap_cons, Opt.words, List.cons_append, List.nil_append, List.foldl_cons]
      rw [scan.eq_def, ← ih]; simp [apply]
    | dump =>
      simp only [List.flatMap_cons, Opt.words, List.cons_append, List.nil_append, List.foldl_cons]
      rw [scan.eq_def, ← ih]; simp [apply]
    | noGc =>
      simp only [List.flatMap_cons, Opt.words, List.cons_append, List.nil_append, List.foldl_cons]
      rw [scan.eq_def, ← ih]; simp [apply]

theorem scan_help (pathsep : Char) (avoid : Bool) (s : Settings) (rest more : List Str) (w : Str) (hw : w ∈ helpWords) :
    scan pathsep avoid s false rest (w :: more) = if avoid then scan pathsep avoid s false rest more else .usage := by
  simp only [helpWords, List.mem_cons, List.not_mem_nil, or_false] at hw
  rw [scan.eq_def]
  rcases hw with rfl | rfl | rfl <;> simp

theorem scan_saw (pathsep : Char) (avoid : Bool) (s : Settings) (rest more : List Str) :
    scan pathsep avoid s true rest more = .run s (rest ++ more) := by
  induction more generalizing rest with
  | nil => simp [scan]
  | cons a as ih => rw [scan.eq_def]; simp [ih]

theorem scan_others (pathsep : Char) (avoid : Bool) (s : Settings) (more : List Str)
    (h : ∀ w ∈ more.head?, w ∉ optionWords) : scan pathsep avoid s false [] more = .run s more := by
  cases more with
  | nil => simp [scan]
  | cons a as =>
    have := h a (by simp)
    simp only [optionWords, helpWords, List.cons_append, List.nil_append, List.mem_cons, List.not_mem_nil, or_false, not_or] at this
    obtain ⟨a1, a2, a3, a4, a5, a6⟩ := this
    rw [scan.eq_def]
    simp only [a1, a2, a3, a4, a5, a6, false_and, or_self, if_false, scan_saw]
    rfl

theorem fold_apply (pathsep : Char) (os : List Opt) (s : Settings) :
    os.foldl (apply pathsep) s =
      ⟨((lastPath os).map (splitAll pathsep)).or s.classpath, s.dump || decide (Opt.dump ∈ os), s.noGc || decide (Opt.noGc ∈ os)⟩ := by
  induction os generalizing s with
  | nil => simp [lastPath]
  | cons o os ih =>
    rw [List.foldl_cons, ih]
    cases o with
    | cp p =>
      simp only [apply, lastPath, List.filterMap_cons, Opt.path?, List.getLast?_cons]
      cases (List.filterMap Opt.path? os).getLast? <;> simp
    | dump => simp [apply, lastPath, List.filterMap_cons, Opt.path?]
    | noGc => simp [apply, lastPath, List.filterMap_cons, Opt.path?]

/-- **C59**: a command line of options and a program, that is, a first word that is no option: the last class path
counts, or else the current directory; what follows the program belongs to it, even if it looks like an option. -/
theorem C59_program (sep pathsep : Char) (avoid : Bool) (os : List Opt) (prog : Str) (args : List Str) (h : prog ∉ optionWords) :
    handleArguments sep pathsep avoid (os.flatMap Opt.words ++ prog :: args) =
      .run ⟨some ((if (pathSplit sep prog).1 = [] then [] else [(pathSplit sep prog).1]) ++
          ((lastPath os).map (splitAll pathsep)).getD [".".toList]), decide (.dump ∈ os), decide (.noGc ∈ os)⟩
        ((pathSplit sep prog).2.1 :: args) := by
  unfold handleArguments
  rw [scan_opts, scan_others _ _ _ _ (by simpa using h), fold_apply]
  simp only [programArgument, Option.or_none, Bool.false_or]
  by_cases hd : (pathSplit sep prog).1 = [] <;> simp [hd]

/-- **C59**: only options: the shell will start, with the class path given last or the current directory. -/
theorem C59_shell (sep pathsep : Char) (avoid : Bool) (os : List Opt) :
    handleArguments sep pathsep avoid (os.flatMap Opt.words) =
      .run ⟨some (((lastPath os).map (splitAll pathsep)).getD [".".toList]), decide (.dump ∈ os), decide (.noGc ∈ os)⟩ [] := by
  unfold handleArguments
  have := scan_opts pathsep avoid os ⟨none, false, false⟩ [] []
  rw [List.append_nil] at this
  rw [this, scan_others _ _ _ _ (by simp), fold_apply]
  simp

/-- **C59**: a wish for help after any options, whatever follows, and a class path option without a path print the usage
and end the program. -/
theorem C59_usage (sep pathsep : Char) (os : List Opt) :
    (∀ (w : Str) (more : List Str), w ∈ helpWords →
      handleArguments sep pathsep false (os.flatMap Opt.words ++ w :: more) = .usage) ∧
    handleArguments sep pathsep false (os.flatMap Opt.words ++ ["-cp".toList]) = .usage := by
  constructor
  · intro w more hw
    unfold handleArguments
    rw [scan_opts, scan_help _ _ _ _ _ _ hw]
    rfl
  · unfold handleArguments
    rw [scan_opts]
    simp [scan]

/-- **C59**: these are all command lines. -/
theorem C59_all (args : List Str) : ∃ os : List Opt,
    args = os.flatMap Opt.words ∨ (∃ prog more, args = os.flatMap Opt.words ++ prog :: more ∧ prog ∉ optionWords) ∨
    (∃ w more, args = os.flatMap Opt.words ++ w :: more ∧ w ∈ helpWords) ∨ args = os.flatMap Opt.words ++ ["-cp".toList] := by
  have key : ∀ (n : Nat) (args : List Str), args.length ≤ n → ∃ os : List Opt,
      args = os.flatMap Opt.words ∨ (∃ prog more, args = os.flatMap Opt.words ++ prog :: more ∧ prog ∉ optionWords) ∨
      (∃ w more, args = os.flatMap Opt.words ++ w :: more ∧ w ∈ helpWords) ∨ args = os.flatMap Opt.words ++ ["-cp".toList] := by
    intro n
    induction n with
    | zero => intro args h; exact ⟨[], .inl (by simpa using h)⟩
    | succ n ih =>
      intro args h
      have lift : ∀ (o : Opt) (as : List Str), as.length ≤ n → args = o.words ++ as → ∃ os : List Opt,
          args = os.flatMap Opt.words ∨ (∃ prog more, args = os.flatMap Opt.words ++ prog :: more ∧ prog ∉ optionWords) ∨
          (∃ w more, args = os.flatMap Opt.words ++ w :: more ∧ w ∈ helpWords) ∨ args = os.flatMap Opt.words ++ ["-cp".toList] := by
        intro o as hl e
        obtain ⟨os, hos⟩ := ih as hl
        refine ⟨o :: os, ?_⟩
        simp only [List.flatMap_cons, List.append_assoc, e, List.append_cancel_left_eq]
        exact hos
      cases args with
      | nil => exact ⟨[], .inl rfl⟩
      | cons a as =>
        simp only [List.length_cons] at h
        by_cases hc : a = "-cp".toList
        · cases as with
          | nil => exact ⟨[], .inr (.inr (.inr (by simp [hc])))⟩
          | cons p as =>
            simp only [List.length_cons] at h
            exact lift (.cp p) as (by omega) (by simp [Opt.words, hc])
        · by_cases hd : a = "-d".toList
          · exact lift .dump as (by omega) (by simp [Opt.words, hd])
          · by_cases hg : a = "--no-gc".toList
            · exact lift .noGc as (by omega) (by simp [Opt.words, hg])
            · by_cases hh : a ∈ helpWords
              · exact ⟨[], .inr (.inr (.inl ⟨a, as, rfl, hh⟩))⟩
              · refine ⟨[], .inr (.inl ⟨a, as, rfl, ?_⟩)⟩
                simp only [optionWords, List.mem_append, List.mem_cons, List.not_mem_nil, or_false, not_or]
                exact ⟨⟨hc, hd, hg⟩, hh⟩
  exact key args.length args (Nat.le_refl _)

/-- **C59**: a program named by directory, class and extension is looked for in its directory first. -/
theorem C59_directory_first (sep pathsep : Char) (hsep : sep ≠ '.') (avoid : Bool) (os : List Opt) (dir name ext : Str)
    (args : List Str) (hd : dir ≠ []) (h1 : sep ∉ name) (h2 : sep ∉ ext) (h3 : '.' ∉ ext)
    (h : dir ++ [sep] ++ name ++ ['.'] ++ ext ∉ optionWords) :
    handleArguments sep pathsep avoid (os.flatMap Opt.words ++ (dir ++ [sep] ++ name ++ ['.'] ++ ext) :: args) =
      .run ⟨some (dir :: ((lastPath os).map (splitAll pathsep)).getD [".".toList]), decide (.dump ∈ os), decide (.noGc ∈ os)⟩
        (name :: args) := by
  rw [C59_program sep pathsep avoid os _ args h, C43_split_of_combined sep hsep dir name ext hd h1 h2 h3]
  simp [hd]

/-- **C59**: the shell starts exactly if no program is named, and a program gets its class name and its arguments in order. -/
theorem C59_start (remaining : List Str) :
    (start remaining = .shell ↔ remaining = []) ∧ (∀ a as, remaining = a :: as → start remaining = .initialize (a :: as)) := by
  cases remaining with
  | nil => exact ⟨⟨fun _ => rfl, fun _ => rfl⟩, fun a as h => (by cases h)⟩
  | cons a as => exact ⟨⟨fun h => (by cases h), fun h => (by cases h)⟩, fun b bs h => (by rw [← h]; rfl)⟩

example : handleArguments '/' ':' false
      ["-d".toList, "-cp".toList, "Smalltalk:Lib".toList, "Examples/Hello.som".toList, "-d".toList, "x".toList] =
    .run ⟨some ["Examples".toList, "Smalltalk".toList, "Lib".toList], true, false⟩ ["Hello".toList, "-d".toList, "x".toList] := by decide

/-- Outside the command line, **C59** does not hold: in an embedded VM that must not exit, asking for help goes on and runs the program, a class path
option without a path ends with an index error. -/
theorem C59_embedded (sep pathsep : Char) (os : List Opt) :
    (∀ w, w ∈ helpWords → ∀ more, scan pathsep true ⟨none, false, false⟩ false [] (os.flatMap Opt.words ++ w :: more) =
      scan pathsep true ⟨none, false, false⟩ false [] (os.flatMap Opt.words ++ more)) ∧
    handleArguments sep pathsep true (os.flatMap Opt.words ++ ["-cp".toList]) = .indexError := by
  constructor
  · intro w hw more
    rw [scan_opts, scan_opts, scan_help _ _ _ _ _ _ hw]
    rfl
  · unfold handleArguments
    rw [scan_opts]
    simp [scan]

/-- Not what a user may expect, though what **C59** says: an unknown or misspelt option is taken for the program. -/
theorem C59_unknown_option : handleArguments '/' ':' false ["-dump".toList, "Hello.som".toList] =
    .run ⟨some [".".toList], false, false⟩ ["-dump".toList, "Hello.som".toList] := by decide

end PySOM.Args

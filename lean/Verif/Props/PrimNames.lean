import Verif.Props.PrimData
import Verif.Model.ClassFiles
/-!
# C80: names and kinds of characters in a running program

`name` of classes, `instVarNamed:` of objects, and `isWhiteSpace`, `isLetters`, `isDigits` of texts.  What does not hold: with a name that the object has no field for, `instVarNamed:` answers the last field (C16).
-/
set_option autoImplicit false
namespace PySOM.Mach
open PySOM BC

section
variable {ι F : Type} {I : Image ι} {p : Platform} {fo : Floats F} {b : Behaviour ι (St (Data F) Printed) Esc} {w w' : St (Data F) Printed} {r : Res Esc}

/-- C80: `name` answers the symbol that the class is called. -/
theorem C80_name {sel : String} {a m k : Nat} (ha : w.sh.objs[a]? = some (.data m (.cls k))) (hI : I.Has m sel .name) :
    (I.prog p fo).sends b sel [.obj a] w (toSrc r) w' ↔ r = .val (.sym (I.clsName k)) ∧ w' = w := by
  rw [sends_prim (c := m) (by simp only [Image.classOf, ha]) hI]
  refine ends_iff (s := w.sh) ?_
  show I.begin p fo w.sh .name [.obj a] = _
  simp only [Image.begin, classAt, ha]

theorem lookField_found {names : List Sel} {s : Sel} {i : Nat} (hs : names[i]? = some s) (hd : names.Nodup) : ∀ n : Nat, i < n → n ≤ names.length → lookField names s n = i := by
  intro n
  induction n with
  | zero => omega
  | succ n ih =>
    intro hi hn
    unfold lookField
    split
    · rename_i h
      obtain ⟨h1, h2⟩ := List.getElem?_eq_some_iff.1 h
      obtain ⟨h3, h4⟩ := List.getElem?_eq_some_iff.1 hs
      rcases Nat.lt_trichotomy i n with hlt | rfl | hlt
      · exact absurd (h4.trans h2.symm) (List.pairwise_iff_getElem.1 hd _ _ h3 h1 hlt)
      · rfl
      · omega
    · rename_i h
      refine ih ?_ (by omega)
      rcases Nat.lt_or_ge i n with h' | h'
      · exact h'
      · exact absurd (by rwa [show n = i by omega]) h

theorem lookField_missing {names : List Sel} {s : Sel} (hs : s ∉ names) (n : Nat) : lookField names s n = -1 := by
  induction n with
  | zero => rfl
  | succ n ih =>
    unfold lookField
    rw [if_neg fun h => hs (List.mem_of_getElem? h), ih]

/-- C80: `instVarNamed:` answers the value of the field that has this name, if no two fields of the class have the same name; nothing changes. -/
theorem C80_instVarNamed_partial {sel : String} {a c j : Nat} {fs : List Val} {v : Val} {s : Sel} (ha : w.sh.objs[a]? = some (.inst c fs)) (hI : I.Has c sel .instVarNamed)
    (hn : (I.fldNames c).length = fs.length) (hd : (I.fldNames c).Nodup) (hs : (I.fldNames c)[j]? = some s) (hv : fs[j]? = some v) :
    (I.prog p fo).sends b sel [.obj a, .sym s] w (toSrc r) w' ↔ r = .val v ∧ w' = w := by
  rw [sends_prim (c := c) (by simp only [Image.classOf, ha]) hI]
  have hj := (List.getElem?_eq_some_iff.1 hv).1
  have hf : fieldsOf w.sh (.obj a) = .ok (a, c, fs) := by
    cases fs with
    | nil => cases hv
    | cons x xs => simp only [fieldsOf, ha]
  refine ends_iff (s := w.sh) ?_
  show I.begin p fo w.sh .instVarNamed [.obj a, .sym s] = _
  have hi : pyIdx fs.length (j : Int) = some j := by
    simp only [pyIdx]
    rw [if_pos (by omega), if_pos (by omega)]
    rfl
  simp only [Image.begin, hf, bind, Except.bind, lookField_found hs hd _ (by omega : j < (I.fldNames c).length) (Nat.le_refl _), hi, hv]
  rfl

/-- C80 violated: with the name of no field, `instVarNamed:` answers the value of the last field. -/
theorem C80_violated_instVarNamed {sel : String} {a c : Nat} {fs : List Val} {v : Val} {s : Sel} (ha : w.sh.objs[a]? = some (.inst c (fs ++ [v]))) (hI : I.Has c sel .instVarNamed) (hs : s ∉ I.fldNames c) :
    (I.prog p fo).sends b sel [.obj a, .sym s] w (toSrc r) w' ↔ r = .val v ∧ w' = w := by
  rw [sends_prim (c := c) (by simp only [Image.classOf, ha]) hI]
  have hf : fieldsOf w.sh (.obj a) = .ok (a, c, fs ++ [v]) := by
    cases fs with
    | nil => simp only [fieldsOf, ha, List.nil_append]
    | cons x xs => simp only [fieldsOf, ha, List.cons_append]
  refine ends_iff (s := w.sh) ?_
  show I.begin p fo w.sh .instVarNamed [.obj a, .sym s] = _
  have hi : pyIdx (fs ++ [v]).length (-1) = some fs.length := by
    simp only [pyIdx, List.length_append, List.length_singleton]
    rw [if_neg (by omega), if_pos (by omega)]
    congr 1
    omega
  have hg : (fs ++ [v])[fs.length]? = some v := List.getElem?_concat_length ..
  simp only [Image.begin, hf, bind, Except.bind, lookField_missing hs, hi, hg]
  rfl

/-- C80: `isWhiteSpace`, `isLetters` and `isDigits` answer true for texts of which all characters are of that kind, but not for the empty text. -/
theorem C80_kind {sel : String} {c : Nat} {l : Val} {s : List Char} {k : CharKind} (hc : I.classOf w.sh l = some c) (hI : I.Has c sel (.kind k)) (hl : IsText w.sh l s) :
    ∃ t : Bool, (t = true ↔ s ≠ [] ∧ ∀ x ∈ s, I.chars k x = true) ∧ ∀ (r : Res Esc) w', ((I.prog p fo).sends b sel [l] w (toSrc r) w' ↔ r = .val (bool t) ∧ w' = w) := by
  refine ⟨Str.isKind (I.chars k) s, Str.C41_kinds _ s, fun r w' => ?_⟩
  rw [sends_prim hc hI]
  refine ends_iff (s := w.sh) ?_
  show ends (w.sh, (Str.embeddedString (strObj w.sh l)).map fun s => bool (Str.isKind (I.chars k) s)) = _
  rw [isText_iff.1 hl]
  rfl

/-- C80: `=` of symbols compares the texts, too. -/
theorem C80_symbol_equal {sel : String} {c : Nat} {l m : Val} {s : List Char} (hc : I.classOf w.sh l = some c) (hI : I.Has c sel .symEq) (hl : IsText w.sh l s) :
    ∃ t : Bool, (t = true ↔ IsText w.sh m s) ∧ ∀ (r : Res Esc) w', ((I.prog p fo).sends b sel [l, m] w (toSrc r) w' ↔ r = .val (bool t) ∧ w' = w) := by
  have hs : ∀ t, Str.symbolEquals (strObj w.sh l) (strObj w.sh m) = .ok t → ∀ (r : Res Esc) w', ((I.prog p fo).sends b sel [l, m] w (toSrc r) w' ↔ r = .val (bool t) ∧ w' = w) := by
    intro t ht r w'
    rw [sends_prim hc hI]
    refine ends_iff (s := w.sh) ?_
    show ends (w.sh, (Str.symbolEquals (strObj w.sh l) (strObj w.sh m)).map bool) = _
    rw [ht]
    rfl
  have hl' := isText_iff.1 hl
  have key : ∀ t, Str.embeddedString (strObj w.sh m) = .ok t → Str.symbolEquals (strObj w.sh l) (strObj w.sh m) = .ok (decide (s = t)) := by
    intro t ht
    cases h1 : strObj w.sh l <;> cases h2 : strObj w.sh m <;> rw [h1] at hl' <;> rw [h2] at ht <;> cases hl' <;> cases ht
    · rfl
    · rfl
    · rfl
    · simp only [Str.symbolEquals]
      split
      · next h => rw [h, decide_eq_true rfl]
      · rfl
  rw [isText_iff]
  cases hm : Str.embeddedString (strObj w.sh m) with
  | ok t =>
    refine ⟨decide (s = t), ?_, hs _ (key t hm)⟩
    simp only [decide_eq_true_eq, Except.ok.injEq]
    exact eq_comm
  | error e =>
    refine ⟨false, ⟨fun h => (nomatch h), fun h => (nomatch h)⟩, hs _ ?_⟩
    cases h2 : strObj w.sh m <;> rw [h2] at hm <;> cases hm <;> cases h1 : strObj w.sh l <;> rfl

/-- C80: texts with the same characters, strings or symbols, have the same `hashcode`: an Integer that depends on the characters only. -/
theorem C80_hash {sel sel' : String} {c c' : Nat} {l m : Val} {s : List Char} (hc : I.classOf w.sh l = some c) (hI : I.Has c sel .strHash) (hl : IsText w.sh l s) (hc' : I.classOf w.sh m = some c') (hI' : I.Has c' sel' .strHash)
    (hm : IsText w.sh m s) : ∃ h : Int, ∀ (r : Res Esc) w', ((I.prog p fo).sends b sel [l] w (toSrc r) w' ↔ r = .val (.int h) ∧ w' = w) ∧ ((I.prog p fo).sends b sel' [m] w (toSrc r) w' ↔ r = .val (.int h) ∧ w' = w) := by
  have key : ∀ {sel : String} {c : Nat} {l : Val}, I.classOf w.sh l = some c → I.Has c sel .strHash → IsText w.sh l s → ∀ (r : Res Esc) w', ((I.prog p fo).sends b sel [l] w (toSrc r) w' ↔ r = .val (.int (I.hash s)) ∧ w' = w) := by
    intro sel c l hc hI hl r w'
    rw [sends_prim hc hI]
    refine ends_iff (s := w.sh) ?_
    show ends (w.sh, (Str.embeddedString (strObj w.sh l)).map fun s => Val.int (I.hash s)) = _
    rw [isText_iff.1 hl]
    rfl
  exact ⟨I.hash s, fun r w' => ⟨key hc hI hl r w', key hc' hI' hm r w'⟩⟩

/-- C80: the names are those in the class files (C72): what `name` answers, and the names that `instVarNamed:` looks at, one for each field. -/
theorem C80_names (u first : Boot.U) (s : Boot.Sys) (prim : Boot.Name → Boot.Name → Prim) (blkArgs : Nat → Nat) (catches : Nat → Bool) (clsObj : Boot.Cid → Nat) (c : Boot.Cid) :
    (∀ n, (u.at c).name = some n → (u.image first s prim blkArgs catches clsObj).clsName c = n) ∧
    (∀ fs, (u.at c).fields = some fs → (u.image first s prim blkArgs catches clsObj).fldNames c = fs ∧ (u.image first s prim blkArgs catches clsObj).nflds c = fs.length) := by
  refine ⟨fun n h => ?_, fun fs h => ?_⟩
  · show (u.at c).name.getD [] = n
    rw [h]
    rfl
  · refine ⟨?_, ?_⟩
    · show (u.at c).fields.getD [] = fs
      rw [h]
      rfl
    · show ((u.at c).fields.getD []).length = fs.length
      rw [h]
      rfl

end

/-! ## Examples -/

/-- Points have the fields `x` and `y`; the class of the class 20 is 21. -/
def namesImage : Image Unit :=
  { tinyImage with
    table := fun c sel =>
      if c = 20 then [("instVarNamed:".toList, .inr .instVarNamed)].lookup sel
      else if c = 21 then [("name".toList, .inr .name)].lookup sel
      else if c = 8 then [("isDigits".toList, .inr (.kind .digit)), ("hashcode".toList, .inr .strHash)].lookup sel
      else if c = tinyImage.symCls then [("=".toList, .inr .symEq), ("hashcode".toList, .inr .strHash)].lookup sel
      else none
    clsName := fun c => if c = 20 then "Point".toList else []
    fldNames := fun c => if c = 20 then ["x".toList, "y".toList] else [] }

/-- The class, a point, two texts. -/
def namesStart : St (Data Int) Printed := ⟨⟨[.data 21 (.cls 20), .inst 20 [.int 3, .int 4], .data 8 (.str "42".toList), .data 8 (.str "4 ".toList)], fun _ => none, ⟨[], []⟩⟩, [], 0⟩

/-- `Point name`, `point instVarNamed: #x`, `point instVarNamed: #z`, `'42' isDigits`, `'4 ' isDigits`. -/
example (b : Behaviour Unit (St (Data Int) Printed) Esc) :
    (namesImage.prog .cpython tinyFloats).sends b "name" [.obj 0] namesStart (.val (.sym "Point".toList)) namesStart ∧
    (namesImage.prog .cpython tinyFloats).sends b "instVarNamed:" [.obj 1, .sym "x".toList] namesStart (.val (.int 3)) namesStart ∧
    (namesImage.prog .cpython tinyFloats).sends b "instVarNamed:" [.obj 1, .sym "z".toList] namesStart (.val (.int 4)) namesStart ∧
    (namesImage.prog .cpython tinyFloats).sends b "isDigits" [.obj 2] namesStart (.val .tru) namesStart ∧
    (namesImage.prog .cpython tinyFloats).sends b "isDigits" [.obj 3] namesStart (.val .fls) namesStart := by
  refine ⟨(C80_name (r := .val (.sym "Point".toList)) (k := 20) (m := 21) rfl ⟨21, rfl⟩).2 ⟨rfl, rfl⟩,
    (C80_instVarNamed_partial (r := .val (.int 3)) (c := 20) (j := 0) (fs := [.int 3, .int 4]) rfl ⟨20, rfl⟩ rfl (by decide +kernel) rfl rfl).2 ⟨rfl, rfl⟩,
    (C80_violated_instVarNamed (r := .val (.int 4)) (c := 20) (fs := [.int 3]) rfl ⟨20, rfl⟩ (by decide +kernel)).2 ⟨rfl, rfl⟩, ?_, ?_⟩
  · obtain ⟨t, ht, h⟩ := C80_kind (I := namesImage) (p := .cpython) (fo := tinyFloats) (b := b) (w := namesStart) (sel := "isDigits") (k := .digit) (c := 8) (l := .obj 2) (s := "42".toList) rfl ⟨8, rfl⟩ (.inr ⟨2, 8, rfl, rfl⟩)
    have : t = true := ht.2 (by decide +kernel)
    exact (h (.val .tru) _).2 ⟨this ▸ rfl, rfl⟩
  · obtain ⟨t, ht, h⟩ := C80_kind (I := namesImage) (p := .cpython) (fo := tinyFloats) (b := b) (w := namesStart) (sel := "isDigits") (k := .digit) (c := 8) (l := .obj 3) (s := "4 ".toList) rfl ⟨8, rfl⟩ (.inr ⟨3, 8, rfl, rfl⟩)
    have : t = false := by
      cases t with
      | false => rfl
      | true => exact absurd (ht.1 rfl) (by decide +kernel)
    exact (h (.val .fls) _).2 ⟨this ▸ rfl, rfl⟩

/-- `'42' hashcode` is `#'42' hashcode`, and `#'42' = '42'`. -/
example (b : Behaviour Unit (St (Data Int) Printed) Esc) :
    (∃ h : Int, (namesImage.prog .cpython tinyFloats).sends b "hashcode" [.obj 2] namesStart (.val (.int h)) namesStart ∧ (namesImage.prog .cpython tinyFloats).sends b "hashcode" [.sym "42".toList] namesStart (.val (.int h)) namesStart) ∧
    (namesImage.prog .cpython tinyFloats).sends b "=" [.sym "42".toList, .obj 2] namesStart (.val .tru) namesStart := by
  constructor
  · obtain ⟨h, hh⟩ := C80_hash (I := namesImage) (p := .cpython) (fo := tinyFloats) (b := b) (w := namesStart) (sel := "hashcode") (sel' := "hashcode") (c := 8) (c' := tinyImage.symCls) (l := .obj 2) (m := .sym "42".toList) (s := "42".toList) rfl
      ⟨8, rfl⟩ (.inr ⟨2, 8, rfl, rfl⟩) rfl ⟨tinyImage.symCls, rfl⟩ (.inl rfl)
    exact ⟨h, (hh (.val (.int h)) _).1.2 ⟨rfl, rfl⟩, (hh (.val (.int h)) _).2.2 ⟨rfl, rfl⟩⟩
  · obtain ⟨t, ht, h⟩ := C80_symbol_equal (I := namesImage) (p := .cpython) (fo := tinyFloats) (b := b) (w := namesStart) (sel := "=") (c := tinyImage.symCls) (l := .sym "42".toList) (m := .obj 2) (s := "42".toList) rfl ⟨tinyImage.symCls, rfl⟩ (.inl rfl)
    have : t = true := ht.2 (.inr ⟨2, 8, rfl, rfl⟩)
    exact (h (.val .tru) _).2 ⟨this ▸ rfl, rfl⟩

end PySOM.Mach

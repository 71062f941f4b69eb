import Verif.Spec.PrimData
import Verif.Props.Prims
import Verif.Props.Strings
import Verif.Props.Lasting
/-!
# C80: what messages about data do in a running program

Messages to strings, arrays, objects and the system that are answered by primitives of the VM have exactly one outcome, and change exactly what they should: a message that answers a new object changes nothing else,
one that stores changes one place, one that prints adds to the output.

What does not hold, so that some theorems are partial: an index out of bounds makes `charAt:` and `primSubstringFrom:to:` answer a string (C41); the indices 0 and below are allowed by `instVarAt:` and arrays (C14, C52).
-/
set_option autoImplicit false
namespace PySOM.Mach
open PySOM BC

section
variable {ι F : Type} {I : Image ι} {p : Platform} {fo : Floats F} {b : Behaviour ι (St (Data F) Printed) Esc} {w w' : St (Data F) Printed} {r : Res Esc}

/-- A primitive that ends at once. -/
theorem ends_iff {q : Go F} {s : Mem F} {v : Val} (h : (I.prog p fo).step q w.sh = (s, .done v)) : Do (I.prog p fo) b (.prim q) w r w' ↔ r = .val v ∧ w' = { w with sh := s } := by
  rw [Do.prim_iff, h]

theorem raises_iff {q : Go F} {s : Mem F} {e : Err} (h : (I.prog p fo).step q w.sh = (s, .raise e)) : Do (I.prog p fo) b (.prim q) w r w' ↔ r = .exc (.err e) ∧ w' = { w with sh := s } := by
  rw [Do.prim_iff, h]

/-! ## Strings -/

theorem isText_iff {sh : Mem F} {v : Val} {s : List Char} : IsText sh v s ↔ Str.embeddedString (strObj sh v) = .ok s := by
  cases v with
  | sym t => exact ⟨fun h => h.elim (fun h => by cases h; rfl) fun ⟨_, _, h, _⟩ => (nomatch h), fun h => .inl (by cases h; rfl)⟩
  | obj a =>
    simp only [strObj]
    constructor
    · rintro (h | ⟨a', c, h, ho⟩)
      · cases h
      · cases h
        rw [ho]
        rfl
    · intro h
      split at h
      · rename_i c t ho
        cases h
        exact .inr ⟨a, c, rfl, ho⟩
      · cases h
  | _ => exact ⟨fun h => h.elim (fun h => (nomatch h)) fun ⟨_, _, h, _⟩ => (nomatch h), fun h => (nomatch h)⟩

theorem not_text {sh : Mem F} {v : Val} (h : ¬ ∃ s, IsText sh v s) : Str.embeddedString (strObj sh v) = .error .attribute := by
  cases ho : strObj sh v with
  | str s => exact absurd ⟨s, isText_iff.2 (by rw [ho]; rfl)⟩ h
  | sym s => exact absurd ⟨s, isText_iff.2 (by rw [ho]; rfl)⟩ h
  | int i => rfl
  | other a => rfl

/-- A new string is the answer, nothing else changes. -/
theorem new_string {x : Prim} {vs : List Val} {o : Except Err Str.Obj} {s : List Char} (h : I.begin p fo w.sh x vs = ends (I.ofStr w.sh o)) (ho : o = .ok (.str s)) :
    Do (I.prog p fo) b (.prim (.start (some x) vs)) w r w' ↔ r = .val (.obj w.sh.objs.length) ∧ w' = w.plus (.data I.strCls (.str s)) := by
  subst ho
  exact ends_iff (s := (w.plus (.data I.strCls (.str s))).sh) (by show I.begin p fo w.sh x vs = _; rw [h]; rfl)

/-- C80: `concatenate:` answers a new string with both texts, one after the other; the argument may be a symbol. -/
theorem C80_concatenate {sel : String} {c : Nat} {l m : Val} {s t : List Char} (hc : I.classOf w.sh l = some c) (hI : I.Has c sel .concat) (hl : IsText w.sh l s) (hm : IsText w.sh m t) :
    (I.prog p fo).sends b sel [l, m] w (toSrc r) w' ↔ r = .val (.obj w.sh.objs.length) ∧ w' = w.plus (.data I.strCls (.str (s ++ t))) := by
  rw [sends_prim hc hI]
  refine new_string rfl ?_
  simp only [Str.concat, isText_iff.1 hl, isText_iff.1 hm, bind, Except.bind]
  rfl

/-- C80: with something else it is an error, and nothing changes. -/
theorem C80_concatenate_rejects {sel : String} {c : Nat} {l m : Val} {s : List Char} (hc : I.classOf w.sh l = some c) (hI : I.Has c sel .concat) (hl : IsText w.sh l s) (hm : ¬ ∃ t, IsText w.sh m t) :
    (I.prog p fo).sends b sel [l, m] w (toSrc r) w' ↔ r = .exc (.err .attribute) ∧ w' = w := by
  rw [sends_prim hc hI]
  refine raises_iff (s := w.sh) ?_
  show ends (I.ofStr w.sh (Str.concat (strObj w.sh l) (strObj w.sh m))) = _
  simp only [Str.concat, isText_iff.1 hl, not_text hm, bind, Except.bind]
  rfl

/-- C80: `length` -/
theorem C80_length {sel : String} {c : Nat} {l : Val} {s : List Char} (hc : I.classOf w.sh l = some c) (hI : I.Has c sel .strLength) (hl : IsText w.sh l s) :
    (I.prog p fo).sends b sel [l] w (toSrc r) w' ↔ r = .val (.int s.length) ∧ w' = w := by
  rw [sends_prim hc hI]
  refine ends_iff (s := w.sh) ?_
  show ends (I.ofStr w.sh (Str.length (strObj w.sh l))) = _
  simp only [Str.length, isText_iff.1 hl, bind, Except.bind]
  rfl

/-- C80: `=` compares the texts, of strings and symbols; nothing else is equal to a string. -/
theorem C80_equal {sel : String} {c : Nat} {l m : Val} {s : List Char} (hc : I.classOf w.sh l = some c) (hI : I.Has c sel .strEq) (hl : IsText w.sh l s) :
    ∃ t : Bool, (t = true ↔ IsText w.sh m s) ∧ ((I.prog p fo).sends b sel [l, m] w (toSrc r) w' ↔ r = .val (bool t) ∧ w' = w) := by
  have hs : ∀ t, Str.equals (strObj w.sh l) (strObj w.sh m) = .ok t → ((I.prog p fo).sends b sel [l, m] w (toSrc r) w' ↔ r = .val (bool t) ∧ w' = w) := by
    intro t ht
    rw [sends_prim hc hI]
    refine ends_iff (s := w.sh) ?_
    show ends (w.sh, (Str.equals (strObj w.sh l) (strObj w.sh m)).map bool) = _
    rw [ht]
    rfl
  have hl' := isText_iff.1 hl
  rw [isText_iff]
  cases hm : strObj w.sh m with
  | str t =>
    refine ⟨decide (s = t), ?_, hs _ (by simp only [Str.equals, hm, hl', bind, Except.bind]; rfl)⟩
    simp only [Str.embeddedString, decide_eq_true_eq, Except.ok.injEq]
    exact eq_comm
  | sym t =>
    refine ⟨decide (s = t), ?_, hs _ (by simp only [Str.equals, hm, hl', bind, Except.bind]; rfl)⟩
    simp only [Str.embeddedString, decide_eq_true_eq, Except.ok.injEq]
    exact eq_comm
  | int i => exact ⟨false, ⟨fun h => (nomatch h), fun h => (nomatch h)⟩, hs _ (by simp only [Str.equals, hm])⟩
  | other i => exact ⟨false, ⟨fun h => (nomatch h), fun h => (nomatch h)⟩, hs _ (by simp only [Str.equals, hm])⟩

/-- C80: `asSymbol` answers the symbol with the text, `asString` of symbols a new string with it. -/
theorem C80_asSymbol {sel : String} {c : Nat} {l : Val} {s : List Char} (hc : I.classOf w.sh l = some c) (hI : I.Has c sel .asSymbol) (hl : IsText w.sh l s) :
    (I.prog p fo).sends b sel [l] w (toSrc r) w' ↔ r = .val (.sym s) ∧ w' = w := by
  rw [sends_prim hc hI]
  refine ends_iff (s := w.sh) ?_
  show ends (I.ofStr w.sh (Str.asSymbol (strObj w.sh l))) = _
  simp only [Str.asSymbol, isText_iff.1 hl, bind, Except.bind]
  rfl

theorem C80_asString {sel : String} {s : List Char} (hI : I.Has I.symCls sel .symString) :
    (I.prog p fo).sends b sel [.sym s] w (toSrc r) w' ↔ r = .val (.obj w.sh.objs.length) ∧ w' = w.plus (.data I.strCls (.str s)) := by
  rw [sends_prim (c := I.symCls) rfl hI]
  exact new_string rfl rfl

/-- C80: `charAt:` within the string answers a new string with that character.  (Outside it answers a string with a message, C41.) -/
theorem C80_charAt_partial {sel : String} {c : Nat} {l : Val} {s : List Char} {k : Nat} {x : Char} (hc : I.classOf w.sh l = some c) (hI : I.Has c sel .charAt) (hl : IsText w.sh l s) (hx : s[k]? = some x) :
    (I.prog p fo).sends b sel [l, .int (k + 1)] w (toSrc r) w' ↔ r = .val (.obj w.sh.objs.length) ∧ w' = w.plus (.data I.strCls (.str [x])) := by
  rw [sends_prim hc hI]
  refine new_string rfl ?_
  have hk := (List.getElem?_eq_some_iff.1 hx).1
  simp only [Str.charAt, show ∀ i, strObj w.sh (.int i) = .int i from fun _ => rfl, Str.embeddedInteger, isText_iff.1 hl, bind, Except.bind]
  rw [if_neg (by omega)]
  simp only [show ((k : Int) + 1 - 1).toNat = k by omega, hx]
  rfl

/-- C80: `primSubstringFrom:to:` within the string answers a new string with the characters from the first position to the second. -/
theorem C80_substring_partial {sel : String} {c : Nat} {l : Val} {s x y z : List Char} (hc : I.classOf w.sh l = some c) (hI : I.Has c sel .substring) (hl : IsText w.sh l s) (hs : s = x ++ y ++ z) (hy : y ≠ []) :
    (I.prog p fo).sends b sel [l, .int (x.length + 1), .int (x.length + y.length)] w (toSrc r) w' ↔ r = .val (.obj w.sh.objs.length) ∧ w' = w.plus (.data I.strCls (.str y)) := by
  rw [sends_prim hc hI]
  refine new_string rfl ?_
  have hn : 0 < y.length := List.length_pos_iff.2 hy
  have hlen : s.length = x.length + y.length + z.length := by rw [hs, List.length_append, List.length_append]
  simp only [Str.substring, show ∀ i, strObj w.sh (.int i) = .int i from fun _ => rfl, Str.embeddedInteger, isText_iff.1 hl, bind, Except.bind]
  rw [if_neg (by omega)]
  simp only [Str.slice, show ((x.length : Int) + 1 - 1).toNat = x.length by omega, show ((x.length : Int) + y.length).toNat = (x ++ y).length by rw [List.length_append]; omega]
  rw [hs, List.take_left' rfl, List.drop_left' rfl]
  rfl

/-! ## Objects -/

/-- C80: `new` answers a new instance whose fields are nil. -/
theorem C80_new {sel : String} {k a : Nat} {m : Nat} (hc : w.sh.objs[a]? = some (.data m (.cls k))) (hI : I.Has m sel .new) :
    (I.prog p fo).sends b sel [.obj a] w (toSrc r) w' ↔ r = .val (.obj w.sh.objs.length) ∧ w' = w.plus (.inst k (List.replicate (I.nflds k) .nil)) := by
  rw [sends_prim (c := m) (by simp only [Image.classOf, hc]) hI]
  refine ends_iff (s := (w.plus (.inst k (List.replicate (I.nflds k) .nil))).sh) ?_
  show I.begin p fo w.sh .new [.obj a] = _
  simp only [Image.begin, classAt, hc]
  rfl

/-- C80: `==` of objects that are not integers: whether they are the same. -/
theorem C80_identical {sel : String} {l m : Val} {c : Nat} (hc : I.classOf w.sh l = some c) (hI : I.Has c sel .identical) :
    (I.prog p fo).sends b sel [l, m] w (toSrc r) w' ↔ r = .val (bool (decide (l = m))) ∧ w' = w := by
  rw [sends_prim hc hI]
  exact ends_iff (s := w.sh) rfl

/-- C80: `class` -/
theorem C80_class {sel : String} {l : Val} {c : Nat} (hc : I.classOf w.sh l = some c) (hI : I.Has c sel .theClass) :
    (I.prog p fo).sends b sel [l] w (toSrc r) w' ↔ r = .val (.obj (I.clsObj c)) ∧ w' = w := by
  rw [sends_prim hc hI]
  refine ends_iff (s := w.sh) ?_
  show I.begin p fo w.sh .theClass [l] = _
  simp only [Image.begin, hc]

/-- C80: `instVarAt:` answers the field, counted from 1. -/
theorem C80_instVarAt_partial {sel : String} {a c j : Nat} {fs : List Val} {v : Val} (ha : w.sh.objs[a]? = some (.inst c fs)) (hI : I.Has c sel .instVarAt) (hv : fs[j]? = some v) :
    (I.prog p fo).sends b sel [.obj a, .int (j + 1)] w (toSrc r) w' ↔ r = .val v ∧ w' = w := by
  rw [sends_prim (c := c) (by simp only [Image.classOf, ha]) hI]
  have hj := (List.getElem?_eq_some_iff.1 hv).1
  have hf : fieldsOf w.sh (.obj a) = .ok (a, c, fs) := by
    cases fs with
    | nil => cases hv
    | cons x xs => simp only [fieldsOf, ha]
  refine ends_iff (s := w.sh) ?_
  show I.begin p fo w.sh .instVarAt [.obj a, .int (j + 1)] = _
  have hi : pyIdx fs.length ((j : Int) + 1 - 1) = some j := by
    rw [show (j : Int) + 1 - 1 = j by omega]
    simp only [pyIdx]
    rw [if_pos (by omega), if_pos (by omega)]
    rfl
  simp only [Image.begin, embInt, hf, bind, Except.bind, hi, hv]
  rfl

/-- C80: `instVarAt:put:` changes this field, and nothing else. -/
theorem C80_instVarAt_put {sel : String} {a c j : Nat} {fs : List Val} {v : Val} (ha : w.sh.objs[a]? = some (.inst c fs)) (hI : I.Has c sel .instVarAtPut) (hj : j < fs.length) :
    (I.prog p fo).sends b sel [.obj a, .int (j + 1), v] w (toSrc r) w' ↔ r = .val v ∧ w' = w.upd a (.inst c (fs.set j v)) := by
  rw [sends_prim (c := c) (by simp only [Image.classOf, ha]) hI]
  have hf : fieldsOf w.sh (.obj a) = .ok (a, c, fs) := by
    cases fs with
    | nil => cases hj
    | cons x xs => simp only [fieldsOf, ha]
  refine ends_iff (s := (w.upd a (.inst c (fs.set j v))).sh) ?_
  show I.begin p fo w.sh .instVarAtPut [.obj a, .int (j + 1), v] = _
  have hi : pyIdx fs.length ((j : Int) + 1 - 1) = some j := by
    rw [show (j : Int) + 1 - 1 = j by omega]
    simp only [pyIdx]
    rw [if_pos (by omega), if_pos (by omega)]
    rfl
  simp only [Image.begin, embInt, hf, hi]
  rfl

/-! ## `perform:inSuperclass:` -/

/-- C71: `perform:inSuperclass:` runs what is found for the selector in the class that is given and its superclasses, with the receiver as `self`. -/
theorem C71_performIn_partial {sel : String} {v : Val} {s : Sel} {c k a m : Nat} (hc : I.classOf w.sh v = some c) (hI : I.Has c sel .performIn) (ha : w.sh.objs[a]? = some (.data m (.cls k))) :
    (I.prog p fo).sends b sel [v, .sym s, .obj a] w (toSrc r) w' ↔ (I.prog p fo).does b (.from (I.chain k) s [v]) w (toSrc r) w' := by
  rw [sends_prim hc hI]
  refine call_iff ?_
  show I.begin p fo w.sh .performIn [v, .sym s, .obj a] = _
  simp only [Image.begin, classAt, ha]

/-! ## Arrays -/

/-- C80: `new:` answers a new array of nils. -/
theorem C80_array_new {sel : String} {l : Val} {c k : Nat} (hc : I.classOf w.sh l = some c) (hI : I.Has c sel .arrNew) :
    (I.prog p fo).sends b sel [l, .int k] w (toSrc r) w' ↔ r = .val (.obj w.sh.objs.length) ∧ w' = w.plus (.data I.arrCls (.arr (List.replicate k .nil))) := by
  rw [sends_prim hc hI]
  exact ends_iff (s := (w.plus (.data I.arrCls (.arr (List.replicate k .nil)))).sh) rfl

/-- C80: `length` of an array. -/
theorem C80_array_length {sel : String} {a : Val} {c : Nat} {vs : List Val} (ha : IsArray w a vs) (hc : I.classOf w.sh a = some c) (hI : I.Has c sel .arrLength) :
    (I.prog p fo).sends b sel [a] w (toSrc r) w' ↔ r = .val (.int vs.length) ∧ w' = w := by
  obtain ⟨o, k, he⟩ := elems_ok.2 ha
  rw [sends_prim hc hI]
  refine ends_iff (s := w.sh) ?_
  show ends (w.sh, (do return .int (← elems w.sh a).2.2.length : Except Err Val)) = _
  simp only [he, bind, Except.bind]
  rfl

/-- C80: `copy` answers a new array with the same elements. -/
theorem C80_array_copy {sel : String} {a : Val} {c : Nat} {vs : List Val} (ha : IsArray w a vs) (hc : I.classOf w.sh a = some c) (hI : I.Has c sel .arrCopy) :
    (I.prog p fo).sends b sel [a] w (toSrc r) w' ↔ r = .val (.obj w.sh.objs.length) ∧ w' = w.plus (.data I.arrCls (.arr vs)) := by
  obtain ⟨o, k, he⟩ := elems_ok.2 ha
  rw [sends_prim hc hI]
  refine ends_iff (s := (w.plus (.data I.arrCls (.arr vs))).sh) ?_
  show I.begin p fo w.sh .arrCopy [a] = _
  simp only [Image.begin, he]
  rfl

/-- C80: the copy and the original are apart: storing into one does not change the other. -/
theorem C80_copy_apart {copy put : String} {a v : Val} {c j : Nat} {vs : List Val} {w1 w2 : St (Data F) Printed} {x r2 : Val} (ha : IsArray w a vs) (hc : I.classOf w.sh a = some c) (hI : I.Has c copy .arrCopy)
    (hA : I.Has I.arrCls put .arrPut) (hj : j < vs.length) (h1 : (I.prog p fo).sends b copy [a] w (.val x) w1) (h2 : (I.prog p fo).sends b put [x, .int (j + 1), v] w1 (.val r2) w2) :
    IsArray w2 a vs ∧ IsArray w2 x (vs.set j v) ∧ x ≠ a := by
  obtain ⟨hx, rfl⟩ := (C80_array_copy (r := .val x) ha hc hI).1 h1
  cases hx
  obtain ⟨o, k, rfl, ho⟩ := ha
  have hlt := (List.getElem?_eq_some_iff.1 ho).1
  have hn : (w.plus (.data I.arrCls (.arr vs))).sh.objs[w.sh.objs.length]? = some (.data I.arrCls (.arr vs)) := by
    show (w.sh.objs ++ [_])[w.sh.objs.length]? = _
    rw [List.getElem?_append_right (Nat.le_refl _), Nat.sub_self]
    rfl
  obtain ⟨_, rfl⟩ := (C71_at_put (r := .val r2) (c := I.arrCls) hn (by simp only [Image.classOf, hn]) hA hj).1 h2
  refine ⟨⟨o, k, rfl, ?_⟩, ⟨_, I.arrCls, rfl, ?_⟩, fun h => ?_⟩
  · show ((w.sh.objs ++ [_]).set w.sh.objs.length _)[o]? = _
    rw [List.getElem?_set_ne (by omega), List.getElem?_append_left hlt, ho]
  · show ((w.sh.objs ++ [_]).set w.sh.objs.length _)[w.sh.objs.length]? = _
    rw [List.getElem?_set_self (by rw [List.length_append]; exact Nat.lt_succ_self _)]
  · cases h
    omega

/-- C80: `putAll:` with something that is not a block stores it everywhere in the array. -/
theorem C80_array_putAll_partial {sel : String} {a c : Nat} {v : Val} {vs : List Val} (ha : w.sh.objs[a]? = some (.data c (.arr vs))) (hI : I.Has c sel .arrPutAll) (hv : ¬ IsBlock w v) :
    (I.prog p fo).sends b sel [.obj a, v] w (toSrc r) w' ↔ r = .val (.obj a) ∧ w' = w.upd a (.data c (.arr (List.replicate vs.length v))) := by
  rw [sends_prim (c := c) (by simp only [Image.classOf, ha]) hI]
  refine ends_iff (s := (w.upd a (.data c (.arr (List.replicate vs.length v)))).sh) ?_
  show I.begin p fo w.sh .arrPutAll [.obj a, v] = _
  simp only [Image.begin, elems, ha]
  rw [if_neg fun h => hv (isBlock_iff.1 h)]
  rfl

/-! ## The system -/

/-- C80: `global:put:` gives the global this value and leaves the others alone. -/
theorem C80_global_put {sel : String} {l v : Val} {c : Nat} {g : Sel} (hc : I.classOf w.sh l = some c) (hI : I.Has c sel .globalPut) :
    (I.prog p fo).sends b sel [l, .sym g, v] w (toSrc r) w' ↔ r = .val v ∧ w' = w.globally g v := by
  rw [sends_prim hc hI]
  exact ends_iff (s := (w.globally g v).sh) rfl

/-- C80: `global:` answers the value, or nil if there is none. -/
theorem C80_global {sel : String} {l : Val} {c : Nat} {g : Sel} (hc : I.classOf w.sh l = some c) (hI : I.Has c sel .global) :
    (I.prog p fo).sends b sel [l, .sym g] w (toSrc r) w' ↔ r = .val ((w.sh.globals g).getD .nil) ∧ w' = w := by
  rw [sends_prim hc hI]
  exact ends_iff (s := w.sh) rfl

/-- C80: `hasGlobal:` -/
theorem C80_hasGlobal {sel : String} {l : Val} {c : Nat} {g : Sel} (hc : I.classOf w.sh l = some c) (hI : I.Has c sel .hasGlobal) :
    (I.prog p fo).sends b sel [l, .sym g] w (toSrc r) w' ↔ r = .val (bool (w.sh.globals g).isSome) ∧ w' = w := by
  rw [sends_prim hc hI]
  exact ends_iff (s := w.sh) rfl

/-- C80: a global that was stored is read back, after any calls in between that leave it alone. -/
theorem C80_global_stored {put get : String} {l v : Val} {c : Nat} {g : Sel} {w1 w2 w3 : St (Data F) Printed} {r1 r3 : Val} (hc : I.classOf w.sh l = some c) (hI : I.Has c put .globalPut) (hJ : I.Has c get .global)
    (h1 : (I.prog p fo).sends b put [l, .sym g, v] w (.val r1) w1) (h2 : w2.sh.globals g = w1.sh.globals g) (hl : I.classOf w2.sh l = some c) (h3 : (I.prog p fo).sends b get [l, .sym g] w2 (.val r3) w3) :
    r1 = v ∧ r3 = v := by
  obtain ⟨e1, rfl⟩ := (C80_global_put (r := .val r1) hc hI).1 h1
  obtain ⟨e3, rfl⟩ := (C80_global (r := .val r3) hl hJ).1 h3
  cases e1
  cases e3
  refine ⟨rfl, ?_⟩
  rw [h2]
  show Option.getD (if g = g then some _ else _) _ = _
  rw [if_pos rfl]
  rfl

/-- C80: `printString:` adds the text to the output, `printNewline` the end of a line; they answer the receiver. -/
theorem C80_print {sel : String} {l v : Val} {c : Nat} {s : List Char} (hc : I.classOf w.sh l = some c) (hI : I.Has c sel .print) (hv : IsText w.sh v s) :
    (I.prog p fo).sends b sel [l, v] w (toSrc r) w' ↔ r = .val l ∧ w' = w.says s := by
  rw [sends_prim hc hI]
  refine ends_iff (s := (w.says s).sh) ?_
  show ends (printed w.sh l (Str.embeddedString (strObj w.sh v)) fun x s => { x with out := x.out ++ s }) = _
  rw [isText_iff.1 hv]
  rfl

theorem C80_newline {sel : String} {l : Val} {c : Nat} (hc : I.classOf w.sh l = some c) (hI : I.Has c sel .newline) :
    (I.prog p fo).sends b sel [l] w (toSrc r) w' ↔ r = .val l ∧ w' = w.says ['\n'] := by
  rw [sends_prim hc hI]
  exact ends_iff (s := (w.says ['\n']).sh) rfl

/-- C80: something that has no text is not printed. -/
theorem C80_print_rejects {sel : String} {l v : Val} {c : Nat} (hc : I.classOf w.sh l = some c) (hI : I.Has c sel .print) (hv : ¬ ∃ s, IsText w.sh v s) :
    (I.prog p fo).sends b sel [l, v] w (toSrc r) w' ↔ r = .exc (.err .attribute) ∧ w' = w := by
  rw [sends_prim hc hI]
  refine raises_iff (s := w.sh) ?_
  show ends (printed w.sh l (Str.embeddedString (strObj w.sh v)) fun x s => { x with out := x.out ++ s }) = _
  rw [not_text hv]
  rfl

end

/-! ## Examples -/

/-- Classes as in C71, with messages about data: strings are class 8, the system is class 10, the class of the class object 20 is 21. -/
def dataImage : Image Unit :=
  { tinyImage with
    table := fun c sel =>
      if c = 8 then [("concatenate:".toList, .inr .concat), ("length".toList, .inr .strLength), ("=".toList, .inr .strEq), ("charAt:".toList, .inr .charAt), ("primSubstringFrom:to:".toList, .inr .substring)].lookup sel
      else if c = 6 then [("at:put:".toList, .inr .arrPut), ("copy".toList, .inr .arrCopy), ("length".toList, .inr .arrLength)].lookup sel
      else if c = 10 then [("global:put:".toList, .inr .globalPut), ("global:".toList, .inr .global), ("printString:".toList, .inr .print)].lookup sel
      else if c = 21 then [("new".toList, .inr .new)].lookup sel
      else tinyImage.table c sel
    nflds := fun c => if c = 20 then 2 else 0 }

/-- A string, an array, the system, a class. -/
def dataStart : St (Data Int) Printed := ⟨⟨[.data 8 (.str "ab".toList), .data 6 (.arr [.tru, .fls]), .inst 10 [], .data 21 (.cls 20)], fun _ => none, ⟨[], []⟩⟩, [], 0⟩

/-- `'ab' concatenate: #c`, `#(true false) copy`, `Thing new`, `system printString: 'ab'`. -/
example :
    (dataImage.prog .rpython tinyFloats).sends ticks "concatenate:" [.obj 0, .sym ['c']] dataStart (.val (.obj 4)) (dataStart.plus (.data 8 (.str "abc".toList))) ∧
    (dataImage.prog .rpython tinyFloats).sends ticks "primSubstringFrom:to:" [.obj 0, .int 2, .int 2] dataStart (.val (.obj 4)) (dataStart.plus (.data 8 (.str "b".toList))) ∧
    (dataImage.prog .rpython tinyFloats).sends ticks "copy" [.obj 1] dataStart (.val (.obj 4)) (dataStart.plus (.data 6 (.arr [.tru, .fls]))) ∧
    (dataImage.prog .rpython tinyFloats).sends ticks "new" [.obj 3] dataStart (.val (.obj 4)) (dataStart.plus (.inst 20 [.nil, .nil])) ∧
    (dataImage.prog .rpython tinyFloats).sends ticks "printString:" [.obj 2, .obj 0] dataStart (.val (.obj 2)) (dataStart.says "ab".toList) ∧
    (dataImage.prog .rpython tinyFloats).sends ticks "printString:" [.obj 2, .int 3] dataStart (.exc (.err .attribute)) dataStart := by
  refine ⟨(C80_concatenate (r := .val (.obj 4)) (c := 8) rfl ⟨8, rfl⟩ (.inr ⟨0, 8, rfl, rfl⟩) (.inl rfl)).2 ⟨rfl, rfl⟩,
    (C80_substring_partial (r := .val (.obj 4)) (c := 8) (x := ['a']) (y := ['b']) (z := []) rfl ⟨8, rfl⟩ (.inr ⟨0, 8, rfl, rfl⟩) rfl (by decide)).2 ⟨rfl, rfl⟩,
    (C80_array_copy (r := .val (.obj 4)) (c := 6) ⟨1, 6, rfl, rfl⟩ rfl ⟨6, rfl⟩).2 ⟨rfl, rfl⟩, (C80_new (r := .val (.obj 4)) (k := 20) (m := 21) rfl ⟨21, rfl⟩).2 ⟨rfl, rfl⟩,
    (C80_print (r := .val (.obj 2)) (c := 10) rfl ⟨10, rfl⟩ (.inr ⟨0, 8, rfl, rfl⟩)).2 ⟨rfl, rfl⟩, (C80_print_rejects (r := .exc (.err .attribute)) (c := 10) rfl ⟨10, rfl⟩ ?_).2 ⟨rfl, rfl⟩⟩
  rintro ⟨s, h | ⟨_, _, h, _⟩⟩ <;> cases h

/-- C71: the class need not be a superclass of the receiver's class: its methods then run with a receiver of another kind.  Here `3 perform: #not inSuperclass: True` answers false. -/
theorem C71_violated_perform_in : ∃ (I : Image Unit) (w : St (Data Int) Printed) (k : Nat), w.sh.objs[0]? = some (.data 30 (.cls k)) ∧ k ∉ I.chain I.intCls ∧
    (I.prog .cpython tinyFloats).sends ticks "perform:inSuperclass:" [.int 3, .sym "not".toList, .obj 0] w (.val .fls) w := by
  refine ⟨{ tinyImage with table := fun c sel => if c = 3 then [("perform:inSuperclass:".toList, .inr .performIn)].lookup sel else tinyImage.table c sel },
    ⟨⟨[.data 30 (.cls 1)], fun _ => none, ⟨[], []⟩⟩, [], 0⟩, 1, rfl, by decide, ?_⟩
  refine (C71_performIn_partial (r := .val .fls) (c := 3) (k := 1) (m := 30) rfl ⟨3, rfl⟩ rfl).2 ((does_iff).2 ?_)
  show Do _ ticks (.prim (Go.start (some Prim.trueNot) [.int 3])) _ _ _
  rw [Do.prim_iff]
  exact ⟨rfl, rfl⟩

end PySOM.Mach

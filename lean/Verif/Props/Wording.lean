import Verif.Lemmas.Wording
import Verif.Props.Texts
import Verif.Props.Lasting
/-!
# C81: what is compiled is what is written

Full property: the method that is compiled has the messages of its text, in the same order and nested the same way, with the same receivers, arguments, literals, assignments, blocks and `^`; each name stands for what
it means where it is written (`Spec/Wording`).  The two parsers do this while they read: the bytecode parser has its own cases for `+ 1`, `- 1` and `^ self`.

C62 is about the names alone, in a list; here the whole method is compared with its text.  Together with C69 and C73, which evaluate the source, this says what a program does in terms of its text.

Missing: methods with a local variable called `self` (see `C62_violated_self`).
-/
set_option autoImplicit false
namespace PySOM.Elab
open PySOM PySOM.Parse PySOM.BC PySOM.Elab.Spec
open PySOM.Lex (Classes)

/-- The literals that are objects, one after the other from `n` on. -/
def table (n : Nat) (ls : List Parse.Lit) (o : Nat) : Option Parse.Lit := if n ≤ o then ls[o - n]? else none

theorem table_holds (n : Nat) (ls : List Parse.Lit) : Holds (table n ls) n ls := by
  intro k l h
  rw [table, if_pos (by omega), Nat.add_sub_cancel_left]
  exact h

theorem table_some (n : Nat) (ls : List Parse.Lit) (o : Nat) : (table n ls o).isSome = true ↔ n ≤ o ∧ o < n + ls.length := by
  unfold table
  split
  · rw [Option.isSome_iff_ne_none, Ne, List.getElem?_eq_none_iff]; omega
  · simp; omega

/-- C81 (partly): what the bytecode parser makes of a method is written as the method; the objects with the numbers from `o` on are its literals.  Missing: local variables called `self`. -/
theorem C81_bytecode_partial {N : Numbers} {fields : List Name} {n o : Nat} {bits : List Bool} {params locals : List Name} {ts : List Tree} {ex : Bool} {m : SMethod} {s : St} (hl : selfName ∉ locals)
    (h : methodAt N fields n o bits params locals ts ex = .ok (m, s)) :
    ∃ O, (∀ x, (O x).isSome = true ↔ o ≤ x ∧ x < s.objs) ∧ IsMethod N O fields params locals ts ex m := by
  obtain ⟨ls, e, hm⟩ := methodAt_is hl h
  exact ⟨table o ls, fun x => by rw [table_some, e], hm _ (table_holds o ls)⟩

/-- C81 (partly): the same for the AST parser.  Missing: local variables called `self`, also in blocks. -/
theorem C81_trees_partial {N : Numbers} {fields : List Name} {n o : Nat} {bits : List Bool} {params locals : List Name} {ts : List Tree} {ex : Bool} {m : SMethod} {s : St} (hl : selfName ∉ locals)
    (hb : selfName ∉ blockLocalsL ts) (h : Ast.methodAt N fields n o bits params locals ts ex = .ok (m, s)) :
    ∃ O, (∀ x, (O x).isSome = true ↔ o ≤ x ∧ x < s.objs) ∧ IsMethod N O fields params locals ts ex m :=
  C81_bytecode_partial hl ((C64_names_partial N fields n o bits params locals ts ex hl hb _).1 h)

/-- C81 (partly): the methods of programs for both interpreters (C64, C69) are written as in the texts of the classes. -/
theorem C81_text_partial {K : Classes} (hK : Good K) {M : Numbers} {I D F C N : Prop} {known : Sel → Bool} {alloc : LitTs → Val} {k : Nat} {text : List Char} {fields : List Name} {m : Parse.Method}
    {S1 S2 : SMethod} {code : Code Meth} {tree : AMethod} (h : Method2 K M I D F C N known alloc k text fields m S1 S2 code tree) :
    ∃ ls ts ex O, m.impl = some (ls, ts, ex) ∧ IsMethod M O fields m.params ls ts ex S1 ∧ IsMethod M O fields m.params ls ts ex S2 := by
  obtain ⟨ls, ts, ex, hi, hl, _, _, _, n, o, bits, s1, s2, h1, _⟩ := h.parts
  obtain ⟨O, _, hm⟩ := C81_bytecode_partial hl h1
  exact ⟨ls, ts, ex, O, hi, hm, (h.ok hK).1 ▸ hm⟩

/-! ## Examples -/

/-- The method of C62: `+ 1` in `t := a + 1` is incrementing, that in `^ t + (1)` is sending. -/
example : ∃ O, IsMethod digits O [['x']] [['a'], ['b']] [['t']] sampleStmts true sampleS := by
  obtain ⟨⟨S, s⟩, h1⟩ := exists_ok (x := methodAt digits [['x']] 0 0 [true, false, true] [['a'], ['b']] [['t']] sampleStmts true) (by decide +kernel)
  have h3 : method digits [['x']] [true, false, true] [['a'], ['b']] [['t']] sampleStmts true = .ok S := by rw [method_at, h1]; rfl
  have e : sampleS = S := by rw [sampleS, h3]
  obtain ⟨O, _, h⟩ := C81_bytecode_partial (by decide +kernel) h1
  exact ⟨O, e ▸ h⟩

/-- In `[ :a | f := a ]` in a method with a parameter `a`, the name is the parameter of the block. -/
example (N : Numbers) (O : Nat → Option Parse.Lit) (e : Ex SBlock) (h : Is N O [['f']] [⟨[selfName, ['a']], []⟩] (.block [['a']] [] [.assign [['f']] (.var ['a'])] false) e) :
    ∃ id args, e = .blk false (.mk id args [] (.last (.asg (.fld ['f'] 0) [] (.var true 1 0)))) ∨ e = .blk false (.mk id args [] (.stmt (.asg (.fld ['f'] 0) [] (.var true 1 0)) .done)) := by
  have hvar : ∀ v, Is N O [['f']] [⟨[blockSelf, ['a']], []⟩, ⟨[selfName, ['a']], []⟩] (.var ['a']) v → v = .var true 1 0 := by
    intro v hv
    cases hv with
    | var _ _ arg i l h =>
      obtain ⟨⟨d, hd, ha⟩, hn⟩ := h
      cases l with
      | succ l => exact absurd (.inl (by decide)) (hn 0 _ (by omega) rfl)
      | zero =>
        cases hd
        cases arg with
        | false => exact absurd ha.1 (by simp)
        | true =>
          obtain ⟨_, h1, h2⟩ := ha
          match i, h1, h2 with
          | 0, h1, _ => exact absurd h1 (by decide)
          | 1, _, _ => rfl
          | i + 2, h1, _ => exact absurd h1 (by simp)
    | fld _ _ _ h => exact absurd (.inl (by decide)) (h ⟨[blockSelf, ['a']], []⟩ List.mem_cons_self)
    | glob _ _ h => exact absurd (.inl (by decide)) (h ⟨[blockSelf, ['a']], []⟩ List.mem_cons_self)
  have hasg : ∀ v, Is N O [['f']] [⟨[blockSelf, ['a']], []⟩, ⟨[selfName, ['a']], []⟩] (.assign [['f']] (.var ['a'])) v → v = .asg (.fld ['f'] 0) [] (.var true 1 0) := by
    intro v hv
    cases hv with
    | assign _ _ _ t ts _ v' hv ht =>
      cases hvar _ hv
      cases ht with
      | cons _ _ _ _ h1 h2 =>
        cases h2
        cases h1 with
        | var arg i l h =>
          exfalso
          obtain ⟨⟨d, hd, ha⟩, _⟩ := h
          have hno : ∀ d ∈ [(⟨[blockSelf, ['a']], []⟩ : Decl), ⟨[selfName, ['a']], []⟩], ['f'] ∉ d.params ∧ ['f'] ∉ d.locals := by decide
          obtain ⟨h1, h2⟩ := hno d (List.mem_of_getElem? hd)
          cases arg with
          | true => exact h1 (List.mem_of_getElem? ha.2.1)
          | false => exact h2 (List.mem_of_getElem? ha.1)
        | fld i _ hi =>
          match i, hi with
          | 0, _ => rfl
          | i + 1, hi => exact absurd hi.1 (by simp)
  cases h with
  | block _ _ _ _ _ id args env b ha he hb =>
    cases List.length_eq_zero_iff.1 he
    refine ⟨id, args, ?_⟩
    cases hb with
    | last _ _ _ e h => exact .inl (by rw [hasg _ h])
    | stmt _ _ _ _ e _ b h hs => cases hs; exact .inr (by rw [hasg _ h])

end PySOM.Elab

namespace PySOM.Boot
open PySOM.Parse (ClassText Method)
open PySOM.Lex (Classes)
open PySOM.Elab (IsClass IsClassAst Method2 Numbers Good)
open PySOM.BC (Sel LitTs Val SMethod Compiled2)

/-- C81 (partly): the body that is run for a message (C73) is written as the last method for the selector in the text of the nearest class that has one.  Missing: see above, and what is missing in C73. -/
theorem C81_message_partial {env : Env} {K : Classes} {M : Numbers} {D N : Prop} {known : Sel → Bool} {alloc : LitTs → Val} {k : Nat} {texts : Nat → Name → Option (List Char)}
    {num : Nat → Name → Bool → Nat → Nat} {src2 : Nat → SMethod} {q : Compiled2 Nat} (hK : Good K) (hr : Reads K texts num env) (hb : Bodies K M D N known alloc k texts num env src2 q) {d dh : Desc} {sel : Name}
    {i : Nat} (hs : Says env sel d (some (dh, .code i))) {fs : List Name} (hf : Fields env dh fs) :
    ∃ p t cls j m ls ts ex O, TextOf texts dh.name env.classpath p t ∧ IsClass K t cls ∧ IsClassAst K t cls ∧ LastAt (methodsOf dh.onClass cls) sel j m ∧ m.impl = some (ls, ts, ex) ∧
      Elab.Spec.IsMethod M O fs m.params ls ts ex (q.src i) := by
  obtain ⟨p, t, cls, j, m, h1, h2, h3, h4, _, h6⟩ := C73_method hr hb hs hf
  obtain ⟨ls, ts, ex, O, h7, h8, _⟩ := Elab.C81_text_partial hK h6
  exact ⟨p, t, cls, j, m, ls, ts, ex, O, h1, h2, h3, h4, h7, h8⟩

end PySOM.Boot

namespace PySOM.Mach
open PySOM BC

/-- The objects of literals are what is written: strings have their characters, and `val` says what numbers are. -/
def Written {F : Type} (val : Parse.Lit → Data F) (O : Nat → Option Parse.Lit) (w : St (Data F) Printed) : Prop :=
  ∀ o l, O o = some l → ∃ k, w.sh.objs[o]? = some (.data k (match l with | .str t => .str t | l => val l))

/-- C81: literals stay what is written, whatever the program does. -/
theorem C81_literals {ι F : Type} {I : Image ι} {p : Platform} {fo : Floats F} {q : Compiled2 ι} {known : Sel → Bool} {n : Nat} {c : Call} {w w' : St (Data F) Printed} {r : Res Esc} {val : Parse.Lit → Data F}
    {O : Nat → Option Parse.Lit} (hv : ∀ l vs, val l ≠ .arr vs) (hp : q.BcOk known n) (h : I.runs p fo q c w r w') (hw : Written val O w) : Written val O w' := by
  intro o l hl
  obtain ⟨k, hk⟩ := hw o l hl
  refine ⟨k, ?_⟩
  obtain ⟨o', h1, h2⟩ := (runs_lasting hp h).objs o _ hk
  cases o' with
  | data c' x' =>
    obtain ⟨rfl, h3⟩ := h2
    rw [h1]
    have key : ∀ d : Data F, (∀ vs, d ≠ .arr vs) → d.Lasts x' → x' = d := by
      intro d hd hl
      cases d with
      | arr vs => exact absurd rfl (hd vs)
      | _ => exact hl
    rw [key _ ?_ h3]
    cases l with
    | str t => exact fun vs h => nomatch h
    | _ => exact hv _
  | _ => exact h2.elim

/-- A string and a large integer. -/
example : Written (F := Int) (fun _ => .big (2 ^ 70)) (fun o => if o = 0 then some (.str "ab".toList) else if o = 1 then some (.int false "1180591620717411303424".toList) else none)
    ⟨⟨[.data 8 (.str "ab".toList), .data 3 (.big (2 ^ 70))], fun _ => none, ⟨[], []⟩⟩, [], 0⟩ := by
  intro o l h
  match o with
  | 0 => cases h; exact ⟨8, rfl⟩
  | 1 => cases h; exact ⟨3, rfl⟩
  | n + 2 => simp at h

end PySOM.Mach

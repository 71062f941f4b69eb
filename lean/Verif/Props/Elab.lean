import Verif.Lemmas.ElabParse
import Verif.Lemmas.Elab
import Verif.Props.ParserClass
import Verif.Props.Lexer
import Verif.Props.Inline
/-!
# C62: from the text of a class to bytecode

The theorems about compiled methods (C31, C32, C44) start with a source in which names are resolved and messages have as many arguments as their selectors say.  Here they start with text: the scanner
(C24), the parser (C51, C58), the resolution of names (`Model/Elab.lean`) and the compiler are put together.

Full statement: for every text that is accepted as a class, each of its methods becomes bytecode that is well-formed, never leaves its operand stack, and reads and writes the variables that its names mean;
what is not accepted is reported as an error in the text.  Missing: literal arrays with the symbol `#ArraySizeLiteralPlaceholder` (see C31), a local variable of a method that is called `self`
(`C62_violated_self`); assignments to undeclared variables are not reported as such (`C62_violated_undeclared`).
-/
set_option autoImplicit false
namespace PySOM.Elab
open PySOM PySOM.Lex PySOM.Parse PySOM.BC PySOM.Elab.Spec

/-- The class that the scanner and the bytecode parser read from the beginning of a text. -/
def IsClass (C : Classes) (text : List Char) (d : ClassText) : Prop :=
  ∃ fuel toks n s', scanAll C fuel (Lex.St.init text) = some (.ok toks) ∧ classdef .bc n ⟨toks, false⟩ = .ok (d, s')

/-- A method of the text: it has the parameters, local variables and statements of `m`, and its names have been resolved in a class with the given fields. -/
structure FromText (C : Classes) (N : Numbers) (text : List Char) (fields : List Name) (m : Parse.Method) (locals : List Name) (stmts : List Tree) (S : SMethod) : Prop where
  cls : ∃ d, IsClass C text d ∧ m ∈ allMethods d
  impl : ∃ ex, m.impl = some (locals, stmts, ex) ∧ ∃ bits, method N fields bits m.params locals stmts ex = .ok S

/-- Letters and digits: the assumptions on the host's character classes, as in C24, and `$` is not one of them. -/
structure Good (C : Classes) : Prop extends Lex.Spec.Good C where
  dollar : C.isAlnum '$' = false

section
variable {C : Classes} (hC : Good C) {N : Numbers} {text : List Char} {fields : List Name} {m : Parse.Method} {locals : List Name} {stmts : List Tree} {S : SMethod}
include hC

theorem IsClass.ok {d : ClassText} (h : IsClass C text d) : ∀ m ∈ allMethods d, MethodOk m := by
  obtain ⟨fuel, toks, n, s', h1, h2⟩ := h
  have ht := (C24_file_tokens C hC.toGood (Lex.St.init text) (between_init text) toks).1 ⟨fuel, h1⟩
  exact classdef_tree h2 (tokens_ok hC.toGood hC.dollar ht)

theorem FromText.ok (h : FromText C N text fields m locals stmts S) : MethodOk m := by
  obtain ⟨d, hd, hm⟩ := h.cls
  exact hd.ok hC m hm

theorem FromText.arity (h : FromText C N text fields m locals stmts S) : arityL stmts := by
  obtain ⟨ex, hi, _⟩ := h.impl
  exact ((h.ok hC).impl _ _ _ hi).2.1

theorem FromText.names (h : FromText C N text fields m locals stmts S) : ∀ x ∈ namesL stmts, x ≠ blockSelf := by
  obtain ⟨ex, hi, _⟩ := h.impl
  exact fun x hx e => (((h.ok hC).impl _ _ _ hi).2.2 x hx).2 (by rw [e]; decide)

/-- **C62**: a method has as many parameters as its selector says, and every message in it has as many arguments as its selector says. -/
theorem C62_arity {d : ClassText} (h : IsClass C text d) : ∀ m ∈ allMethods d,
    Sym.numberOfSignatureArguments m.sel = m.params.length + 1 ∧ ∀ ls ts ex, m.impl = some (ls, ts, ex) → arityL ts :=
  fun m hm => ⟨(h.ok hC m hm).arity, fun ls ts ex hi => ((h.ok hC m hm).impl ls ts ex hi).2.1⟩

/-- **C62** (partly): the source that the compiler gets is as it should be.  Missing: literal arrays with `#ArraySizeLiteralPlaceholder`. -/
theorem C62_source_partial (h : FromText C N text fields m locals stmts S) (hp : plainL stmts) : S.Wf := by
  obtain ⟨ex, _, bits, hm⟩ := h.impl
  exact method_wf hm (h.arity hC) hp

/-- **C62** (partly): no execution of a method of the text, or of a block in it, reads below the bottom of the operand stack or writes above its end.  Missing: literal arrays with
`#ArraySizeLiteralPlaceholder`. -/
theorem C62_stack_safe_partial {W E : Type} {known : Sel → Bool} {n : Nat} {g : G Meth (List Nat)} {Cd : Code Meth} (h : FromText C N text fields m locals stmts S) (hp : plainL stmts)
    (hc : S.compile known n = .ok g) (ha : assemble g = .ok Cd) (A : World Meth W E) (w : W) (i : Nat) (k : Crash) (w' : W) :
    ¬ Steps A Cd i (Code.start w) (.crash k w') ∧
    ∀ id lits bytes loops args locals stack code, BC.Spec.Contains Cd.lits Cd.bytes (.bc id lits bytes loops args locals stack code) →
      ¬ Steps A ⟨lits, bytes, stack⟩ i (Code.start w) (.crash k w') :=
  C31_program_partial (C62_source_partial hC h hp) hc ha A w i k w'

/-- **C62** (partly): the bytes of a method of the text, and of the blocks in it, are well-formed.  Missing: as before. -/
theorem C62_well_formed_partial {known : Sel → Bool} {n : Nat} {g : G Meth (List Nat)} {Cd : Code Meth} (h : FromText C N text fields m locals stmts S) (hp : plainL stmts)
    (hc : S.compile known n = .ok g) (ha : assemble g = .ok Cd) :
    BC.Spec.WellFormed Cd.lits Cd.bytes ∧
    ∀ id lits bytes loops args locals stack code, BC.Spec.Contains Cd.lits Cd.bytes (.bc id lits bytes loops args locals stack code) → BC.Spec.WellFormed lits bytes :=
  C44_program_partial (C62_source_partial hC h hp) hc ha

/-- **C62** (partly): the bytes of a method of the text, with those of the blocks in it, read and write exactly the variables and fields that the names of the text mean, in the order of the text.  The only
difference is that `^ self` at the end of a method takes the receiver without reading a variable.  The arguments of the method are its receiver and parameters, numbers 0, 1, …; its
variables are its own, with the numbers that follow, and those of the blocks that have been inlined, all different.

Missing: literal arrays with `#ArraySizeLiteralPlaceholder`; a local variable of the method that is called `self`. -/
theorem C62_bindings_partial {known : Sel → Bool} {n : Nat} {g : G Meth (List Nat)} {Cd : Code Meth} (h : FromText C N text fields m locals stmts S) (hp : plainL stmts) (hs : selfName ∉ locals)
    (hc : S.compile known n = .ok g) (ha : assemble g = .ok Cd) :
    ∃ as, BC.Spec.Accesses Cd.lits [⟨(List.range (m.params.length + 1)).map some, g.env⟩] Cd.bytes as ∧
      (methodUses fields m.params locals stmts = as ∨ methodUses fields m.params locals stmts = as ++ [.read (some 0)]) ∧
      (∃ t, g.env = List.range' (m.params.length + 1) locals.length ++ t) ∧ g.env.Nodup := by
  obtain ⟨ex, _, bits, hm⟩ := h.impl
  have hu := method_acc hm (h.names hC) hs
  have hk : Known S.accesses := by
    intro a ha
    refine usesL_known fields (locals.zipIdx (m.params.length + 1) ++ (selfName :: m.params).zipIdx 0) (m.params.length + 1 + locals.length) stmts a ?_
    show a ∈ methodUses fields m.params locals stmts
    rcases hu with e | e <;> rw [e]
    · exact ha
    · exact List.mem_append_left _ ha
  obtain ⟨h1, ⟨t, h2, _⟩, h3⟩ := C32_bindings_partial (C62_source_partial hC h hp) hc ha hk
  obtain ⟨b, s', _, rfl⟩ := method_inv hm
  have e1 : ((selfName :: m.params).zipIdx 0).map (fun p => some p.2) = (List.range (m.params.length + 1)).map some := by
    rw [show (fun p : Name × Nat => some p.2) = some ∘ Prod.snd from rfl, ← List.map_map, zipIdx_snd, List.range_eq_range']
    rfl
  refine ⟨_, by rw [← e1]; exact h1, hu, ⟨t, ?_⟩, h3 (method_nodup hm)⟩
  rw [h2]
  simp only [zipIdx_snd, Nat.zero_add]

end

/-! ## What is accepted -/

/-- **C62**: resolving the names of a method succeeds exactly if no parameter or local variable is declared twice in a method or block, no parameter is called `self`, and all assignments are to declared
variables or fields.  Numbers are assumed to be readable. -/
theorem C62_accepted {C : Classes} (hC : Good C) {N : Numbers} (hN : N.Total) {text : List Char} {d : ClassText} (h : IsClass C text d) (fields : List Name) (m : Parse.Method) (hm : m ∈ allMethods d)
    (ls : List Name) (ts : List Tree) (ex : Bool) (hi : m.impl = some (ls, ts, ex)) (bits : List Bool) :
    (∃ S, method N fields bits m.params ls ts ex = .ok S) ↔ ValidMethod fields m.params ls ts := by
  have ok := h.ok hC m hm
  have hps : ∀ x ∈ m.params, x ≠ blockSelf := fun x hx e => (ok.params x hx).2 (by rw [e]; decide)
  have hn : ∀ x ∈ namesL ts, x ≠ blockSelf := fun x hx e => ((ok.impl _ _ _ hi).2.2 x hx).2 (by rw [e]; decide)
  have sc := newScope_iff (n := 0) (first := selfName) (ls := ls) (.inl rfl) hps
  have hb := fun s => body_iff hN false ⟨[⟨(selfName :: m.params).zipIdx 0, ls.zipIdx (0 + (m.params.length + 1))⟩], fields⟩ (ls ++ (selfName :: m.params)) s ex Same.method ts hn
  constructor
  · rintro ⟨S, h⟩
    have h0 := h
    simp only [method] at h0
    obtain ⟨S', h1, _⟩ := except_bind_ok h0
    obtain ⟨b, s', h2, _⟩ := method_inv h
    exact ⟨(sc.1 ⟨_, h1⟩).1, (sc.1 ⟨_, h1⟩).2, (hb _).1 ⟨_, h2⟩⟩
  · rintro ⟨h1, h2, h3⟩
    obtain ⟨S', h4⟩ := sc.2 ⟨h1, h2⟩
    obtain ⟨rfl, _, _⟩ := newScope_ok h4
    obtain ⟨⟨b, s'⟩, h5⟩ := (hb ⟨m.params.length + 1 + ls.length, 0, bits⟩).2 h3
    simp only [method, h4, h5, bind, Except.bind]
    exact ⟨_, rfl⟩

/-! ## Variables of inlined blocks -/

theorem indexOf_append_ne {xs ys : List (Name × Nat)} {x : Name} (h : x ∉ ys.map Prod.fst) : indexOf (xs ++ ys) x = indexOf xs x := by
  induction xs with
  | nil =>
    have := indexOf_isSome ys x
    cases e : indexOf ys x with
    | none => exact e
    | some i => rw [e] at this; exact absurd (this.1 rfl) h
  | cons p xs ih => rw [List.cons_append, indexOf_cons, indexOf_cons, ih]

/-- **C62**: the variables of inlined blocks, which the compiler adds to the local variables of a method or block under names that contain a colon (`get_qualified_name`), do not change the meaning of any name in the
text, wherever they are added. -/
theorem C62_inlined_names (inner outer : List NScope) (args ls extra : List (Name × Nat)) (he : ∀ p ∈ extra, ':' ∈ p.1) (x : Name) (hx : NameOk x) (l : Nat) :
    findVar (inner ++ ⟨args, ls ++ extra⟩ :: outer) x l = findVar (inner ++ ⟨args, ls⟩ :: outer) x l := by
  have hn : x ∉ extra.map Prod.fst := by
    intro hm
    obtain ⟨p, hp, rfl⟩ := List.mem_map.1 hm
    exact hx.1 (he p hp)
  induction inner generalizing l with
  | nil => simp only [List.nil_append, findVar, indexOf_append_ne hn]
  | cons s inner ih => simp only [List.cons_append, findVar, ih]

/-! ## Example -/

theorem ascii_ok : Good Lex.Spec.ascii := { ascii_good with dollar := by decide }

/-- Numbers of one digit. -/
def digits : Numbers where
  int t := .ok (match t with | [c] => some (Int.ofNat (c.toNat - 48)) | _ => none)
  dbl _ := .ok ()

def sampleText : List Char := "Point = Object ( | x | foo: a bar: b = ( | t | t := a + 1. [ :e | | u | u := t. x := e + u ] value: b. t > 2 ifTrue: [ | u | u := b. t := u ]. ^ t + (1) ) )".toList

def sampleStmts : List Tree :=
  [.assign [['t']] (.send false ['+'] (v "a") [.lit (.int false ['1'])]),
   .send false "value:".toList (.block [['e']] [['u']] [.assign [['u']] (v "t"), .assign [['x']] (.send false ['+'] (v "e") [v "u"])] false) [v "b"],
   .send false "ifTrue:".toList (.send false ['>'] (v "t") [.lit (.int false ['2'])]) [.block [] [['u']] [.assign [['u']] (v "b"), .assign [['t']] (v "u")] false],
   .send false ['+'] (v "t") [.lit (.int false ['1'])]]

def sampleM : Parse.Method := ⟨"foo:bar:".toList, [['a'], ['b']], some ([['t']], sampleStmts, true)⟩

theorem class_of {text : List Char} {d : ClassText} (h : (scanAll Lex.Spec.ascii 100 (Lex.St.init text)).any (fun r => match r with
      | .ok ts => match classdef .bc 100 ⟨ts, false⟩ with | .ok (e, _) => decide (e = d) | .error _ => false
      | .error _ => false) = true) : IsClass Lex.Spec.ascii text d := by
  cases e : scanAll Lex.Spec.ascii 100 (Lex.St.init text) with
  | none => rw [e] at h; cases h
  | some r =>
    rw [e] at h
    cases r with
    | error _ => cases h
    | ok ts =>
      simp only [Option.any_some] at h
      cases e2 : classdef .bc 100 ⟨ts, false⟩ with
      | error _ => rw [e2] at h; cases h
      | ok q => rw [e2] at h; exact ⟨100, ts, 100, q.2, e, by rw [e2, ← of_decide_eq_true h]⟩

theorem sample_class : IsClass Lex.Spec.ascii sampleText ⟨"Point".toList, some "Object".toList, [['x']], [sampleM], none⟩ := class_of (by decide +kernel)

def sampleS : SMethod :=
  match method digits [['x']] [true, false, true] [['a'], ['b']] [['t']] sampleStmts true with
  | .ok S => S
  | .error _ => ⟨[], [], .done⟩

theorem method_isOk {N : Numbers} {fields : List Name} {bits : List Bool} {ps ls : List Name} {ts : List Tree} {ex : Bool}
    (h : (match method N fields bits ps ls ts ex with | .ok _ => true | .error _ => false) = true) :
    method N fields bits ps ls ts ex = .ok (match method N fields bits ps ls ts ex with | .ok S => S | .error _ => ⟨[], [], .done⟩) := by
  cases e : method N fields bits ps ls ts ex with
  | ok S => rfl
  | error _ => rw [e] at h; cases h

theorem sample_method : FromText Lex.Spec.ascii digits sampleText [['x']] sampleM [['t']] sampleStmts sampleS :=
  ⟨⟨_, sample_class, by decide +kernel⟩, true, rfl, [true, false, true], method_isOk (by decide +kernel)⟩

/-- It is compiled; the second block is inlined, the first is not. -/
theorem sample_compiles : ∃ g Cd, sampleS.compile (fun _ => true) 2 = .ok g ∧ assemble g = .ok Cd ∧ g.env = [3, 10] := by
  have h : (match sampleS.compile (fun _ => true) 2 with | .ok g => (match assemble g with | .ok _ => decide (g.env = [3, 10]) | .error _ => false) | .error _ => false) = true := by decide +kernel
  cases e : sampleS.compile (fun _ => true) 2 with
  | error _ => rw [e] at h; cases h
  | ok g =>
    rw [e] at h
    simp only at h
    cases e2 : assemble g with
    | error _ => rw [e2] at h; cases h
    | ok Cd => rw [e2] at h; exact ⟨g, Cd, rfl, e2, of_decide_eq_true h⟩

example : plainL sampleStmts := by simp [sampleStmts, plainL, Spec.plain, v]
example : selfName ∉ [['t']] := by decide +kernel
example : digits.Total := ⟨fun _ => ⟨_, rfl⟩, fun _ => rfl⟩

/-- What its names mean: 0 is the receiver, 1 and 2 are `a` and `b`, 3 is `t`; the first block is 4, 6 is `e` and 7 is `u`; the second block is 8 and 10 is its `u`. -/
example : methodUses [['x']] [['a'], ['b']] [['t']] sampleStmts =
    [.read (some 1), .write (some 3), .read (some 3), .write (some 7), .read (some 6), .read (some 7), .writeFld 0 (some 0), .read (some 2), .read (some 3), .read (some 2), .write (some 10),
     .read (some 10), .write (some 3), .read (some 3)] := by decide +kernel

/-! ## Where it fails -/

/-- **C62 is violated**: a method may have a local variable called `self`.  Then `^ self` answers the receiver, although the name means the variable: the last access of the text is missing in the code, which
writes variable 1 and reads none.  (`^ (self)` answers the variable.) -/
theorem C62_violated_self : ∃ S, FromText Lex.Spec.ascii digits "A = ( run = ( | self | self := 1. ^ self ) )".toList [] ⟨"run".toList, [], some (["self".toList], [.assign ["self".toList] (.lit (.int false ['1'])), v "self"], true)⟩
      ["self".toList] [.assign ["self".toList] (.lit (.int false ['1'])), v "self"] S ∧
    methodUses [] [] ["self".toList] [.assign ["self".toList] (.lit (.int false ['1'])), v "self"] = [.write (some 1), .read (some 1)] ∧ S.accesses = [.write (some 1)] := by
  refine ⟨_, ⟨⟨⟨['A'], none, [], [⟨"run".toList, [], some (["self".toList], [.assign ["self".toList] (.lit (.int false ['1'])), v "self"], true)⟩], none⟩, ?_, by decide +kernel⟩,
    true, rfl, [true, true], rfl⟩, by decide +kernel, by decide +kernel⟩
  exact class_of (by decide +kernel)

/-- **C62 is violated**: an assignment to a name that is not declared is not reported as an error in the text; compiling stops with a `ValueError`. -/
theorem C62_violated_undeclared : IsClass Lex.Spec.ascii "A = ( run = ( x := 1 ) )".toList ⟨['A'], none, [], [⟨"run".toList, [], some ([], [.assign [['x']] (.lit (.int false ['1']))], false)⟩], none⟩ ∧
    ∀ bits, method digits [] bits [] [] [.assign [['x']] (.lit (.int false ['1']))] false = .error .value :=
  ⟨class_of (by decide +kernel), fun _ => rfl⟩

end PySOM.Elab

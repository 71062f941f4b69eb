import Verif.Lemmas.Engines
import Verif.Props.Elab
import Verif.Props.Whole
/-!
# C64: both interpreters do the same with the same text

C34 compares the two interpreters on methods whose names have been resolved.  Here they start with text: both parsers read it, each resolves the names in its own way (`Model/Elab.lean`, `Model/ElabAst.lean`),
and the compilers make bytecode and trees.

Full statement: a text is accepted by both interpreters or by none, and its methods have the same results and effects in both.  Missing: texts with `super` or assignments to `self` (the parsers differ, see C51), with a
variable called `self` (`C64_violated_self`), and what C34 leaves out: literal arrays, conditions that are not booleans, methods `^ f := x`, and blocks that declare variables and only give a literal or a variable.  `fairT` says
for which other constructs assumptions on the system are needed.
-/
set_option autoImplicit false
namespace PySOM.Elab
open PySOM PySOM.Lex PySOM.Parse PySOM.BC PySOM.Elab.Spec

/-- The class that the scanner and the AST parser read from the beginning of a text. -/
def IsClassAst (C : Classes) (text : List Char) (d : ClassText) : Prop :=
  ∃ fuel toks n s', scanAll C fuel (Lex.St.init text) = some (.ok toks) ∧ classdef .ast n ⟨toks, false⟩ = .ok (d, s')

/-- The text has neither `super` nor assignments to `self`. -/
def NoPseudo (C : Classes) (text : List Char) : Prop := ∀ toks, Lex.Spec.Tokens C text toks → Grammar.Plain .ast toks

/-- **C64** (partly): a text that the bytecode interpreter reads as a class is read as the same class by the AST interpreter.  Missing: `super` and assignments to `self`. -/
theorem C64_class_partial {C : Classes} (hC : Good C) {text : List Char} {d : ClassText} (h : IsClass C text d) (hp : NoPseudo C text) : IsClassAst C text d := by
  obtain ⟨fuel, toks, n, ⟨rest, b⟩, h1, h2⟩ := h
  have ht := (C24_file_tokens C hC.toGood (Lex.St.init text) (between_init text) toks).1 ⟨fuel, h1⟩
  obtain ⟨n', h3⟩ := C58_ast_follows_bc_partial n toks rest b d (hp toks ht) (fun x hx => (tokens_ok hC.toGood hC.dollar ht x hx).legal) h2
  exact ⟨fuel, toks, n', _, h1, h3 n' (Nat.le_refl _)⟩

/-- **C64** (partly): the two interpreters resolve names in the same way, and refuse the same methods.  Missing: variables called `self`. -/
theorem C64_names_partial (N : Numbers) (fields : List Name) (n o : Nat) (bits : List Bool) (ps ls : List Name) (ts : List Tree) (ex : Bool) (hl : selfName ∉ ls) (hb : selfName ∉ blockLocalsL ts)
    (p : SMethod × St) : Ast.methodAt N fields n o bits ps ls ts ex = .ok p ↔ methodAt N fields n o bits ps ls ts ex = .ok p := by
  rw [toOption_ok, toOption_ok, ast_method hl hb]

mutual
theorem fairT_plain {M : Numbers} {I D F C N : Prop} {inner : Bool} (t : Tree) : fairT M I D F C N inner t → plain t := by
  match t with
  | .var _ => intro _; trivial
  | .lit (.arr _) => intro h; exact absurd h id
  | .lit (.int _ _) => intro _; trivial
  | .lit (.dbl _ _) => intro _; trivial
  | .lit (.str _) => intro _; trivial
  | .lit (.sym _) => intro _; trivial
  | .send sup sel r as => intro h; simp only [fairT] at h; exact ⟨fairT_plain r h.1, fairL_plain as h.2.1⟩
  | .assign xs v => intro h; simp only [fairT] at h; exact fairT_plain v h.2.1
  | .block ps ls ts ex => intro h; simp only [fairT] at h; exact fairL_plain ts h.1
theorem fairL_plain {M : Numbers} {I D F C N : Prop} {inner : Bool} (ts : List Tree) : fairL M I D F C N inner ts → plainL ts := by
  match ts with
  | [] => intro _; trivial
  | t :: ts => intro h; exact ⟨fairT_plain t h.1, fairL_plain ts h.2⟩
end

/-- A method of a text that both parsers read: its declarations and statements, its forms for the two interpreters, and the conditions on its text. -/
structure Method2 (K : Classes) (M : Numbers) (I D F C N : Prop) (known : Sel → Bool) (alloc : LitTs → Val) (k : Nat) (text : List Char) (fields : List Name) (m : Parse.Method) (S1 S2 : SMethod)
    (code : Code Meth) (tree : AMethod) : Prop where
  cls : ∃ d, IsClass K text d ∧ IsClassAst K text d ∧ m ∈ allMethods d
  parts : ∃ ls ts ex, m.impl = some (ls, ts, ex) ∧ selfName ∉ ls ∧ selfName ∉ blockLocalsL ts ∧ fairL M I D F C N false ts ∧ notSetter ts ex ∧
    ∃ n o bits s1 s2, methodAt M fields n o bits m.params ls ts ex = .ok (S1, s1) ∧ Ast.methodAt M fields n o bits m.params ls ts ex = .ok (S2, s2)
  code : ∃ g, S1.compile known k = .ok g ∧ assemble g = .ok code
  tree : S2.ast known alloc = .ok tree

section
variable {K : Classes} (hK : Good K) {M : Numbers} {I D F C N : Prop} {known : Sel → Bool} {alloc : LitTs → Val} {k : Nat}
include hK

theorem Method2.ok {text : List Char} {fields : List Name} {m : Parse.Method} {S1 S2 : SMethod} {code : Code Meth} {tree : AMethod}
    (h : Method2 K M I D F C N known alloc k text fields m S1 S2 code tree) :
    S1 = S2 ∧ S1.Wf ∧ S1.env.Nodup ∧ S1.body.fair I D F C N false ∧ S1.body.setter := by
  obtain ⟨d, hd, _, hm⟩ := h.cls
  obtain ⟨ls, ts, ex, hi, hl, hb, hf, hn, n, o, bits, s1, s2, h1, h2⟩ := h.parts
  have e := (C64_names_partial M fields n o bits m.params ls ts ex hl hb _).1 h2
  rw [h1] at e
  injection e with e
  injection e with e _
  have ha := (C62_arity hK hd m hm).2 ls ts ex hi
  refine ⟨e, methodAt_wf h1 ha (fairL_plain ts hf), methodAt_nodup h1, ?_⟩
  obtain ⟨b, _, hbd, rfl⟩ := methodAt_inv h1
  exact ⟨(body_fair M I D F C N false _ _ false ex ts _ _ hbd hf).1, body_setter hbd hf hn⟩

/-- **C64** (partly): a method of a text has the same results and effects in both interpreters, in every world in which they use the same actions.  Missing: see above. -/
theorem C64_method_partial {W E : Type} {A : World Nat W E} {U : Sel → Nat → Src.Rel W E} {text : List Char} {fields : List Name} {m : Parse.Method} {S1 S2 : SMethod} {code : Code Meth} {tree : AMethod}
    (h : Method2 K M I D F C N known alloc k text fields m S1 S2 code tree) (hS : Std I D F C N A U 0) (hself : Src.act A .self = Src.act A (.rdVar true 0 0)) (err : Err → E) :
    Approx (NoBoolean err) (tree.run A U err) (bcRun (onMeth A) code) := by
  obtain ⟨rfl, hw, hn, hf, hs⟩ := h.ok hK
  obtain ⟨g, hg, hc⟩ := h.code
  exact C34_method_partial hw hn hf hs hg hc h.tree hS hself err

/-- **C64** (partly): whole programs.  Whatever the classes, objects and primitives do with the outcomes of methods and blocks (`Φ`), all methods and blocks of the texts have the same outcomes in both interpreters, at
every depth of calls.  Missing: see above. -/
theorem C64_program_partial {ι W E : Type} (text : ι → List Char) (fields : ι → List Name) (m : ι → Parse.Method) (S2 : ι → SMethod) (p : Compiled2 ι)
    (h : ∀ i, Method2 K M I D F C N known alloc k (text i) (fields i) (m i) (p.src i) (S2 i) (p.code i) (p.tree i)) (Φ : System ι W E) (err : Err → E) (hΦ : Φ.passes (NoBoolean err))
    (hS : ∀ b l, Std I D F C N (Φ b).1 (Φ b).2 l) (hself : ∀ b, Src.act (Φ b).1 .self = Src.act (Φ b).1 (.rdVar true 0 0)) (j : Nat) :
    (∀ i, Approx (NoBoolean err) ((astBehaviour p Φ err j).meth i) ((bcBehaviour p Φ j).meth i)) ∧
    ∀ id, Approx (NoBoolean err) ((astBehaviour p Φ err j).blk id) ((bcBehaviour p Φ j).blk id) := by
  refine C34_program_partial (n := k) (known := known) (alloc := alloc) ⟨fun i => ((h i).ok hK).2.1, fun i => ((h i).ok hK).2.2.1, fun i => ((h i).ok hK).2.2.2.1, fun i => ((h i).ok hK).2.2.2.2,
    fun i => (h i).code, fun i => ?_⟩ Φ err hΦ hS hself j
  rw [((h i).ok hK).1]
  exact (h i).tree

end

/-! ## Example -/

theorem classAst_of {text : List Char} {d : ClassText} (h : (scanAll Lex.Spec.ascii 100 (Lex.St.init text)).any (fun r => match r with
      | .ok ts => match classdef .ast 100 ⟨ts, false⟩ with | .ok (e, _) => decide (e = d) | .error _ => false
      | .error _ => false) = true) : IsClassAst Lex.Spec.ascii text d := by
  cases e : scanAll Lex.Spec.ascii 100 (Lex.St.init text) with
  | none => rw [e] at h; cases h
  | some r =>
    rw [e] at h
    cases r with
    | error _ => cases h
    | ok ts =>
      simp only [Option.any_some] at h
      cases e2 : classdef .ast 100 ⟨ts, false⟩ with
      | error _ => rw [e2] at h; cases h
      | ok q => rw [e2] at h; exact ⟨100, ts, 100, q.2, e, by rw [e2, ← of_decide_eq_true h]⟩

theorem exists_ok {ε α : Type} {x : Except ε α} (h : x.toOption.isSome = true) : ∃ a, x = .ok a := by
  cases x with
  | ok a => exact ⟨a, rfl⟩
  | error _ => cases h

/-- The class of C62, with a block that is inlined and one that is not, is compiled for both interpreters; `t + (1)` needs that incrementing is sending `+ 1`, `t := a + 1` does not increment a field. -/
example : ∃ S code tree, Method2 Lex.Spec.ascii digits True False False False False (fun _ => true) (fun _ => .nil) 2 sampleText [['x']] sampleM S S code tree := by
  obtain ⟨⟨S, s⟩, h1⟩ := exists_ok (x := methodAt digits [['x']] 0 0 [true, false, true] [['a'], ['b']] [['t']] sampleStmts true) (by decide +kernel)
  have hl : selfName ∉ [['t']] := by decide +kernel
  have hb : selfName ∉ blockLocalsL sampleStmts := by decide +kernel
  have h2 := (C64_names_partial digits [['x']] 0 0 [true, false, true] [['a'], ['b']] [['t']] sampleStmts true hl hb _).2 h1
  have h3 : method digits [['x']] [true, false, true] [['a'], ['b']] [['t']] sampleStmts true = .ok S := by rw [method_at, h1]; rfl
  have e : sampleS = S := by
    have := method_isOk (N := digits) (fields := [['x']]) (bits := [true, false, true]) (ps := [['a'], ['b']]) (ls := [['t']]) (ts := sampleStmts) (ex := true) (by rw [h3])
    rw [h3] at this
    rw [sampleS, h3]
  subst e
  obtain ⟨g, code, hg, hc, _⟩ := sample_compiles
  obtain ⟨tree, ht⟩ := exists_ok (x := sampleS.ast (fun _ => true) (fun _ => .nil)) (by decide +kernel)
  refine ⟨sampleS, code, tree, ⟨_, sample_class, classAst_of (by decide +kernel), by decide +kernel⟩, ⟨_, _, _, rfl, hl, hb, ?_, ?_, 0, 0, [true, false, true], s, s, h1, h2⟩, ⟨g, hg, hc⟩, ht⟩
  · simp [sampleStmts, fairT, fairL, v, isOne, escapes, escapesL, one]
  · rintro _ ⟨f, x, h⟩
    simp [sampleStmts] at h

theorem tokens_unique {C : Classes} {text : List Char} {ts us : List Tok} (h1 : Lex.Spec.Tokens C text ts) (h2 : Lex.Spec.Tokens C text us) : ts = us := by
  induction h1 generalizing us with
  | stop text t r hn ht =>
    cases h2 with
    | stop => rfl
    | step _ t' r' us hn' ht' h =>
      rw [hn] at hn'
      injection hn' with e _
      exact absurd (e ▸ ht) ht'
  | step text t r ts hn ht _ ih =>
    cases h2 with
    | stop _ t' r' hn' ht' =>
      rw [hn] at hn'
      injection hn' with e _
      exact absurd (e ▸ ht') ht
    | step _ t' r' us hn' ht' h =>
      rw [hn] at hn'
      injection hn' with e1 e2
      subst e1 e2
      rw [ih h]

theorem noPseudo_of {text : List Char} (h : (scanAll Lex.Spec.ascii 100 (Lex.St.init text)).any (fun r => match r with
      | .ok ts => ts.all fun t => decide (t.text ≠ superName) && decide (t.text ≠ selfName)
      | .error _ => false) = true) : NoPseudo Lex.Spec.ascii text := by
  intro toks ht
  cases e : scanAll Lex.Spec.ascii 100 (Lex.St.init text) with
  | none => rw [e] at h; cases h
  | some r =>
    rw [e] at h
    cases r with
    | error _ => cases h
    | ok ts =>
      cases tokens_unique ht ((C24_file_tokens Lex.Spec.ascii ascii_ok.toGood (Lex.St.init text) (between_init text) ts).1 ⟨100, e⟩)
      simp only [Option.any_some, List.all_eq_true, Bool.and_eq_true, decide_eq_true_eq] at h
      exact ⟨fun t ht => (h t ht).1, fun h => (nomatch h), fun _ x a hx hs => (h x (hx.subset (by simp))).2 hs.1⟩

/-- The text of this class has neither `super` nor `self`. -/
example : IsClassAst Lex.Spec.ascii sampleText ⟨"Point".toList, some "Object".toList, [['x']], [sampleM], none⟩ :=
  C64_class_partial ascii_ok sample_class (noPseudo_of (by decide +kernel))

/-! ## Where it fails -/

/-- **C64 is violated**: with a local variable called `self` the bytecode interpreter reads fields of the receiver, and the AST interpreter those of the variable (here `nil`). -/
theorem C64_violated_self : ∃ d S, IsClass Lex.Spec.ascii "A = ( | x | run = ( | self | ^ x ) )".toList d ∧ IsClassAst Lex.Spec.ascii "A = ( | x | run = ( | self | ^ x ) )".toList d ∧
    d.meths = [⟨"run".toList, [], some ([selfName], [v "x"], true)⟩] ∧ newScope 0 selfName [] [selfName] = .ok S ∧
    pushVariable ⟨[S], d.fields⟩ ['x'] = .fld ['x'] 0 ∧ Ast.getVariable [S] ['x'] = none ∧ Ast.getSelfRead ⟨[S], d.fields⟩ = .ok (false, 0, 0) := by
  refine ⟨⟨['A'], none, [['x']], [⟨"run".toList, [], some ([selfName], [v "x"], true)⟩], none⟩, _, class_of (by decide +kernel), classAst_of (by decide +kernel), rfl, rfl, ?_, ?_, ?_⟩
  · rfl
  · decide +kernel
  · decide +kernel

/-- **C64 is violated**: an assignment to a name that is not declared is not reported as an error in the text, by a `RuntimeError` in the one and a `ValueError` in the other interpreter. -/
theorem C64_violated_undeclared (bits : List Bool) : methodAt digits [] 0 0 bits [] [] [.assign [['x']] (.lit (.int false ['1']))] false = .error .value ∧
    Ast.methodAt digits [] 0 0 bits [] [] [.assign [['x']] (.lit (.int false ['1']))] false = .error .other := ⟨rfl, rfl⟩

end PySOM.Elab

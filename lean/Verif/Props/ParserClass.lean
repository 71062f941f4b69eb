import Verif.Lemmas.ParserClass
import Verif.Props.Parser
/-!
# C58: class definitions are parsed as the grammar says; lines of the shell are expressions

`Spec/GrammarClass.lean` is the grammar.
-/
set_option autoImplicit false
namespace PySOM.Parse
open PySOM.Lex PySOM.Parse.Grammar

deriving instance DecidableEq for ClassText

/-- **C58** (partly).  Every class definition in the part of the grammar that engine `e` gets right is parsed to its name, superclass, fields and methods, whatever follows it.

Missing: the constructs excluded from `part e` (see C51), and a first method `|` without fields before it (`C58_violated_bar`). -/
theorem C58_class_partial (e : Engine) (ts : List Tok) (d : ClassText) (h : GClass (part e) true ts d) (rest : List Tok) :
    ∃ n, ∀ m, n ≤ m → classdef e m ⟨ts ++ rest, false⟩ = .ok (d, ⟨rest, false⟩) :=
  classdef_ok h rest

/-- **C58** (partly), for the grammar itself, on texts without the constructs named in `Plain e`. -/
theorem C58_plain_partial (e : Engine) (ts : List Tok) (d : ClassText) (h : GClass som true ts d) (hp : Plain e ts) (rest : List Tok) :
    ∃ n, ∀ m, n ≤ m → classdef e m ⟨ts ++ rest, false⟩ = .ok (d, ⟨rest, false⟩) :=
  classdef_ok (h.plain hp) rest

/-- **C58**: what is accepted is a class definition, followed by a rest that has not been looked at. -/
theorem C58_sound (e : Engine) (n : Nat) (toks rest : List Tok) (b : Bool) (d : ClassText) (hs : ∀ x ∈ toks, x.text ≠ superName) (hl : ∀ x ∈ toks, x.sym ≠ .none)
    (h : classdef e n ⟨toks, false⟩ = .ok (d, ⟨rest, b⟩)) : ∃ ts, toks = ts ++ rest ∧ GClass (taken e) true ts d := by
  obtain ⟨ts, e1, _, g⟩ := classdef_sound h rfl hs hl
  exact ⟨ts, e1, g⟩

/-- **C58** (partly): on texts without the constructs named in `Plain`, the bytecode parser accepts exactly the class definitions of the grammar (where a bar at the beginning declares fields),
with exactly their contents. -/
theorem C58_exact_partial (toks rest : List Tok) (d : ClassText) (hp : Plain .bc toks) (hl : ∀ x ∈ toks, x.sym ≠ .none) :
    (∃ n, classdef .bc n ⟨toks, false⟩ = .ok (d, ⟨rest, false⟩)) ↔ ∃ ts, toks = ts ++ rest ∧ GClass som true ts d := by
  constructor
  · rintro ⟨n, h⟩
    exact C58_sound .bc n toks rest false d hp.noSuper hl h
  · rintro ⟨ts, rfl, h⟩
    obtain ⟨n, hn⟩ := C58_plain_partial .bc ts d h hp.left rest
    exact ⟨n, hn n (Nat.le_refl n)⟩

/-- **C58** (partly): both interpreters read the same class, one way: without `super` and assignments to `self`, a class that the bytecode parser accepts is accepted by the AST parser, with the
same contents. -/
theorem C58_ast_follows_bc_partial (n : Nat) (toks rest : List Tok) (b : Bool) (d : ClassText) (hp : Plain .ast toks) (hl : ∀ x ∈ toks, x.sym ≠ .none)
    (h : classdef .bc n ⟨toks, false⟩ = .ok (d, ⟨rest, b⟩)) :
    ∃ n', ∀ m, n' ≤ m → classdef .ast m ⟨toks, false⟩ = .ok (d, ⟨rest, false⟩) := by
  obtain ⟨ts, rfl, g⟩ := C58_sound .bc n toks rest b d hp.noSuper hl h
  exact C58_plain_partial .ast ts d g hp.left rest

/-- A class with fields and methods on both sides. -/
def point : List Tok := toks "Point = Object ( | x y | x = ( ^ x ) + p = primitive ---- | zero | x: a = ( ^ self new ) )"
def pointText : ClassText :=
  ⟨"Point".toList, some "Object".toList, [['x'], ['y']], [⟨['x'], [], some ([], [v "x"], true)⟩, ⟨['+'], [['p']], none⟩],
   some (["zero".toList], [⟨['x', ':'], [['a']], some ([], [.send false "new".toList (v "self") []], true)⟩])⟩

example (e : Engine) : classdef e 50 ⟨point, false⟩ = .ok (pointText, ⟨[], false⟩) := by cases e <;> decide +kernel
example : ∃ ts, point = ts ++ [] ∧ GClass som true ts pointText :=
  C58_sound .bc 50 point [] false pointText (by decide +kernel) (by decide +kernel) (by decide +kernel)

example : Plain .bc point := by
  refine ⟨by decide +kernel, fun _ o u x h ⟨_, ⟨h1, _⟩, _⟩ => ?_, fun h => nomatch h⟩
  have h2 : u ∈ point := h.subset (by simp)
  exact (show ∀ u ∈ point, u.sym ≠ .integer by decide +kernel) u h2 h1

/-! ## Where the parsers differ from the grammar -/

/-- **C58 is violated**: whatever follows the class definition in its file is ignored, so that a superfluous closing parenthesis makes the rest of the class disappear. -/
theorem C58_violated_rest (e : Engine) : ∃ d, d.meths = [⟨['a'], [], some ([], [v "self"], true)⟩] ∧
    classdef e 50 ⟨toks "A = ( a = ( ^ self ) ) b = ( ^ self ) )", false⟩ = .ok (d, ⟨toks "b = ( ^ self ) )", false⟩) :=
  ⟨⟨['A'], none, [], [⟨['a'], [], some ([], [v "self"], true)⟩], none⟩, rfl, by cases e <;> decide +kernel⟩

/-- **C58 is violated**: a class without fields whose first method is `|` is a class of the grammar, but is rejected: the bar is taken for the beginning of fields. -/
theorem C58_violated_bar (e : Engine) : GClass som false (toks "A = ( | x = primitive )") ⟨['A'], none, [], [⟨['|'], [['x']], none⟩], none⟩ ∧
    classdef e 50 ⟨toks "A = ( | x = primitive )", false⟩ = .error .syntax := by
  refine ⟨?_, by cases e <;> decide +kernel⟩
  have : toks "A = ( | x = primitive )" =
      i "A" :: ⟨.equal, ['=']⟩ :: ([] ++ ⟨.newTerm, ['(']⟩ :: ([] ++ (([⟨.or, ['|']⟩, i "x"] ++ [⟨.equal, ['=']⟩, ⟨.primitive, "primitive".toList⟩]) ++ []) ++ ([] ++ [⟨.endTerm, [')']⟩]))) := by
    decide +kernel
  rw [this]
  exact .mk rfl rfl .none rfl (.mk .none (.cons (.prim (.binary (by simp [IsOp]) (IsId.i _)) rfl rfl) .nil) (fun h => nomatch h)) .none rfl

/-- **C58 is violated**: an empty declaration of fields without a space between its bars begins a method `||`: of `|| run = …` the class gets a method `||` with the parameter `run`. -/
theorem C58_violated_empty_fields (e : Engine) :
    classdef e 50 ⟨toks "A = ( || run = ( ^ self ) )", false⟩ = .ok (⟨['A'], none, [], [⟨['|', '|'], ["run".toList], some ([], [v "self"], true)⟩], none⟩, ⟨[], false⟩) ∧
    classdef e 50 ⟨toks "A = ( | | run = ( ^ self ) )", false⟩ = .ok (⟨['A'], none, [], [⟨"run".toList, [], some ([], [v "self"], true)⟩], none⟩, ⟨[], false⟩) := by
  constructor <;> cases e <;> decide +kernel

/-! ## The shell -/

/-- The class of a line whose expression has the tree `t`: its method assigns the value to `tmp`, prints, and answers what printing it answers. -/
def shellResult (name : Name) (t : Tree) : ClassText :=
  ⟨name, none, [], [⟨"run:".toList, ["it".toList], some (["tmp".toList],
    [.assign ["tmp".toList] t, .send false "print".toList (.lit (.str "it = ".toList)) [], .send false "println".toList (v "tmp") []], true)⟩], none⟩

/-- **C58** (partly), for the shell: a line that is an expression becomes a class whose method `run:` computes this expression, and nothing else.

Missing: that other lines are rejected; see `C58_violated_shell`. -/
theorem C58_shell_partial (e : Engine) (name : Name) (stmt : List Tok) (t : Tree) (h : Expr (part e) stmt t) :
    ∃ n, ∀ m, n ≤ m → shellClass e m name stmt = .ok (shellResult name t, ⟨[], false⟩) := by
  have hid : ∀ {s : Name}, IsId ⟨.identifier, s⟩ := .inl rfl
  have hm : GMethod (part e)
      ([⟨.keyword, "run:".toList⟩, ⟨.identifier, "it".toList⟩] ++ ⟨.equal, ['=']⟩ :: ⟨.newTerm, ['(']⟩ ::
        ((⟨.or, ['|']⟩ :: ([⟨.identifier, "tmp".toList⟩] ++ [⟨.or, ['|']⟩])) ++
          ((([⟨.identifier, "tmp".toList⟩, ⟨.assign, ":=".toList⟩] ++ (⟨.newTerm, ['(']⟩ :: (stmt ++ [⟨.endTerm, [')']⟩]))) ++ ⟨.period, ['.']⟩ ::
            (([⟨.stString, "it = ".toList⟩] ++ [⟨.identifier, "print".toList⟩]) ++ ⟨.period, ['.']⟩ ::
              (⟨.exit, ['^']⟩ :: (([⟨.identifier, "tmp".toList⟩] ++ [⟨.identifier, "println".toList⟩]) ++ [])))) ++ [⟨.endTerm, [')']⟩])))
      ⟨"run:".toList, ["it".toList], some (["tmp".toList],
        [.assign ["tmp".toList] t, .send false "print".toList (.lit (.str "it = ".toList)) [], .send false "println".toList (v "tmp") []], true)⟩ := by
    refine .body (.keyword (.one rfl hid)) rfl rfl rfl (.some rfl rfl (.cons hid .nil)) ?_
    refine .stmt (.assign (.one hid rfl) (fun _ x hx => ?_) (.bin (.un (.prim (.term rfl rfl h))))) rfl ?_
    · rw [List.mem_singleton.1 hx]; exact ⟨by decide, by decide⟩
    refine .stmt (.eval (.bin (.un (.send (s := false) (m := ⟨.identifier, "print".toList⟩) (.prim (.lit (.str rfl))) hid)))) rfl ?_
    exact .exit rfl (.eval (.bin (.un (.send (s := false) (m := ⟨.identifier, "println".toList⟩) (.prim (.var hid (by decide))) hid)))) .none
  have hc := GClass.mk (D := part e) (first := true) (n := ⟨.identifier, name⟩) (q := ⟨.equal, ['=']⟩) (o := ⟨.newTerm, ['(']⟩) (c := ⟨.endTerm, [')']⟩) rfl rfl .none rfl
    (.mk .none (.cons hm .nil) (fun _ _ t ht => by cases ht; decide)) .none rfl
  obtain ⟨n, hn⟩ := C58_class_partial e _ _ hc []
  refine ⟨n, fun m h => ?_⟩
  have := hn m h
  simp only [List.nil_append, List.append_nil, List.cons_append, List.append_assoc] at this
  exact this

example : shellClass .bc 50 "Shell_Class_0".toList (toks "it + (3 * 4)") =
    .ok (shellResult "Shell_Class_0".toList (.send false ['+'] (v "it") [.send false ['*'] (.lit (.int false ['3'])) [.lit (.int false ['4'])]]), ⟨[], false⟩) := by
  decide +kernel

/-- The tokens of the class are those of the text that the shell makes, for this line. -/
example : toks (String.ofList (shellText 0 "it + (3 * 4)".toList)) = shellBefore "Shell_Class_0".toList ++ (toks "it + (3 * 4)" ++ shellAfter) := by decide +kernel

/-- **C58 is violated**: a line that is no expression need not be rejected: with its own parentheses it can close those that the shell puts around it, end the method, and even define others. -/
theorem C58_violated_shell :
    classdef .bc 60 ⟨toks (String.ofList (shellText 0 "1). ^2 ) foo = ( (3".toList)), false⟩ =
      .ok (⟨"Shell_Class_0".toList, none, [],
        [⟨"run:".toList, ["it".toList], some (["tmp".toList], [.assign ["tmp".toList] (.lit (.int false ['1'])), .lit (.int false ['2'])], true)⟩,
         ⟨"foo".toList, [], some ([], [.lit (.int false ['3']), .send false "print".toList (.lit (.str "it = ".toList)) [], .send false "println".toList (v "tmp") []], true)⟩], none⟩,
        ⟨[], false⟩) := by
  decide +kernel

end PySOM.Parse

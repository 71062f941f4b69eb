import Verif.Lemmas.ParserMethod
import Verif.Lemmas.ParserEq
/-!
# C51: messages are parsed as the grammar says

`Spec/Grammar.lean` is the grammar.  `part e` is the part of it which engine `e`'s parser gets right; what is missing from it is listed at
`Dialect` and shown to be wrong below.  Texts are turned into tokens by the scanner of `Model/Lexer.lean`.
-/
set_option autoImplicit false
namespace PySOM.Parse
open PySOM.Lex PySOM.Parse.Grammar

/-! ## Examples -/

/-- ASCII, for the examples. -/
def ascii : Classes where
  isSpace c := c == ' ' || c == '\n' || c == '\t'
  isAlpha c := c.isAlpha
  isDigit c := c.isDigit
  isAlnum c := c.isAlphanum

/-- The tokens of a text. -/
@[irreducible] def toks (s : String) : List Tok :=
  match scanAll ascii 100 (St.init s.toList) with
  | some (.ok ts) => ts
  | _ => []

/-- Variables. -/
def v (s : String) : Tree := .var s.toList

/-- `a b + c d * e k: f g + h l: 3` is `(((a b) + (c d)) * e) k: ((f g) + h) l: 3`. -/
def sample : List Tok := toks "a b + c d * e k: f g + h l: 3"
def sampleTree : Tree :=
  .send false "k:l:".toList
    (.send false ['*'] (.send false ['+'] (.send false ['b'] (v "a") []) [.send false ['d'] (v "c") []]) [v "e"])
    [.send false ['+'] (.send false ['g'] (v "f") []) [v "h"], .lit (.int false ['3'])]

example (e : Engine) : expression e 50 ⟨sample, false⟩ = .ok (sampleTree, ⟨[], false⟩) := by cases e <;> decide +kernel

/-! ## Phrases are parsed to their trees -/

/-- **C51** (partly).  Every expression in the part of the grammar engine `e` gets right is parsed to the tree the grammar gives it, whatever
follows it (as long as it cannot be read as belonging to it), and exactly its tokens are consumed.

Missing: the constructs excluded from `part e`; on these, the parsers do not follow the grammar, see below. -/
theorem C51_expression_partial (e : Engine) (ts : List Tok) (t : Tree) (h : Expr (part e) ts t) (rest : List Tok) (hr : Stop rest) :
    ∃ n, ∀ m, n ≤ m → expression e m ⟨ts ++ rest, false⟩ = .ok (t, ⟨rest, false⟩) :=
  (complete e).2.2.2.2.2.1 h rest hr

/-- **C51** (partly), for methods. -/
theorem C51_method_partial (e : Engine) (ts : List Tok) (d : Method) (h : GMethod (part e) ts d) (rest : List Tok) :
    ∃ n, ∀ m, n ≤ m → method e m ⟨ts ++ rest, false⟩ = .ok (d, ⟨rest, false⟩) :=
  method_ok h rest

/-- The parts are parts of the grammar: their phrases are phrases of the grammar, with the same trees. -/
theorem part_of_grammar {D : Dialect} (hD : D.lax = false) :
    (∀ {ts t s}, Prim D ts t s → Prim som ts t s) ∧ (∀ {ts t s}, Un D ts t s → Un som ts t s) ∧
    (∀ {ts t s}, Bin D ts t s → Bin som ts t s) ∧ (∀ {us ks as fs}, Args D us ks as fs → Args som us ks as fs) ∧
    (∀ {ts t}, Eval D ts t → Eval som ts t) ∧ (∀ {ts t}, Expr D ts t → Expr som ts t) ∧
    (∀ {ts bs ex}, Body D ts bs ex → Body som ts bs ex) := by
  refine Grammar.induct ?var ?sup ?lit ?term ?block ?prim ?unary ?un ?binary ?one ?more ?bin ?keyword ?eval ?assign ?empty ?exit
    ?last ?stmt ?juxt
  case var => exact fun h1 h2 => .var h1 h2
  case sup => exact fun h1 h2 => .sup h1 h2
  case lit => exact fun h => .lit h
  case term => exact fun ho hc _ ih => .term ho hc ih
  case block => exact fun ho hc h1 h2 _ ih => .block ho hc h1 h2 ih
  case prim => exact fun _ ih => .prim ih
  case unary => exact fun _ hm ih => .send ih hm
  case un => exact fun _ ih => .un ih
  case binary => exact fun _ ho _ _ _ ih ih' => .send ih ho ih' (fun h => nomatch h) (fun h => nomatch h)
  case one => exact fun hk _ ih => .one hk ih
  case more => exact fun hk _ _ ih ih' => .cons hk ih ih'
  case bin => exact fun _ ih => .bin ih
  case keyword => exact fun _ _ _ ih ih' => .send ih ih' (fun h => nomatch h)
  case eval => exact fun _ ih => .eval ih
  case assign => exact fun hx _ _ ih => .assign hx (fun h => nomatch h) ih
  case empty => exact .empty
  case exit => exact fun hc _ hd ih => .exit hc ih hd
  case last => exact fun _ ih => .last ih
  case stmt => exact fun _ hp _ ih ih' => .stmt ih hp ih'
  case juxt => intro ts us t bs ex h; rw [hD] at h; cases h

theorem C51_part (e : Engine) (ts : List Tok) (t : Tree) (h : Expr (part e) ts t) : Expr som ts t :=
  (part_of_grammar (by cases e <;> rfl)).2.2.2.2.2.1 h

/-- **C51** (partly).  Every expression of the grammar whose tokens avoid the constructs named in `Plain e` is parsed to its tree. -/
theorem C51_plain_expression_partial (e : Engine) (ts : List Tok) (t : Tree) (h : Expr som ts t) (hp : Plain e ts) (rest : List Tok)
    (hr : Stop rest) : ∃ n, ∀ m, n ≤ m → expression e m ⟨ts ++ rest, false⟩ = .ok (t, ⟨rest, false⟩) :=
  C51_expression_partial e ts t ((plain e).2.2.2.2.2.1 h hp) rest hr

theorem C51_plain_method_partial (e : Engine) (ts : List Tok) (d : Method) (h : GMethod som ts d) (hp : Plain e ts) (rest : List Tok) :
    ∃ n, ∀ m, n ≤ m → method e m ⟨ts ++ rest, false⟩ = .ok (d, ⟨rest, false⟩) :=
  method_ok (h.plain hp) rest

/-- **C51**: an expression has only one tree. -/
theorem C51_unambiguous_partial (e : Engine) (ts : List Tok) (t t' : Tree) (h : Expr som ts t) (h' : Expr som ts t') (hp : Plain e ts) :
    t = t' := by
  obtain ⟨n, hn⟩ := C51_plain_expression_partial e ts t h hp [] (fun t ht => nomatch ht)
  obtain ⟨n', hn'⟩ := C51_plain_expression_partial e ts t' h' hp [] (fun t ht => nomatch ht)
  have h1 := hn (n + n') (by omega)
  rw [hn' (n + n') (by omega)] at h1
  cases h1
  rfl

/-! ## What is parsed is a phrase -/

/-- **C51**: without `super`, whenever the bytecode parser answers a tree for an expression, the tokens it has consumed are an expression of
the grammar with this tree; for the AST parser, of the grammar with optional periods between statements. -/
theorem C51_sound (e : Engine) (n : Nat) (toks rest : List Tok) (b : Bool) (t : Tree) (hs : ∀ x ∈ toks, x.text ≠ superName)
    (h : expression e n ⟨toks, false⟩ = .ok (t, ⟨rest, b⟩)) : ∃ ts, toks = ts ++ rest ∧ Expr (taken e) ts t := by
  obtain ⟨ts, e1, _, g⟩ := (sound e n).1 _ _ _ h rfl hs
  exact ⟨ts, e1, g⟩

theorem C51_method_sound (e : Engine) (n : Nat) (toks rest : List Tok) (b : Bool) (d : Method) (hs : ∀ x ∈ toks, x.text ≠ superName)
    (hl : ∀ x ∈ toks, x.sym ≠ .none) (h : method e n ⟨toks, false⟩ = .ok (d, ⟨rest, b⟩)) :
    ∃ ts, toks = ts ++ rest ∧ GMethod (taken e) ts d := by
  obtain ⟨ts, e1, _, g⟩ := method_sound h rfl hs hl
  exact ⟨ts, e1, g⟩

/-- **C51**: both parsers accept the same methods and build the same trees, one way: without `super` and assignments to `self`, a method the
bytecode parser accepts is accepted by the AST parser, with the same tree and the same rest. -/
theorem C51_ast_follows_bc (n : Nat) (toks rest : List Tok) (b : Bool) (d : Method) (hp : Plain .ast toks) (hl : ∀ x ∈ toks, x.sym ≠ .none)
    (h : method .bc n ⟨toks, false⟩ = .ok (d, ⟨rest, b⟩)) :
    ∃ n', ∀ m, n' ≤ m → method .ast m ⟨toks, false⟩ = .ok (d, ⟨rest, false⟩) := by
  obtain ⟨ts, rfl, g⟩ := C51_method_sound .bc n toks rest b d hp.noSuper hl h
  exact C51_plain_method_partial .ast ts d g hp.left rest

/-- A text meeting the hypotheses of the theorems above. -/
def sampleMethod : List Tok := toks "at: i put: o = ( | t | t := self a: i - 1 + o size. ^ [ :x | x + t abs ] )"

example (e : Engine) : Plain e sample := by
  have : sample = [⟨.identifier, ['a']⟩, ⟨.identifier, ['b']⟩, ⟨.plus, ['+']⟩, ⟨.identifier, ['c']⟩, ⟨.identifier, ['d']⟩, ⟨.star, ['*']⟩,
    ⟨.identifier, ['e']⟩, ⟨.keyword, ['k', ':']⟩, ⟨.identifier, ['f']⟩, ⟨.identifier, ['g']⟩, ⟨.plus, ['+']⟩, ⟨.identifier, ['h']⟩,
    ⟨.keyword, ['l', ':']⟩, ⟨.integer, ['3']⟩] := by decide +kernel
  rw [this]
  refine ⟨by decide, fun _ o u x h ⟨_, h1, _⟩ => ?_, fun _ x a h ⟨h1, _⟩ => ?_⟩
  · have : u ∈ [o, u, x] := by simp
    have := h.subset this
    simp only [List.mem_cons, List.not_mem_nil, or_false] at this
    rcases this with rfl | rfl | rfl | rfl | rfl | rfl | rfl | rfl | rfl | rfl | rfl | rfl | rfl | rfl <;> revert h1 <;> decide
  · have : x ∈ [x, a] := by simp
    have := h.subset this
    simp only [List.mem_cons, List.not_mem_nil, or_false] at this
    rcases this with rfl | rfl | rfl | rfl | rfl | rfl | rfl | rfl | rfl | rfl | rfl | rfl | rfl | rfl <;> revert h1 <;> decide

example : ∃ ts, sample = ts ++ [] ∧ Expr som ts sampleTree :=
  C51_sound .bc 50 sample [] false sampleTree (by decide +kernel) (by decide +kernel)

/-- The method of that text. -/
def sampleResult : Method :=
  ⟨"at:put:".toList, [['i'], ['o']], some ([['t']],
    [.assign [['t']] (.send false ['a', ':'] (v "self")
      [.send false ['+'] (.send false ['-'] (v "i") [.lit (.int false ['1'])]) [.send false "size".toList (v "o") []]]),
     .block [['x']] [] [.send false ['+'] (v "x") [.send false "abs".toList (v "t") []]] false], true)⟩

example : ∃ ts, sampleMethod = ts ++ [] ∧ GMethod som ts sampleResult :=
  C51_method_sound .bc 50 sampleMethod [] false sampleResult (by decide +kernel) (by decide +kernel) (by decide +kernel)

/-! ## Where the parsers differ from the grammar -/

/-- The identifiers and other tokens used below. -/
def i (s : String) : Tok := ⟨.identifier, s.toList⟩
theorem IsId.i (s : String) : IsId (i s) := .inl rfl

/-- **C51 is violated** by the bytecode parser: `a + 1 b` is `a + (1 b)`, but the parser takes `a + 1` and stops before `b`: after `+` or `-`,
the token `1` is taken without unary messages (`_try_inc_or_dec_bytecodes`, `bc/parser.py:216-226`).  So a method containing it is a syntax
error; the AST parser accepts it. -/
theorem C51_violated_plus_one :
    Expr som (toks "a + 1 b") (.send false ['+'] (v "a") [.send false ['b'] (.lit (.int false ['1'])) []]) ∧
    expression .bc 50 ⟨toks "a + 1 b", false⟩ = .ok (.send false ['+'] (v "a") [.lit (.int false ['1'])], ⟨toks "b", false⟩) ∧
    method .bc 50 ⟨toks "m = ( ^ a + 1 b )", false⟩ = .error .syntax ∧
    method .ast 50 ⟨toks "m = ( ^ a + 1 b )", false⟩ =
      .ok (⟨['m'], [], some ([], [.send false ['+'] (v "a") [.send false ['b'] (.lit (.int false ['1'])) []]], true)⟩, ⟨[], false⟩) := by
  refine ⟨?_, by decide +kernel, by decide +kernel, by decide +kernel⟩
  have : toks "a + 1 b" = [i "a"] ++ ⟨.plus, ['+']⟩ :: ([⟨.integer, ['1']⟩] ++ [i "b"]) := by decide +kernel
  rw [this]
  exact .eval (.bin (.send (s := false) (r := false) (.un (.prim (.var (IsId.i _) (by decide)))) (by simp [IsOp])
    (.send (s := false) (.prim (.lit (.int rfl))) (IsId.i _)) (fun h => nomatch h) (fun h => nomatch h)))

/-- **C51 is violated** by both parsers: in `a + super * b` the word `super` is an operand, and the receiver of `*` is the sum, so that `*` is
an ordinary message.  The parsers make it a super send: `_super_send` stays set after the operand (`_binary_operand`), and the next message
uses it. -/
theorem C51_violated_super_operand (e : Engine) :
    Expr som (toks "a + super * b") (.send false ['*'] (.send false ['+'] (v "a") [v "self"]) [v "b"]) ∧
    expression e 50 ⟨toks "a + super * b", false⟩ =
      .ok (.send true ['*'] (.send false ['+'] (v "a") [v "self"]) [v "b"], ⟨[], false⟩) := by
  refine ⟨?_, by cases e <;> decide +kernel⟩
  have : toks "a + super * b" = ([i "a"] ++ ⟨.plus, ['+']⟩ :: [i "super"]) ++ ⟨.star, ['*']⟩ :: [i "b"] := by decide +kernel
  rw [this]
  exact .eval (.bin (.send (s := false) (r := false)
    (.send (s := false) (r := true) (.un (.prim (.var (IsId.i _) (by decide)))) (by simp [IsOp]) (.prim (.sup (IsId.i _) rfl))
      (fun h => nomatch h) (fun h => nomatch h)) (by simp [IsOp])
    (.prim (.var (IsId.i _) (by decide))) (fun h => nomatch h) (fun h => nomatch h)))

/-- **C51 is violated** by the AST parser: in `super k: a b` the argument `a b` is an ordinary message, but the parser makes it a super
send: `_keyword_message` (`ast/parser.py:336-347`) does not reset `_super_send` before parsing the arguments.  The bytecode parser gets it right. -/
theorem C51_violated_super_keyword :
    Expr som (toks "super k: a b") (.send true ['k', ':'] (v "self") [.send false ['b'] (v "a") []]) ∧
    expression .bc 50 ⟨toks "super k: a b", false⟩ = .ok (.send true ['k', ':'] (v "self") [.send false ['b'] (v "a") []], ⟨[], false⟩) ∧
    expression .ast 50 ⟨toks "super k: a b", false⟩ = .ok (.send true ['k', ':'] (v "self") [.send true ['b'] (v "a") []], ⟨[], false⟩) := by
  refine ⟨?_, by decide +kernel, by decide +kernel⟩
  have : toks "super k: a b" = [i "super"] ++ ⟨.keyword, ['k', ':']⟩ :: ([i "a"] ++ [i "b"]) := by decide +kernel
  rw [this]
  exact .eval (.send (s := true) (.un (.prim (.sup (IsId.i _) rfl)))
    (.one (s := false) rfl (.un (.send (s := false) (.prim (.var (IsId.i _) (by decide))) (IsId.i _)))) (fun h => nomatch h))

/-- **C51 is violated** by the AST parser: it accepts statements without a period between them, which are no methods of the grammar; the
bytecode parser rejects them. -/
theorem C51_violated_missing_period :
    (∀ d, ¬ GMethod som (toks "m = ( a 1 )") d) ∧ method .bc 50 ⟨toks "m = ( a 1 )", false⟩ = .error .syntax ∧
    method .ast 50 ⟨toks "m = ( a 1 )", false⟩ = .ok (⟨['m'], [], some ([], [v "a", .lit (.int false ['1'])], false)⟩, ⟨[], false⟩) := by
  refine ⟨fun d h => ?_, by decide +kernel, by decide +kernel⟩
  have he : toks "m = ( a 1 )" = [i "m", ⟨.equal, ['=']⟩, ⟨.newTerm, ['(']⟩, i "a", ⟨.integer, ['1']⟩, ⟨.endTerm, [')']⟩] := by decide +kernel
  rw [he] at h
  have hp : Plain .bc [i "m", ⟨.equal, ['=']⟩, ⟨.newTerm, ['(']⟩, i "a", ⟨.integer, ['1']⟩, ⟨.endTerm, [')']⟩] := by
    refine ⟨by decide, fun _ o u x h ⟨h1, _⟩ => ?_, fun h => nomatch h⟩
    have : o ∈ [o, u, x] := by simp
    have := h.subset this
    simp only [List.mem_cons, List.not_mem_nil, or_false] at this
    rcases this with rfl | rfl | rfl | rfl | rfl | rfl <;> revert h1 <;> decide
  obtain ⟨n, hn⟩ := C51_plain_method_partial .bc _ d h hp []
  cases hn (n + 20) (by omega)

/-- **C51**: the parsers disagree on assignments to `self`: phrases of the grammar, accepted by the bytecode parser only. -/
theorem C51_violated_self_target :
    expression .bc 50 ⟨toks "self := x", false⟩ = .ok (.assign ["self".toList] (v "x"), ⟨[], false⟩) ∧
    expression .ast 50 ⟨toks "self := x", false⟩ = .error .syntax := by
  exact ⟨by decide +kernel, by decide +kernel⟩

end PySOM.Parse

import Verif.Model.Lexer
/-!
# Model of the parsers

`src/som/compiler/parser.py` (`ParserBase`), `src/som/compiler/bc/parser.py` and `src/som/compiler/ast/parser.py`, from tokens to
trees.  The two parsers generate code or nodes while parsing; here both produce the same kind of tree, and what they do with it (inlining,
looking up names) is left to the other parts of the model.  The tokens are those the scanner delivers (see `Lexer`; looking ahead does not
change them, C25), so the current symbol is the first token and `_next_sym` the second.

Recursive functions get fuel; `Fail.fuel` means it did not suffice.
-/
set_option autoImplicit false
namespace PySOM.Parse
open PySOM.Lex

abbrev Name := List Char

/-- Literals: `_literal_decimal` (the text and whether there was a minus sign), strings, symbols, arrays. -/
inductive Lit where
  | int (neg : Bool) (text : Name)
  | dbl (neg : Bool) (text : Name)
  | str (text : Name)
  | sym (text : Name)
  | arr (elements : List Lit)

/-- Expressions.  `sup`: the message is a super send; `exits`: the last of the statements is `^ …`. -/
inductive Tree where
  | var (x : Name)
  | lit (l : Lit)
  | send (sup : Bool) (sel : Name) (rcvr : Tree) (args : List Tree)
  | assign (xs : List Name) (value : Tree)
  | block (params locals : List Name) (stmts : List Tree) (exits : Bool)

/-- The two parsers. -/
inductive Engine where
  | bc
  | ast
  deriving DecidableEq, Repr

/-- A `ParseError`, or not enough fuel. -/
inductive Fail where
  | syntax
  | fuel
  deriving DecidableEq, Repr

/-- The parser's state: tokens from the current one on, and `_super_send`. -/
structure PSt where
  toks : List Tok
  sup : Bool
  deriving DecidableEq

/-- `self._sym`; `Symbol.NONE` at the end. -/
abbrev PSt.sym (s : PSt) : Sym := match s.toks with
  | [] => .none
  | t :: _ => t.sym
/-- `self._text`. -/
abbrev PSt.text (s : PSt) : Name := match s.toks with
  | [] => ['\x00']
  | t :: _ => t.text
/-- `self._next_sym` after looking ahead. -/
abbrev PSt.next (s : PSt) : Sym := match s.toks with
  | _ :: t :: _ => t.sym
  | _ => .none
/-- `_get_symbol_from_lexer` (387-389). -/
abbrev PSt.advance (s : PSt) : PSt := { s with toks := s.toks.tail }

/-- `_single_op_syms` (19-34). -/
def singleOpSyms : List Sym := [.not, .and, .or, .star, .div, .mod, .plus, .equal, .more, .less, .comma, .at, .minus, .per]
/-- `_binary_op_syms` (36-54). -/
def binaryOpSyms : List Sym :=
  [.or, .comma, .minus, .equal, .not, .and, .or, .star, .div, .mod, .plus, .equal, .more, .less, .comma, .at, .per]

/-- `_sym_is_identifier` (142-143). -/
def PSt.isIdent (s : PSt) : Bool := s.sym == .identifier || s.sym == .primitive
/-- `self._sym == Symbol.OperatorSequence or self._sym_in(self._binary_op_syms)`. -/
def PSt.isBinOp (s : PSt) : Bool := s.sym == .operatorSequence || binaryOpSyms.contains s.sym

/-- `_expect` (157-162). -/
def PSt.expect (s : PSt) (k : Sym) : Except Fail PSt := if s.sym = k then .ok s.advance else .error .syntax

/-- `_identifier` (230-235). -/
def PSt.identifier (s : PSt) : Except Fail (Name × PSt) :=
  if s.sym = .primitive then .ok (s.text, s.advance)
  else do return (s.text, ← s.expect .identifier)

/-- `_keyword` (237-240). -/
def PSt.keyword (s : PSt) : Except Fail (Name × PSt) := do return (s.text, ← s.expect .keyword)

/-- `_binary_selector` (218-228). -/
def PSt.binarySelector (s : PSt) : Except Fail (Name × PSt) :=
  if singleOpSyms.contains s.sym then .ok (s.text, s.advance)
  else if s.sym = .operatorSequence then .ok (s.text, s.advance)
  else do return (s.text, ← s.expect .none)

/-- `_selector` (329-334) with `_keyword_selector` (336-340). -/
def PSt.selector (s : PSt) : Except Fail (Name × PSt) :=
  if s.sym = .operatorSequence ∨ s.sym ∈ singleOpSyms then s.binarySelector
  else if s.sym = .keyword ∨ s.sym = .keywordSequence then .ok (s.text, s.advance)
  else s.identifier

/-- `_literal_decimal` (274-283); the text is kept as it is. -/
def PSt.decimal (s : PSt) (neg : Bool) : Except Fail (Lit × PSt) :=
  if s.sym = .integer then .ok (.int neg s.text, s.advance)
  else if s.sym = .double then .ok (.dbl neg s.text, s.advance)
  else .error .syntax

/-- `_literal_number` (`bc/parser.py:352-358`, `ast/parser.py:484-487`) with `_negative_decimal` (285-287). -/
def PSt.number (s : PSt) : Except Fail (Lit × PSt) :=
  if s.sym = .minus then do (← s.expect .minus).decimal true else s.decimal false

/-- `_literal_symbol` (`bc/parser.py:360-368`, `ast/parser.py:489-494`). -/
def PSt.symbol (s : PSt) : Except Fail (Lit × PSt) := do
  let s ← s.expect .pound
  if s.sym = .stString then return (.sym s.text, ← s.expect .stString)
  else
    let (x, s) ← s.selector
    return (.sym x, s)

mutual
/-- `_literal` (`bc/parser.py:339-350`), `_get_object_for_current_literal` (`ast/parser.py:473-482`). -/
def literal : Nat → PSt → Except Fail (Lit × PSt)
  | 0, _ => .error .fuel
  | n + 1, s =>
    if s.sym = .pound then
      if s.next = .newTerm then do
        let s ← (← s.expect .pound).expect .newTerm
        let (es, s) ← literals n s
        return (.arr es, ← s.expect .endTerm)
      else s.symbol
    else if s.sym = .stString then do return (.str s.text, ← s.expect .stString)
    else s.number
/-- The loop of `_literal_array` (`bc/parser.py:389-395`, `ast/parser.py:504-505`). -/
def literals : Nat → PSt → Except Fail (List Lit × PSt)
  | 0, _ => .error .fuel
  | n + 1, s =>
    if s.sym = .endTerm then .ok ([], s)
    else do
      let (e, s) ← literal n s
      let (es, s) ← literals n s
      return (e :: es, s)
end

/-- `while self._sym_is_identifier(): … self._variable()` (`_locals`, 245-250). -/
def locals : Nat → PSt → Except Fail (List Name × PSt)
  | 0, _ => .error .fuel
  | n + 1, s =>
    if s.isIdent then do
      let (x, s) ← s.identifier
      let (xs, s) ← locals n s
      return (x :: xs, s)
    else .ok ([], s)

/-- The loop of `_block_arguments` (356-359) after the first argument. -/
def moreParams : Nat → PSt → Except Fail (List Name × PSt)
  | 0, _ => .error .fuel
  | n + 1, s =>
    if s.sym = .colon then do
      let (x, s) ← s.advance.identifier
      let (xs, s) ← moreParams n s
      return (x :: xs, s)
    else .ok ([], s)

/-- `_nested_block_signature` (398-409) with `_block_pattern` (347-349) and `_block_arguments` (351-360). -/
def blockSignature (n : Nat) (s : PSt) : Except Fail (List Name × PSt) := do
  let s ← s.expect .newBlock
  if s.sym = .colon then
    let s ← s.expect .colon
    let (x, s) ← s.identifier
    let (xs, s) ← moreParams n s
    return (x :: xs, ← s.expect .or)
  else return ([], s)

/-- The beginning of `_block_contents` (372-375): the declaration of local variables. -/
def localsDecl (n : Nat) (s : PSt) : Except Fail (List Name × PSt) :=
  if s.sym = .or then do
    let (xs, s) ← locals n s.advance
    return (xs, ← s.expect .or)
  else .ok ([], s)

def superName : Name := ['s', 'u', 'p', 'e', 'r']
def selfName : Name := ['s', 'e', 'l', 'f']

/-- `_unary_message` (`bc/parser.py:205-214`, `ast/parser.py:188-199`). -/
def unaryMessage (r : Tree) (s : PSt) : Except Fail (Tree × PSt) := do
  let (x, s') ← { s with sup := false }.identifier
  return (.send s.sup x r [], s')

/-- `while self._sym_is_identifier(): self._unary_message(…)`. -/
def unaryLoop : Nat → Tree → PSt → Except Fail (Tree × PSt)
  | 0, _, _ => .error .fuel
  | n + 1, r, s =>
    if s.isIdent then do
      let (r, s) ← unaryMessage r s
      unaryLoop n r s
    else .ok (r, s)

/-- The beginning of `_keyword_message` (`bc/parser.py:259-260`, `ast/parser.py:337`): the AST parser does not reset `_super_send`. -/
def PSt.atKeyword (s : PSt) : Engine → PSt
  | .bc => { s with sup := false }
  | .ast => s

mutual
/-- `_expression` (255-260). -/
def expression (e : Engine) : Nat → PSt → Except Fail (Tree × PSt)
  | 0, _ => .error .fuel
  | n + 1, s =>
    if s.next = .assign then
      match e with
      | .bc => do
        -- `_assignation` (`bc/parser.py:118-128`); without variables nothing is stored
        let (xs, s) ← assignmentsBc n s
        let (v, s) ← evaluation e n s
        return (if xs = [] then v else .assign xs v, s)
      | .ast => do
        let (xs, v, s) ← assignmentsAst n s
        return (.assign xs v, s)
    else evaluation e n s

/-- `_assignments`, `_assignment` (`bc/parser.py:130-143`). -/
def assignmentsBc : Nat → PSt → Except Fail (List Name × PSt)
  | 0, _ => .error .fuel
  | n + 1, s =>
    if s.isIdent then do
      let (x, s) ← s.identifier
      let s ← s.expect .assign
      if s.next = .assign then
        let (xs, s) ← assignmentsBc n s
        return (x :: xs, s)
      else return ([x], s)
    else .ok ([], s)

/-- `_assignments`, `_assignment` (`ast/parser.py:101-126`), and the refusal of pseudo variables in `_variable_write` (531-543). -/
def assignmentsAst : Nat → PSt → Except Fail (List Name × Tree × PSt)
  | 0, _ => .error .fuel
  | n + 1, s =>
    if s.isIdent then do
      let (x, s) ← s.identifier
      let s ← s.expect .assign
      if s.next = .assign then
        let (xs, v, s) ← assignmentsAst n s
        if x = selfName ∨ x = superName then .error .syntax else return (x :: xs, v, s)
      else
        let (v, s) ← evaluation .ast n s
        if x = selfName ∨ x = superName then .error .syntax else return ([x], v, s)
    else .error .syntax

/-- `_evaluation` (`bc/parser.py:145-156`, `ast/parser.py:128-140`). -/
def evaluation (e : Engine) : Nat → PSt → Except Fail (Tree × PSt)
  | 0, _ => .error .fuel
  | n + 1, s => do
    let (p, s) ← primary e n s
    if s.isIdent || s.sym == .keyword || s.isBinOp then
      let (m, s) ← messages e n p s
      return (m, { s with sup := false })
    else return (p, { s with sup := false })

/-- `_primary` (`bc/parser.py:158-176`, `ast/parser.py:142-170`), with `_nested_term` (268-272) and `nested_block` (`bc/parser.py:402-417`,
`ast/parser.py:509-513`). -/
def primary (e : Engine) : Nat → PSt → Except Fail (Tree × PSt)
  | 0, _ => .error .fuel
  | n + 1, s =>
    if s.isIdent then do
      let (x, s) ← s.identifier
      if x = superName then return (.var selfName, { s with sup := true })
      else return (.var x, s)
    else if s.sym = .newTerm then do
      let s ← s.expect .newTerm
      let (t, s) ← expression e n s
      return (t, ← s.expect .endTerm)
    else if s.sym = .newBlock then do
      let (ps, s) ← blockSignature n s
      let (ls, s) ← localsDecl n s
      let (ts, ex, s) ← body e n s
      return (.block ps ls ts ex, ← s.expect .endBlock)
    else do
      let (l, s) ← literal n s
      return (.lit l, s)

/-- `_messages` (`bc/parser.py:178-203`; `ast/parser.py:172-186`, where the three loops follow each other).  The case distinction of the
bytecode parser on the first symbol is kept. -/
def messages (e : Engine) : Nat → Tree → PSt → Except Fail (Tree × PSt)
  | 0, _, _ => .error .fuel
  | n + 1, r, s =>
    match e with
    | .ast => do
      let (r, s) ← unaryLoop n r s
      let (r, s) ← binaryLoop e n r s
      if s.sym = .keyword then keywordMessage e n r s else return (r, s)
    | .bc =>
      if s.isIdent then do
        let (r, s) ← unaryLoop n r s
        let (r, s) ← binaryLoop e n r s
        if s.sym = .keyword then keywordMessage e n r s else return (r, s)
      else if s.isBinOp then do
        let (r, s) ← binaryLoop e n r s
        if s.sym = .keyword then keywordMessage e n r s else return (r, s)
      else keywordMessage e n r s

/-- `while … binary operator …: self._binary_message(…)`. -/
def binaryLoop (e : Engine) : Nat → Tree → PSt → Except Fail (Tree × PSt)
  | 0, _, _ => .error .fuel
  | n + 1, r, s =>
    if s.isBinOp then do
      let (r, s) ← binaryMessage e n r s
      binaryLoop e n r s
    else .ok (r, s)

/-- `_binary_message` (`bc/parser.py:228-250`, with `_try_inc_or_dec_bytecodes` 216-226; `ast/parser.py:201-235`). -/
def binaryMessage (e : Engine) : Nat → Tree → PSt → Except Fail (Tree × PSt)
  | 0, _, _ => .error .fuel
  | n + 1, r, s => do
    let (x, s') ← { s with sup := false }.binarySelector
    if e = .bc ∧ (x = ['+'] ∨ x = ['-']) ∧ s.sup = false ∧ s'.sym = .integer ∧ s'.text = ['1'] then
      return (.send false x r [.lit (.int false ['1'])], s'.advance)
    else
      let (a, s') ← binaryOperand e n s'
      return (.send s.sup x r [a], s')

/-- `_binary_operand` (`bc/parser.py:252-256`, `ast/parser.py:237-243`). -/
def binaryOperand (e : Engine) : Nat → PSt → Except Fail (Tree × PSt)
  | 0, _ => .error .fuel
  | n + 1, s => do
    let (p, s) ← primary e n s
    unaryLoop n p s

/-- `_keyword_message` (`bc/parser.py:258-323`, `ast/parser.py:336-452`), without the attempts to inline. -/
def keywordMessage (e : Engine) : Nat → Tree → PSt → Except Fail (Tree × PSt)
  | 0, _, _ => .error .fuel
  | n + 1, r, s => do
    let (k, s1) ← (s.atKeyword e).keyword
    let (a, s2) ← formula e n s1
    let (ks, as, s3) ← keywordArgs e n s2
    return (.send s.sup (k ++ ks) r (a :: as), s3)

/-- `while self._sym == Symbol.Keyword: …` in `_keyword_message`. -/
def keywordArgs (e : Engine) : Nat → PSt → Except Fail (Name × List Tree × PSt)
  | 0, _ => .error .fuel
  | n + 1, s =>
    if s.sym = .keyword then do
      let (k, s) ← s.keyword
      let (a, s) ← formula e n s
      let (ks, as, s) ← keywordArgs e n s
      return (k ++ ks, a :: as, s)
    else .ok ([], [], s)

/-- `_formula` (`bc/parser.py:325-337`, `ast/parser.py:454-463`).  The `if` before the loop in the bytecode parser does the same as a round of
the loop. -/
def formula (e : Engine) : Nat → PSt → Except Fail (Tree × PSt)
  | 0, _ => .error .fuel
  | n + 1, s => do
    let (a, s) ← binaryOperand e n s
    let (a, s) ← binaryLoop e n a s
    return (a, { s with sup := false })

/-- `_block_body` with `_result` (`bc/parser.py:60-116`, `ast/parser.py:52-96`): the statements, and whether the last is `^ …`.  `^ self` is
not treated specially here (91-105), the tree is the same.  The AST parser goes on without a period, the other one stops. -/
def body (e : Engine) : Nat → PSt → Except Fail (List Tree × Bool × PSt)
  | 0, _ => .error .fuel
  | n + 1, s =>
    if s.sym = .exit then do
      let (v, s) ← expression e n s.advance
      return ([v], true, if s.sym = .period then s.advance else s)
    else if s.sym = .endBlock ∨ s.sym = .endTerm then .ok ([], false, s)
    else do
      let (t, s) ← expression e n s
      if s.sym = .period then
        let (ts, ex, s) ← body e n s.advance
        return (t :: ts, ex, s)
      else match e with
        | .bc => return ([t], false, s)
        | .ast =>
          let (ts, ex, s) ← body e n s
          return (t :: ts, ex, s)
end

/-- A method: selector, parameters, and a body unless it is a primitive. -/
structure Method where
  sel : Name
  params : List Name
  impl : Option (List Name × List Tree × Bool)

/-- The loop of `_keyword_pattern` (203-213). -/
def keywordPattern : Nat → PSt → Except Fail (Name × List Name × PSt)
  | 0, _ => .error .fuel
  | n + 1, s =>
    if s.sym = .keyword then do
      let (k, s) ← s.keyword
      let (x, s) ← s.identifier
      let (ks, xs, s) ← keywordPattern n s
      return (k ++ ks, x :: xs, s)
    else .ok ([], [], s)

/-- `_pattern` (187-213). -/
def pattern (n : Nat) (s : PSt) : Except Fail (Name × List Name × PSt) :=
  if s.isIdent then do
    let (x, s) ← s.identifier
    return (x, [], s)
  else if s.sym = .keyword then keywordPattern n s
  else do
    let (x, s) ← s.binarySelector
    let (a, s) ← s.identifier
    return (x, [a], s)

/-- `method` (361-367) with `_method_block` (`bc/parser.py:45-58`, `ast/parser.py:46-50`). -/
def method (e : Engine) (n : Nat) (s : PSt) : Except Fail (Method × PSt) := do
  let (x, ps, s) ← pattern n s
  let s ← s.expect .equal
  if s.sym = .primitive then return (⟨x, ps, none⟩, ← s.expect .primitive)
  else
    let s ← s.expect .newTerm
    let (ls, s) ← localsDecl n s
    let (ts, ex, s) ← body e n s
    return (⟨x, ps, some (ls, ts, ex)⟩, ← s.expect .endTerm)

end PySOM.Parse

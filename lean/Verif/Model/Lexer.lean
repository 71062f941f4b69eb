import Verif.Model.Base
/-!
# Model of the scanner, `src/som/compiler/lexer.py`

The state keeps what is left of the current line (`self._buf[self._bufp:]`) and what the file has not delivered yet; the
scanner never looks back.  Positions for error messages (`line_number`, `_chars_read`) and `_symc` (always the first
character of `text`, or NUL) are left out.  `while` loops that can cross lines get fuel; `none` means not finished.
-/
set_option autoImplicit false
namespace PySOM.Lex
open PySOM

/-- Python's character classes; they depend on the runtime (bytes or Unicode), so they are parameters. -/
structure Classes where
  isSpace : Char → Bool
  isDigit : Char → Bool
  isAlpha : Char → Bool
  isAlnum : Char → Bool

/-- `compiler/symbol.py:2-35`. -/
inductive Sym where
  | none | integer | double | not | and | or | star | div | mod | plus | minus | equal | more | less | comma | at | per
  | newBlock | endBlock | colon | period | exit | assign | newTerm | endTerm | pound | primitive | separator | stString
  | identifier | keyword | keywordSequence | operatorSequence
  deriving DecidableEq, Repr

/-- A token: `_sym` and `text`. -/
structure Tok where
  sym : Sym
  text : List Char
  deriving DecidableEq, Repr

/-- `cur` is `_buf[_bufp:]`, `rest` is what `_infile` still has. -/
structure St where
  cur : List Char
  rest : List Char
  deriving DecidableEq, Repr

/-- `Lexer.__init__` (9-21): an empty buffer. -/
def St.init (text : List Char) : St := ⟨[], text⟩

/-- `readline`: up to and including the next newline. -/
def line : List Char → List Char
  | [] => []
  | c :: cs => if c = '\n' then ['\n'] else c :: line cs
def afterLine : List Char → List Char
  | [] => []
  | c :: cs => if c = '\n' then cs else afterLine cs

/-- `_bufchar(_bufp + k)` (331-332). -/
def St.char (s : St) (k : Nat) : Char := s.cur.getD k '\x00'
/-- `_current_char` (300-301). -/
def St.now (s : St) : Char := s.char 0
/-- `_bufp += k`. -/
def St.advance (s : St) (k : Nat) : St := { s with cur := s.cur.drop k }

/-- `while self._end_of_buffer(): if self._fill_buffer() == -1: …` (264-280, and the loops at 117-119, 285-287, 293-295): the
second component is true at the end of the file.  `readline` never answers an empty line before the end of the file, so
the loop body runs at most once. -/
def fillIfEnd (s : St) : St × Bool :=
  if s.cur = [] then
    (if s.rest = [] then (s, true) else (⟨line s.rest, afterLine s.rest⟩, false))
  else (s, false)

/-- `_skip_white_space` (282-287). -/
def skipWhiteSpace (C : Classes) : Nat → St → Option St
  | 0, _ => none
  | n + 1, s =>
    if C.isSpace s.now then
      let r := fillIfEnd (s.advance 1)
      if r.2 then some r.1 else skipWhiteSpace C n r.1
    else some s

/-- The loop of `_skip_comment` (291-298). -/
def skipCommentLoop : Nat → St → Option St
  | 0, _ => none
  | n + 1, s =>
    let r := fillIfEnd (s.advance 1)
    if r.2 then some r.1
    else if r.1.now = '"' then some (r.1.advance 1)
    else skipCommentLoop n r.1

/-- `_skip_comment` (289-298). -/
def skipComment (fuel : Nat) (s : St) : Option St := if s.now = '"' then skipCommentLoop fuel s else some s

/-- `_is_operator` (307-323). -/
def isOperator (c : Char) : Bool :=
  c == '~' || c == '&' || c == '|' || c == '*' || c == '/' || c == '\\' || c == '+' || c == '=' || c == '>' || c == '<' ||
  c == ',' || c == '@' || c == '%' || c == '-'

/-- `while p(self._current_char()): self.text += …; self._bufp += 1` within a line: the characters read. -/
def spanLoop (p : Char → Bool) : List Char → List Char × List Char
  | [] => ([], [])
  | c :: cs => if p c then let r := spanLoop p cs; (c :: r.1, r.2) else ([], c :: cs)

/-- The loop of `_lex_number` (35-47); `saw` is `saw_decimal_mark`. -/
def numberLoop (C : Classes) : Bool → List Char → Bool × List Char × List Char
  | saw, [] => (saw, [], [])
  | saw, c :: cs =>
    if C.isDigit c then
      match saw, cs with
      | false, '.' :: d :: ds =>
        if C.isDigit d then let r := numberLoop C true (d :: ds); (r.1, c :: '.' :: r.2.1, r.2.2)
        else let r := numberLoop C false ('.' :: d :: ds); (r.1, c :: r.2.1, r.2.2)
      | saw, cs => let r := numberLoop C saw cs; (r.1, c :: r.2.1, r.2.2)
    else (saw, [], c :: cs)

/-- The single-character operators of `_lex_operator` (57-84). -/
def operatorSym (c : Char) : Sym :=
  if c = '~' then .not else if c = '&' then .and else if c = '|' then .or else if c = '*' then .star
  else if c = '/' then .div else if c = '\\' then .mod else if c = '+' then .plus else if c = '=' then .equal
  else if c = '>' then .more else if c = '<' then .less else if c = ',' then .comma else if c = '@' then .at
  else if c = '%' then .per else .minus

/-- `_lex_operator` (49-84) on a current character that is an operator. -/
def lexOperator (s : St) : Tok × St :=
  if isOperator (s.char 1) then
    let r := spanLoop isOperator s.cur
    (⟨.operatorSequence, r.1⟩, { s with cur := r.2 })
  else (⟨operatorSym s.now, [s.now]⟩, s.advance 1)

/-- What an escape adds to the text (90-105): nothing for an unknown one. -/
def escape (c : Char) : List Char :=
  if c = 't' then ['\t'] else if c = 'b' then ['\x08'] else if c = 'n' then ['\n'] else if c = 'r' then ['\r']
  else if c = 'f' then ['\x0c'] else if c = '0' then ['\x00'] else if c = '\'' then ['\''] else if c = '\\' then ['\\'] else []

/-- `_lex_string_char` with `_lex_escape_char` (86-119): the text added and the state. -/
def lexStringChar (s : St) : Except Err (List Char × St) :=
  if s.now = '\\' then
    let s := s.advance 1
    if s.cur = [] then .error .other
    else .ok (escape s.now, (fillIfEnd (s.advance 1)).1)
  else .ok ([s.now], (fillIfEnd (s.advance 1)).1)

/-- The loop of `_lex_string` (127-130) and the final `_bufp += 1`. -/
def lexStringLoop : Nat → St → List Char → Option (Except Err (Tok × St))
  | 0, _, _ => none
  | n + 1, s, text =>
    if s.now = '\'' then some (.ok (⟨.stString, text⟩, s.advance 1))
    else match lexStringChar s with
      | .error e => some (.error e)
      | .ok (t, s) => lexStringLoop n s (text ++ t)

/-- `"primitive"`. -/
def primitiveWord : List Char := ['p', 'r', 'i', 'm', 'i', 't', 'i', 'v', 'e']

/-- `_next_word_in_buffer_is` (227-231). -/
def nextWordIs (C : Classes) (w : List Char) (s : St) : Bool := w.isPrefixOf s.cur && !C.isAlnum (s.char w.length)

/-- Identifiers, keywords, keyword sequences (202-217). -/
def lexWord (C : Classes) (s : St) : Tok × St :=
  let r := spanLoop (fun c => C.isAlnum c || c == '_') s.cur
  match r.2 with
  | ':' :: cs =>
    if C.isAlpha (cs.getD 0 '\x00') then
      let q := spanLoop (fun c => C.isAlpha c || c == ':') cs
      (⟨.keywordSequence, r.1 ++ ':' :: q.1⟩, { s with cur := q.2 })
    else (⟨.keyword, r.1 ++ [':']⟩, { s with cur := cs })
  | cs => (⟨.identifier, r.1⟩, { s with cur := cs })

def ok {α : Type} (x : α) : Option (Except Err α) := some (.ok x)

/-- The dispatch on the current character in `get_sym` (156-225). -/
def lexToken (C : Classes) (fuel : Nat) (s : St) : Option (Except Err (Tok × St)) :=
  let c := s.now
  let «match» (sym : Sym) := ok (⟨sym, [c]⟩, s.advance 1)
  if c = '\'' then lexStringLoop fuel (s.advance 1) []
  else if c = '[' then «match» .newBlock
  else if c = ']' then «match» .endBlock
  else if c = ':' then
    if s.char 1 = '=' then ok (⟨.assign, [':', '=']⟩, s.advance 2) else ok (⟨.colon, [':']⟩, s.advance 1)
  else if c = '(' then «match» .newTerm
  else if c = ')' then «match» .endTerm
  else if c = '#' then «match» .pound
  else if c = '^' then «match» .exit
  else if c = '.' then «match» .period
  else if c = '-' then
    if ['-', '-', '-', '-'].isPrefixOf s.cur then
      let r := spanLoop (· == '-') s.cur
      ok (⟨.separator, r.1⟩, { s with cur := r.2 })
    else ok (lexOperator s)
  else if isOperator c then ok (lexOperator s)
  else if nextWordIs C primitiveWord s then ok (⟨.primitive, primitiveWord⟩, s.advance primitiveWord.length)
  else if C.isAlpha c then ok (lexWord C s)
  else if C.isDigit c then
    let r := numberLoop C false s.cur
    ok (⟨if r.1 then .double else .integer, r.2.1⟩, { s with cur := r.2.2 })
  else ok (⟨.none, [c]⟩, s)

/-- `get_sym` without a peeked token (140-225). -/
def getSym (C : Classes) : Nat → St → Option (Except Err (Tok × St))
  | 0, _ => none
  | n + 1, s =>
    let r := fillIfEnd s
    if r.2 then ok (⟨.none, ['\x00']⟩, r.1)
    else do
      let s ← skipWhiteSpace C (n + 1) r.1
      let s ← skipComment (n + 1) s
      if s.cur ≠ [] ∧ C.isSpace s.now = false ∧ s.now ≠ '"' then lexToken C (n + 1) s
      else getSym C n s

/-- Scanning a file: `get_sym` until it answers `NONE` (the parser's use of the scanner, without looking ahead). -/
def scanAll (C : Classes) : Nat → St → Option (Except Err (List Tok))
  | 0, _ => none
  | n + 1, s =>
    match getSym C (n + 1) s with
    | none => none
    | some (.error e) => some (.error e)
    | some (.ok (t, s)) =>
      if t.sym = .none then some (.ok [])
      else match scanAll C n s with
        | none => none
        | some (.error e) => some (.error e)
        | some (.ok ts) => some (.ok (t :: ts))

/-! ## Looking ahead -/

/-- The scanner as its client sees it: current token, an optional peeked token (`peek_done`, `_next_…`), and the state. -/
structure Client where
  now : Tok
  next : Option Tok
  st : St
  deriving DecidableEq, Repr

/-- `get_sym` (132-138); `raw` stands for the rest of `get_sym`, so that any scanner can be put here. -/
def Client.getSym (raw : St → Except Err (Tok × St)) (c : Client) : Except Err (Tok × Client) :=
  match c.next with
  | some t => .ok (t, { c with now := t, next := none })
  | none => (raw c.st).map fun r => (r.1, ⟨r.1, none, r.2⟩)

/-- `peek` (233-252). -/
def Client.peek (raw : St → Except Err (Tok × St)) (c : Client) : Except Err (Sym × Client) :=
  match c.next with
  | some _ => .error .value
  | none => (raw c.st).map fun r => (r.1.sym, ⟨c.now, some r.1, r.2⟩)

/-- A client's request. -/
inductive Req where
  | get
  | peek
  deriving DecidableEq, Repr

/-- What it gets. -/
inductive Ans where
  | tok (t : Tok)
  | sym (s : Sym)
  deriving DecidableEq, Repr

/-- A sequence of requests. -/
def Client.run (raw : St → Except Err (Tok × St)) (c : Client) : List Req → Except Err (List Ans)
  | [] => .ok []
  | .get :: rs => do
    let (t, c) ← c.getSym raw
    return .tok t :: (← c.run raw rs)
  | .peek :: rs => do
    let (k, c) ← c.peek raw
    return .sym k :: (← c.run raw rs)

end PySOM.Lex

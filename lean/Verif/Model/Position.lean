import Verif.Model.Lexer
/-!
# Model of the scanner with its buffer and its positions, and of the messages of syntax errors

`Model/Lexer` keeps only what is left of the current line.  Here the scanner of `src/som/compiler/lexer.py` is modelled with the
state it has: the current line `_buf`, the index `_bufp` into it, `line_number` and `_chars_read`; from these come the positions
in messages (`get_source_coordinate`, 23-26; `get_raw_buffer`, 254-255).  The second part models
`src/som/compiler/parse_error.py`, with the `%` operator of Python on a mapping.

`while` loops that can cross lines get fuel as in `Model/Lexer`; loops within a line are given by what they read.
-/
set_option autoImplicit false
namespace PySOM.Pos
open PySOM PySOM.Lex

/-- The attributes of `Lexer` (9-21), without the tokens; `rest` is what `_infile` has not delivered yet. -/
structure Scan where
  buf : List Char
  bufp : Nat
  rest : List Char
  line : Nat
  read : Nat
  deriving DecidableEq, Repr

/-- `Lexer.__init__` (9-21). -/
def Scan.init (text : List Char) : Scan := ⟨[], 0, text, 0, 0⟩

/-- `_bufchar(_bufp + k)` (331-332). -/
def Scan.char (s : Scan) (k : Nat) : Char := s.buf.getD (s.bufp + k) '\x00'
/-- `_current_char` (300-301). -/
def Scan.now (s : Scan) : Char := s.char 0
/-- `_bufp += k`. -/
def Scan.advance (s : Scan) (k : Nat) : Scan := { s with bufp := s.bufp + k }
/-- `_end_of_buffer` (303-304). -/
def Scan.atEnd (s : Scan) : Bool := decide (s.bufp ≥ s.buf.length)
/-- `self._buf[self._bufp:]`. -/
def Scan.cur (s : Scan) : List Char := s.buf.drop s.bufp

/-- `_fill_buffer` (264-274): at the end of the file neither `line_number` nor `_bufp` changes; the second component is true
then (`-1`). -/
def Scan.fill (s : Scan) : Scan × Bool :=
  let read := s.read + s.buf.length
  let buf := Lex.line s.rest
  if buf = [] then ({ s with buf := buf, read := read }, true)
  else (⟨buf, 0, afterLine s.rest, s.line + 1, read⟩, false)

/-- `while self._end_of_buffer(): if self._fill_buffer() == -1: …` (the loops at 117-119, 277-279, 285-287, 293-295); a line that was
read is not empty, so the body runs at most once. -/
def Scan.fillIfEnd (s : Scan) : Scan × Bool := if s.atEnd then s.fill else (s, false)

/-- `_skip_white_space` (282-287). -/
def skipWhiteSpace (C : Classes) : Nat → Scan → Option Scan
  | 0, _ => none
  | n + 1, s =>
    if C.isSpace s.now then
      let r := (s.advance 1).fillIfEnd
      if r.2 then some r.1 else skipWhiteSpace C n r.1
    else some s

/-- The loop of `_skip_comment` (291-298). -/
def skipCommentLoop : Nat → Scan → Option Scan
  | 0, _ => none
  | n + 1, s =>
    let r := (s.advance 1).fillIfEnd
    if r.2 then some r.1
    else if r.1.now = '"' then some (r.1.advance 1)
    else skipCommentLoop n r.1

/-- `_skip_comment` (289-298). -/
def skipComment (fuel : Nat) (s : Scan) : Option Scan := if s.now = '"' then skipCommentLoop fuel s else some s

/-- `while p(self._current_char()): self.text += …; self._bufp += 1`. -/
def span (p : Char → Bool) (s : Scan) : List Char × Scan :=
  let r := spanLoop p s.cur
  (r.1, s.advance r.1.length)

/-- `_lex_operator` (49-84). -/
def lexOperator (s : Scan) : Tok × Scan :=
  if isOperator (s.char 1) then
    let r := span isOperator s
    (⟨.operatorSequence, r.1⟩, r.2)
  else (⟨operatorSym s.now, [s.now]⟩, s.advance 1)

/-- `_lex_string_char` with `_lex_escape_char` (86-119). -/
def lexStringChar (s : Scan) : Except Err (List Char × Scan) :=
  if s.now = '\\' then
    let s := s.advance 1
    if s.atEnd then .error .other
    else .ok (escape s.now, (s.advance 1).fillIfEnd.1)
  else .ok ([s.now], (s.advance 1).fillIfEnd.1)

/-- The loop of `_lex_string` and the final `_bufp += 1` (127-130). -/
def lexStringLoop : Nat → Scan → List Char → Option (Except Err (Tok × Scan))
  | 0, _, _ => none
  | n + 1, s, text =>
    if s.now = '\'' then some (.ok (⟨.stString, text⟩, s.advance 1))
    else match lexStringChar s with
      | .error e => some (.error e)
      | .ok (t, s) => lexStringLoop n s (text ++ t)

/-- `_next_word_in_buffer_is` (227-231). -/
def nextWordIs (C : Classes) (w : List Char) (s : Scan) : Bool := w.isPrefixOf s.cur && !C.isAlnum (s.char w.length)

/-- Identifiers, keywords, keyword sequences (202-217). -/
def lexWord (C : Classes) (s : Scan) : Tok × Scan :=
  let r := span (fun c => C.isAlnum c || c == '_') s
  if r.2.now = ':' then
    let s := r.2.advance 1
    if C.isAlpha s.now then
      let q := span (fun c => C.isAlpha c || c == ':') s
      (⟨.keywordSequence, r.1 ++ ':' :: q.1⟩, q.2)
    else (⟨.keyword, r.1 ++ [':']⟩, s)
  else (⟨.identifier, r.1⟩, r.2)

/-- `_lex_number` (28-47). -/
def lexNumber (C : Classes) (s : Scan) : Tok × Scan :=
  let r := numberLoop C false s.cur
  (⟨if r.1 then .double else .integer, r.2.1⟩, s.advance r.2.1.length)

/-- The dispatch on the current character in `get_sym` (156-225). -/
def lexToken (C : Classes) (fuel : Nat) (s : Scan) : Option (Except Err (Tok × Scan)) :=
  let c := s.now
  let «match» (sym : Sym) := ok (⟨sym, [c]⟩, s.advance 1)
  if c = '\'' then lexStringLoop fuel (s.advance 1) []
  else if c = '[' then «match» .newBlock
  else if c = ']' then «match» .endBlock
  else if c = ':' then
    if s.char 1 = '=' then ok (⟨.assign, [':', '=']⟩, s.advance 2) else ok (⟨.colon, [':']⟩, s.advance 1)
  else if c = '(' then «match» .newTerm
  else if c = ')' then «match» .endTerm
  else if c = '#' then «match» .pound
  else if c = '^' then «match» .exit
  else if c = '.' then «match» .period
  else if c = '-' then
    if ['-', '-', '-', '-'].isPrefixOf s.cur then
      let r := span (· == '-') s
      ok (⟨.separator, r.1⟩, r.2)
    else ok (lexOperator s)
  else if isOperator c then ok (lexOperator s)
  else if nextWordIs C primitiveWord s then ok (⟨.primitive, primitiveWord⟩, s.advance primitiveWord.length)
  else if C.isAlpha c then ok (lexWord C s)
  else if C.isDigit c then ok (lexNumber C s)
  else ok (⟨.none, [c]⟩, s)

/-- `get_sym` without a peeked token (140-225). -/
def getSym (C : Classes) : Nat → Scan → Option (Except Err (Tok × Scan))
  | 0, _ => none
  | n + 1, s =>
    let r := s.fillIfEnd
    if r.2 then ok (⟨.none, ['\x00']⟩, r.1)
    else do
      let s ← skipWhiteSpace C (n + 1) r.1
      let s ← skipComment (n + 1) s
      if s.atEnd = false ∧ C.isSpace s.now = false ∧ s.now ≠ '"' then lexToken C (n + 1) s
      else getSym C n s

/-! ## The client of the scanner -/

/-- What the parser keeps of the scanner: `_sym` with `text`, the token looked ahead at, and the scanner's state. -/
structure Client where
  now : Tok
  next : Option Tok
  st : Scan
  deriving DecidableEq, Repr

/-- Before `ParserBase.__init__` asks for the first token (`parser.py:57-68`). -/
def Client.init (text : List Char) : Client := ⟨⟨.none, []⟩, none, .init text⟩

/-- `get_sym` (`lexer.py:132-138` and the rest), as the parser calls it (`_get_symbol_from_lexer`, `parser.py:387-389`). -/
def Client.get (C : Classes) (fuel : Nat) (c : Client) : Option (Except Err Client) :=
  match c.next with
  | some t => some (.ok ⟨t, none, c.st⟩)
  | none => match getSym C fuel c.st with
    | none => none
    | some (.error e) => some (.error e)
    | some (.ok (t, s)) => some (.ok ⟨t, none, s⟩)

/-- `peek` (`lexer.py:233-252`). -/
def Client.peek (C : Classes) (fuel : Nat) (c : Client) : Option (Except Err Client) :=
  match c.next with
  | some _ => some (.error .value)
  | none => match getSym C fuel c.st with
    | none => none
    | some (.error e) => some (.error e)
    | some (.ok (t, s)) => some (.ok ⟨c.now, some t, s⟩)

/-- What the parser asks for, one after the other. -/
def Client.run (C : Classes) (fuel : Nat) (c : Client) : List Req → Option (Except Err Client)
  | [] => some (.ok c)
  | r :: rs =>
    match (match r with | .get => c.get C fuel | .peek => c.peek C fuel) with
    | none => none
    | some (.error e) => some (.error e)
    | some (.ok c) => c.run C fuel rs

/-- `SourceCoordinate` (`rtruffle/source_section.py:1-7`). -/
structure Coord where
  line : Nat
  column : Nat
  index : Nat
  deriving DecidableEq, Repr

/-- `get_source_coordinate` (`lexer.py:23-26`). -/
def Scan.coord (s : Scan) : Coord := ⟨s.line, s.bufp + 1, s.read + s.bufp⟩

/-! ## Messages -/

/-- Values of the mapping that `__str__` gives to `%`. -/
inductive Value where
  | str (s : List Char)
  | int (n : Nat)
  deriving DecidableEq, Repr

/-- How Python converts a value by a conversion with flags, width and precision `mods`: `'%' + mods + conv`.  `whole` is the text of the
whole mapping, which a conversion without a key shows; `none` is an exception (a conversion for numbers on a text). -/
structure Printf where
  conv : (mods : List Char) → (c : Char) → Value → Option (List Char)
  whole : (mods : List Char) → (c : Char) → Option (List Char)
  str : ∀ s, conv [] 's' (.str s) = some s
  int : ∀ n, conv [] 'd' (.int n) = some (toString n).toList
  whole_number : ∀ mods c, c ∈ ['d', 'i', 'u', 'o', 'x', 'X', 'e', 'E', 'f', 'F', 'g', 'G', 'c'] → whole mods c = none

/-- Flags of a directive. -/
def isFlag (c : Char) : Bool := ['-', '+', ' ', '#', '0'].contains c
/-- Digits of width and precision. -/
def isNum (c : Char) : Bool := ['0', '1', '2', '3', '4', '5', '6', '7', '8', '9'].contains c
/-- The precision of a directive, and what follows. -/
def precision : List Char → List Char × List Char
  | [] => ([], [])
  | c :: cs => if c = '.' then let r := spanLoop isNum cs; ('.' :: r.1, r.2) else ([], c :: cs)
/-- The length modifier, and what follows. -/
def lengthModifier : List Char → List Char × List Char
  | [] => ([], [])
  | c :: cs => if ['h', 'l', 'L'].contains c then ([c], cs) else ([], c :: cs)

/-- Flags, width, precision and length modifier of a directive, and what follows. -/
def modifiers (cs : List Char) : List Char × List Char :=
  let flags := spanLoop isFlag cs
  let width := spanLoop isNum flags.2
  let prec := precision width.2
  let len := lengthModifier prec.2
  (flags.1 ++ width.1 ++ prec.1 ++ len.1, len.2)

/-- The conversions of Python's `%`; any other character is a `ValueError`. -/
def conversions : List Char := ['s', 'r', 'a', 'd', 'i', 'u', 'o', 'x', 'X', 'e', 'E', 'f', 'F', 'g', 'G', 'c']

/-- The rest of a directive after `%` and the key, if there is one (`v` is its value).  Answers the text and what follows the directive;
`none` is an exception.  (`*` as width or precision needs a tuple of arguments; with a mapping it is an exception, as any other unknown
character.) -/
def directive (P : Printf) (v : Option Value) (cs : List Char) : Option (List Char × List Char) :=
  let m := modifiers cs
  match m.2 with
  | [] => none
  | c :: cs =>
    if c = '%' then some (['%'], cs)
    else if conversions.contains c then
      (match v with
       | some v => P.conv m.1 c v
       | none => P.whole m.1 c).map fun t => (t, cs)
    else none

/-- The key of a directive: up to the closing parenthesis.  (Python counts nested parentheses; keys with an opening parenthesis are in
no mapping, so they are an error either way.) -/
def key : List Char → Option (List Char × List Char)
  | [] => none
  | c :: cs => if c = ')' then some ([], cs) else (key cs).map fun r => (c :: r.1, r.2)

/-- `format % mapping`; `none` is an exception. -/
def format (P : Printf) (m : List (List Char × Value)) : Nat → List Char → Option (List Char)
  | 0, _ => none
  | _ + 1, [] => some []
  | n + 1, c :: cs =>
    if c = '%' then
      match cs with
      | '(' :: cs => do
        let (k, cs) ← key cs
        let v ← m.lookup k
        let (t, cs) ← directive P (some v) cs
        let r ← format P m n cs
        return t ++ r
      | cs => do
        let (t, cs) ← directive P none cs
        let r ← format P m n cs
        return t ++ r
    else (format P m n cs).map (c :: ·)

/-- The order of `compiler/symbol.py:2-35`: `NONE` is -1, so this is the value plus one. -/
def symIndex : Sym → Nat
  | .none => 0 | .integer => 1 | .double => 2 | .not => 3 | .and => 4 | .or => 5 | .star => 6 | .div => 7 | .mod => 8
  | .plus => 9 | .minus => 10 | .equal => 11 | .more => 12 | .less => 13 | .comma => 14 | .at => 15 | .per => 16
  | .newBlock => 17 | .endBlock => 18 | .colon => 19 | .period => 20 | .exit => 21 | .assign => 22 | .newTerm => 23
  | .endTerm => 24 | .pound => 25 | .primitive => 26 | .separator => 27 | .stString => 28 | .identifier => 29
  | .keyword => 30 | .keywordSequence => 31 | .operatorSequence => 32

/-- `_symbols` (`symbol.py:38-55`): the names in the order of their values. -/
def symbols : List String :=
  ["NONE", "Integer", "Double", "Not", "And", "Or", "Star", "Div", "Mod", "Plus", "Minus", "Equal", "More", "Less", "Comma",
   "At", "Per", "NewBlock", "EndBlock", "Colon", "Period", "Exit", "Assign", "NewTerm", "EndTerm", "Pound", "Primitive",
   "Separator", "STString", "Identifier", "Keyword", "KeywordSequence", "OperatorSequence"]

/-- `symbol_as_str` (`symbol.py:58-62`). -/
def symbolAsStr (k : Sym) : List Char := (symbols.getD (symIndex k) "").toList

/-- `_is_printable_symbol` (`parse_error.py:14-19`). -/
def printable (k : Sym) : Bool := k == .integer || k == .double || symIndex k ≥ symIndex .stString

/-- `", ".join(…)`. -/
def joinComma : List (List Char) → List Char
  | [] => []
  | [x] => x
  | x :: xs => x ++ [',', ' '] ++ joinComma xs

/-- `ParseError.__init__` (5-12) with its arguments: `message` is already the text that the raising function gives (it may contain
directives); `expected` are the symbols for `%(expected)s` (one in `ParseError`, a list in `ParseErrorSymList`, 43-49). -/
structure PError where
  message : List Char
  expected : List Sym
  client : Client
  file : List Char

/-- `found` of `__str__` (26-29). -/
def PError.found (e : PError) : List Char :=
  if printable e.client.now.sym then symbolAsStr e.client.now.sym ++ " (".toList ++ e.client.now.text ++ ")".toList
  else symbolAsStr e.client.now.sym

/-- The format that `__str__` builds (25, 30). -/
def PError.template (e : PError) : List Char :=
  "%(file)s:%(line)d:%(column)d: error: ".toList ++ e.message ++ ": ".toList ++ e.client.st.buf

/-- The mapping of `__str__` (34-40). -/
def PError.mapping (e : PError) : List (List Char × Value) :=
  [("file".toList, .str e.file), ("line".toList, .int e.client.st.coord.line), ("column".toList, .int e.client.st.coord.column),
   ("expected".toList, .str (joinComma (e.expected.map symbolAsStr))), ("found".toList, .str e.found)]

/-- `ParseError.__str__` (24-40). -/
def PError.show (P : Printf) (e : PError) : Option (List Char) := format P e.mapping (e.template.length + 1) e.template

end PySOM.Pos

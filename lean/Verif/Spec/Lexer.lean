import Verif.Model.Lexer
/-!
# Specification of scanning on a flat text

No lines, no buffer, no loops over lines: the next token of a text by `takeWhile`/`dropWhile`.
-/
set_option autoImplicit false
namespace PySOM.Lex.Spec
open PySOM.Lex

/-- Facts about the character classes that hold for ASCII and for Unicode. -/
structure Good (C : Classes) : Prop where
  space_newline : C.isSpace '\n' = true
  alpha_alnum : ∀ c, C.isAlpha c = true → C.isAlnum c = true
  digit_alnum : ∀ c, C.isDigit c = true → C.isAlnum c = true
  alnum_not_space : ∀ c, C.isAlnum c = true → C.isSpace c = false
  /-- NUL and the punctuation that the scanner knows are neither letters nor digits nor white space -/
  punct : ∀ c, c = '\x00' ∨ c = '"' ∨ c = '\'' ∨ c = '[' ∨ c = ']' ∨ c = ':' ∨ c = '(' ∨ c = ')' ∨ c = '#' ∨ c = '^' ∨ c = '.' ∨
    isOperator c = true ∨ c = '_' → C.isAlnum c = false ∧ C.isSpace c = false
  alpha_p : C.isAlpha 'p' = true

/-- Remove leading white space and comments; `inComment` says whether we are inside a comment. -/
def skip (C : Classes) (inComment : Bool) : List Char → List Char
  | [] => []
  | c :: cs =>
    if inComment then skip C (c != '"') cs
    else if C.isSpace c then skip C false cs
    else if c = '"' then skip C true cs
    else c :: cs

/-- The value and the rest of a string literal after its opening quote. -/
inductive Str where
  | unterminated
  | badEscape
  | done (value rest : List Char)
  deriving DecidableEq, Repr

def Str.push (v : List Char) : Str → Str
  | .done w r => .done (v ++ w) r
  | x => x

/-- Characters denoted by an escape sequence; unknown escapes denote nothing. -/
def escaped : Char → List Char
  | 't' => ['\t'] | 'b' => ['\x08'] | 'n' => ['\n'] | 'r' => ['\r'] | 'f' => ['\x0c'] | '0' => ['\x00'] | '\'' => ['\''] | '\\' => ['\\']
  | _ => []

def str : List Char → Str
  | [] => .unterminated
  | c :: cs =>
    if c = '\'' then .done [] cs
    else if c = '\\' then
      match cs with
      | [] => .badEscape
      | e :: cs => (str cs).push (escaped e)
    else (str cs).push [c]

/-- The next token of a text. -/
inductive Next where
  /-- scanning does not end -/
  | diverges
  /-- scanning raises an exception -/
  | raises
  | tok (t : Tok) (rest : List Char)
  deriving DecidableEq, Repr

/-- Single-character operators. -/
def operators : List (Char × Sym) :=
  [('~', .not), ('&', .and), ('|', .or), ('*', .star), ('/', .div), ('\\', .mod), ('+', .plus), ('=', .equal),
   ('>', .more), ('<', .less), (',', .comma), ('@', .at), ('%', .per), ('-', .minus)]

/-- A run of operator characters: one alone is a named operator. -/
def opToken : List Char → Tok
  | [c] => ⟨(operators.lookup c).getD .none, [c]⟩
  | w => ⟨.operatorSequence, w⟩

def op (text : List Char) : Next :=
  let w := text.takeWhile isOperator
  .tok (opToken w) (text.drop w.length)

/-- Identifier, `keyword:` or `key:word:sequence:`. -/
def word (C : Classes) (text : List Char) : Next :=
  let w := text.takeWhile fun c => C.isAlnum c || c == '_'
  match text.drop w.length with
  | ':' :: c :: r =>
    if C.isAlpha c then
      let v := (c :: r).takeWhile fun c => C.isAlpha c || c == ':'
      .tok ⟨.keywordSequence, w ++ ':' :: v⟩ ((c :: r).drop v.length)
    else .tok ⟨.keyword, w ++ [':']⟩ (c :: r)
  | [':'] => .tok ⟨.keyword, w ++ [':']⟩ []
  | r => .tok ⟨.identifier, w⟩ r

/-- An integer, or a double if a decimal point and a digit follow. -/
def number (C : Classes) (text : List Char) : Next :=
  let w := text.takeWhile C.isDigit
  match text.drop w.length with
  | '.' :: d :: r =>
    if C.isDigit d then
      let f := (d :: r).takeWhile C.isDigit
      .tok ⟨.double, w ++ '.' :: f⟩ ((d :: r).drop f.length)
    else .tok ⟨.integer, w⟩ ('.' :: d :: r)
  | r => .tok ⟨.integer, w⟩ r

/-- The text starts with the word `primitive` that does not continue with a letter or digit. -/
def isPrimitive (C : Classes) (text : List Char) : Bool :=
  "primitive".toList.isPrefixOf text && !(match text.drop 9 with | c :: _ => C.isAlnum c | [] => false)

/-- Punctuation that is a token by itself. -/
def punctuation : Char → Option Sym
  | '[' => some .newBlock | ']' => some .endBlock | '(' => some .newTerm | ')' => some .endTerm | '#' => some .pound
  | '^' => some .exit | '.' => some .period | _ => none

/-- The token at the beginning of a text without leading blanks. -/
def token (C : Classes) : List Char → Next
  | [] => .tok ⟨.none, ['\x00']⟩ []
  | c :: r =>
    if c = '\'' then
      match str r with
      | .unterminated => .diverges
      | .badEscape => .raises
      | .done v r => .tok ⟨.stString, v⟩ r
    else if c = ':' then
      if r.head? = some '=' then .tok ⟨.assign, [':', '=']⟩ r.tail else .tok ⟨.colon, [':']⟩ r
    else match punctuation c with
      | some k => .tok ⟨k, [c]⟩ r
      | none =>
        if "----".toList.isPrefixOf (c :: r) then
          let w := (c :: r).takeWhile (· == '-')
          .tok ⟨.separator, w⟩ ((c :: r).drop w.length)
        else if isOperator c then op (c :: r)
        else if isPrimitive C (c :: r) then .tok ⟨.primitive, "primitive".toList⟩ ((c :: r).drop 9)
        else if C.isAlpha c then word C (c :: r)
        else if C.isDigit c then number C (c :: r)
        else .tok ⟨.none, [c]⟩ (c :: r)

def next (C : Classes) (text : List Char) : Next := token C (skip C false text)

/-! ## What a token has to do with the text -/

/-- Complete white space and comments. -/
inductive Blank (C : Classes) : List Char → Prop where
  | nil : Blank C []
  | space (c : Char) (cs : List Char) : C.isSpace c = true → Blank C cs → Blank C (c :: cs)
  | comment (body cs : List Char) : '"' ∉ body → Blank C cs → Blank C ('"' :: body ++ '"' :: cs)

/-- `value` is what the characters `body` between the quotes of a string literal denote. -/
inductive Denotes : List Char → List Char → Prop where
  | nil : Denotes [] []
  | plain (c : Char) (cs v : List Char) : c ≠ '\\' → c ≠ '\'' → Denotes cs v → Denotes (c :: cs) (c :: v)
  | esc (c : Char) (cs v : List Char) : Denotes cs v → Denotes ('\\' :: c :: cs) (escaped c ++ v)

/-- `piece` is the source text of the token, `rest` what follows. -/
def Piece (t : Tok) (piece rest : List Char) : Prop :=
  match t.sym with
  | .stString => ∃ body, piece = '\'' :: body ++ ['\''] ∧ Denotes body t.text
  | .none => piece = [] ∧ ((rest = [] ∧ t.text = ['\x00']) ∨ ∃ c cs, rest = c :: cs ∧ t.text = [c])
  | _ => piece = t.text ∧ piece ≠ []

/-- The tokens of a text up to its end (or the first unknown character). -/
inductive Tokens (C : Classes) : List Char → List Tok → Prop where
  | stop (text : List Char) (t : Tok) (r : List Char) : next C text = .tok t r → t.sym = .none → Tokens C text []
  | step (text : List Char) (t : Tok) (r : List Char) (ts : List Tok) : next C text = .tok t r → t.sym ≠ .none → Tokens C r ts → Tokens C text (t :: ts)

/-- Positions that scanning reaches. -/
inductive Reaches (C : Classes) : List Char → List Char → Prop where
  | refl (text : List Char) : Reaches C text text
  | step (text : List Char) (t : Tok) (r r' : List Char) : next C text = .tok t r → t.sym ≠ .none → Reaches C r r' → Reaches C text r'

/-- Looking ahead as it should be: it changes nothing. -/
def requests (raw : St → Except Err (Tok × St)) (s : St) : List Req → Except Err (List Ans)
  | [] => .ok []
  | .get :: rs => do
    let (t, s) ← raw s
    return .tok t :: (← requests raw s rs)
  | .peek :: rs => do
    let (t, _) ← raw s
    return .sym t.sym :: (← requests raw s rs)

/-- No two peeks without a read between them. -/
def NoDoublePeek : List Req → Prop
  | .peek :: .peek :: _ => False
  | _ :: rs => NoDoublePeek rs
  | [] => True

/-- ASCII, as on RPython. -/
def ascii : Classes where
  isSpace c := c == ' ' || c == '\t' || c == '\n' || c == '\r' || c == '\x0b' || c == '\x0c'
  isDigit c := c.toNat ≥ 48 && c.toNat ≤ 57
  isAlpha c := (c.toNat ≥ 65 && c.toNat ≤ 90) || (c.toNat ≥ 97 && c.toNat ≤ 122)
  isAlnum c := (c.toNat ≥ 65 && c.toNat ≤ 90) || (c.toNat ≥ 97 && c.toNat ≤ 122) || (c.toNat ≥ 48 && c.toNat ≤ 57)

end PySOM.Lex.Spec

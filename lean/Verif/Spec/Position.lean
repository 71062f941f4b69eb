import Verif.Spec.Lexer
import Verif.Model.Position
/-!
# Specification of positions and messages

A position in a text is given by what stands before it.
-/
set_option autoImplicit false
namespace PySOM.Pos.Spec
open PySOM.Lex

/-- The number of the line after reading `pre`, counted from 1. -/
def lineOf (pre : List Char) : Nat := pre.count '\n' + 1
/-- What was read of this line. -/
def lastLine (pre : List Char) : List Char := (pre.reverse.takeWhile (· != '\n')).reverse
/-- The column of the next character, counted from 1. -/
def columnOf (pre : List Char) : Nat := (lastLine pre).length + 1
/-- The rest of the line, with the line break. -/
def firstLine : List Char → List Char
  | [] => []
  | c :: cs => if c = '\n' then ['\n'] else c :: firstLine cs
/-- The position after `pre`. -/
def position (pre : List Char) : Coord := ⟨lineOf pre, columnOf pre, pre.length⟩

/-- `t` is the `n`-th token of the text, and `r` is what follows it. -/
inductive Nth (C : Classes) (text : List Char) : Nat → Tok → List Char → Prop where
  | first (t : Tok) (r : List Char) : Lex.Spec.next C text = .tok t r → Nth C text 1 t r
  | next (n : Nat) (t t' : Tok) (r r' : List Char) : Nth C text n t r → Lex.Spec.next C r = .tok t' r' → Nth C text (n + 1) t' r'

/-- A message of the parser: plain text, the name of the symbol expected, the symbol found. -/
inductive Part where
  | text (s : List Char)
  | expected
  | found

/-- How it is written in the parser. -/
def Part.source : Part → List Char
  | .text s => s
  | .expected => "%(expected)s".toList
  | .found => "%(found)s".toList

/-- The name of a kind of symbol. -/
def name : Sym → String
  | .none => "NONE" | .integer => "Integer" | .double => "Double" | .not => "Not" | .and => "And" | .or => "Or" | .star => "Star"
  | .div => "Div" | .mod => "Mod" | .plus => "Plus" | .minus => "Minus" | .equal => "Equal" | .more => "More" | .less => "Less"
  | .comma => "Comma" | .at => "At" | .per => "Per" | .newBlock => "NewBlock" | .endBlock => "EndBlock" | .colon => "Colon"
  | .period => "Period" | .exit => "Exit" | .assign => "Assign" | .newTerm => "NewTerm" | .endTerm => "EndTerm"
  | .pound => "Pound" | .primitive => "Primitive" | .separator => "Separator" | .stString => "STString"
  | .identifier => "Identifier" | .keyword => "Keyword" | .keywordSequence => "KeywordSequence"
  | .operatorSequence => "OperatorSequence"

/-- The kinds of symbols of which the text is shown as well, since it is not known from the name. -/
def withText : List Sym := [.integer, .double, .stString, .identifier, .keyword, .keywordSequence, .operatorSequence]

/-- How a token is shown. -/
def token (t : Tok) : List Char :=
  if t.sym ∈ withText then (name t.sym).toList ++ [' ', '('] ++ t.text ++ [')'] else (name t.sym).toList

/-- What the user should see of it. -/
def Part.meant (e : PError) : Part → List Char
  | .text s => s
  | .expected => [',', ' '].intercalate (e.expected.map fun k => (name k).toList)
  | .found => token e.client.now

/-- No text has a percent sign. -/
def Part.clean : Part → Prop
  | .text s => '%' ∉ s
  | _ => True

/-- The message the user should see: file, line, column, message, and the line of the source. -/
def shown (e : PError) (ps : List Part) (c : Coord) (line : List Char) : List Char :=
  e.file ++ ":".toList ++ (toString c.line).toList ++ ":".toList ++ (toString c.column).toList ++ ": error: ".toList ++
    (ps.map (Part.meant e)).flatten ++ ": ".toList ++ line

end PySOM.Pos.Spec

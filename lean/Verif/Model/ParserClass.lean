import Verif.Model.Parser
/-!
# Model of parsing class definitions

`classdef` with `_superclass`, `_instance_fields`, `_class_fields` (`src/som/compiler/parser.py:80-187`), and the class that the shell makes of a line (`src/som/vm/shell.py:29-37`).  Loading the superclass is in
`Model/Universe.lean`; here only its name is kept.
-/
set_option autoImplicit false
namespace PySOM.Parse
open PySOM.Lex

/-- A class definition: its name, the name of its superclass if there is one, fields and methods, and those after the separator, if there is one. -/
structure ClassText where
  name : Name
  super : Option Name
  fields : List Name
  meths : List Method
  cls : Option (List Name × List Method)

/-- `_instance_fields` and `_class_fields` (175-187). -/
def fieldsDecl (n : Nat) (s : PSt) : Except Fail (List Name × PSt) :=
  if s.sym = .or then do
    let (xs, s) ← locals n s.advance
    return (xs, ← s.expect .or)
  else .ok ([], s)

/-- The condition of the loops over methods (90-95, 107-112). -/
def PSt.atMethod (s : PSt) : Bool := s.isIdent || s.sym == .keyword || s.isBinOp

/-- The loops over methods (90-101, 107-117).  The code generation for each method is in the other models. -/
def methods (e : Engine) : Nat → PSt → Except Fail (List Method × PSt)
  | 0, _ => .error .fuel
  | n + 1, s =>
    if s.atMethod then do
      let (m, s) ← method e n s
      let (ms, s) ← methods e n s
      return (m :: ms, s)
    else .ok ([], s)

/-- The name in `_superclass` (121-126): `none` where it is `Object` because there is no name. -/
def superclass (s : PSt) : Option Name × PSt := if s.sym = .identifier then (some s.text, s.advance) else (none, s)

/-- `classdef` (80-119). -/
def classdef (e : Engine) (n : Nat) (s : PSt) : Except Fail (ClassText × PSt) := do
  let name := s.text
  let s ← s.expect .identifier
  let s ← s.expect .equal
  let (super, s) := superclass s
  let s ← s.expect .newTerm
  let (fs, s) ← fieldsDecl n s
  let (ms, s) ← methods e n s
  if s.sym = .separator then
    let (cfs, s) ← fieldsDecl n s.advance
    let (cms, s) ← methods e n s
    return (⟨name, super, fs, ms, some (cfs, cms)⟩, ← s.expect .endTerm)
  else return (⟨name, super, fs, ms, none⟩, ← s.expect .endTerm)

/-! ## The shell -/

/-- What the shell puts around a line (`shell.py:30-36`), as tokens; `name` is `Shell_Class_` and the counter. -/
def shellBefore (name : Name) : List Tok :=
  [⟨.identifier, name⟩, ⟨.equal, ['=']⟩, ⟨.newTerm, ['(']⟩, ⟨.keyword, "run:".toList⟩, ⟨.identifier, "it".toList⟩, ⟨.equal, ['=']⟩, ⟨.newTerm, ['(']⟩, ⟨.or, ['|']⟩,
   ⟨.identifier, "tmp".toList⟩, ⟨.or, ['|']⟩, ⟨.identifier, "tmp".toList⟩, ⟨.assign, ":=".toList⟩, ⟨.newTerm, ['(']⟩]
def shellAfter : List Tok :=
  [⟨.endTerm, [')']⟩, ⟨.period, ['.']⟩, ⟨.stString, "it = ".toList⟩, ⟨.identifier, "print".toList⟩, ⟨.period, ['.']⟩, ⟨.exit, ['^']⟩, ⟨.identifier, "tmp".toList⟩,
   ⟨.identifier, "println".toList⟩, ⟨.endTerm, [')']⟩, ⟨.endTerm, [')']⟩]

/-- The text of the class (30-36). -/
def shellText (counter : Nat) (stmt : Name) : Name :=
  "Shell_Class_".toList ++ (Nat.repr counter).toList ++ " = ( run: it = ( | tmp | tmp := (".toList ++ stmt ++ " ). 'it = ' print. ^tmp println ) )".toList

/-- The line as it is parsed: the tokens of the statement between those of the class. -/
def shellClass (e : Engine) (n : Nat) (name : Name) (stmt : List Tok) : Except Fail (ClassText × PSt) :=
  classdef e n ⟨shellBefore name ++ (stmt ++ shellAfter), false⟩

end PySOM.Parse

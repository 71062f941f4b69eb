import Verif.Model.Base
/-!
# Model of the string primitives, string streams and path handling

`src/som/primitives/string_primitives.py`, `src/som/primitives/symbol_primitives.py`, `src/rlib/string_stream.py`,
`src/rlib/osext.py` and the class-path search of `src/som/vm/universe.py`.
-/
set_option autoImplicit false
namespace PySOM.Str

abbrev Str := List Char

/-- Objects as far as these primitives distinguish them: `Symbol` is a subclass of `String` (`symbol.py:4`); symbol
identity is string equality by C21, so a symbol is its string. -/
inductive Obj where
  | str (s : Str)
  | sym (s : Str)
  | int (i : Int)
  | other (id : Nat)
  deriving DecidableEq, Repr

/-- `get_embedded_string` (`AttributeError` if there is none). -/
def embeddedString : Obj → Except Err Str
  | .str s => .ok s
  | .sym s => .ok s
  | _ => .error .attribute

/-- `get_embedded_integer`. -/
def embeddedInteger : Obj → Except Err Int
  | .int i => .ok i
  | _ => .error .attribute

/-- `_concat` (`string_primitives.py:11-12`). -/
def concat (rcvr arg : Obj) : Except Err Obj := do
  let a ← embeddedString rcvr
  let b ← embeddedString arg
  return .str (a ++ b)

/-- `_as_symbol` (`string_primitives.py:15-16`). -/
def asSymbol (rcvr : Obj) : Except Err Obj := do return .sym (← embeddedString rcvr)

/-- `_as_string` (`symbol_primitives.py:7-8`). -/
def asString (rcvr : Obj) : Except Err Obj := do return .str (← embeddedString rcvr)

/-- `_length` (`string_primitives.py:19-20`). -/
def length (rcvr : Obj) : Except Err Obj := do return .int (← embeddedString rcvr).length

/-- `_equals` of strings (`string_primitives.py:23-29`): `isinstance(op2, String)` holds for symbols too. -/
def equals (op1 op2 : Obj) : Except Err Bool :=
  match op2 with
  | .str t => do return decide ((← embeddedString op1) = t)
  | .sym t => do return decide ((← embeddedString op1) = t)
  | _ => .ok false

/-- `_equals` of symbols (`symbol_primitives.py:11-18`). -/
def symbolEquals (op1 op2 : Obj) : Except Err Bool :=
  match op1, op2 with
  | .sym s, .sym t => if s = t then .ok true else .ok (decide (s = t))
  | op1, .str t => do return decide ((← embeddedString op1) = t)
  | op1, .sym t => do return decide ((← embeddedString op1) = t)
  | _, _ => .ok false

/-- The text answered for an index error (`string_primitives.py:38`, `47`). -/
def errText : Str := "Error - index out of bounds".toList

/-- A Python slice `string[s:e]` with non-negative bounds. -/
def slice (str : Str) (s e : Nat) : Str := (str.take e).drop s

/-- `_substring` (`string_primitives.py:32-39`). -/
def substring (rcvr start stop : Obj) : Except Err Obj := do
  let s := (← embeddedInteger start) - 1
  let e ← embeddedInteger stop
  let string ← embeddedString rcvr
  if s < 0 ∨ s ≥ string.length ∨ e > string.length ∨ e < s then return .str errText
  return .str (slice string s.toNat e.toNat)

/-- `_char_at` (`string_primitives.py:42-48`). -/
def charAt (rcvr idx : Obj) : Except Err Obj := do
  let i := (← embeddedInteger idx) - 1
  let string ← embeddedString rcvr
  if i < 0 ∨ i ≥ string.length then return .str errText
  match string[i.toNat]? with
  | some c => return .str [c]
  | none => .error .index

/-- The loops of `_is_whitespace`, `_is_letters`, `_is_digits` (`string_primitives.py:55-88`), parametrised by the Python
character test `isspace`/`isalpha`/`isdigit`. -/
def allChars (p : Char → Bool) : Str → Bool
  | [] => true
  | c :: cs => if p c then allChars p cs else false

/-- `_is_whitespace`/`_is_letters`/`_is_digits`. -/
def isKind (p : Char → Bool) (s : Str) : Bool := if allChars p s then (if s.length > 0 then true else false) else false

/-! ## String streams -/

/-- `StringStream` (`string_stream.py:38-42`). -/
structure Stream where
  string : Str
  pos : Nat
  deriving DecidableEq, Repr

/-- `read` (`string_stream.py:63-69`). -/
def Stream.read (st : Stream) (n : Int) : Except Err (Str × Stream) :=
  let e : Int := st.pos + n
  if e < 0 then .error .assertion
  else
    let data := slice st.string st.pos e.toNat
    .ok (data, { st with pos := st.pos + data.length })

/-- The search loop of `readline` (`string_stream.py:72-74`): the index of the first newline at or after `i`. -/
def findNewline (s : Str) (i : Nat) : Option Nat :=
  if _h : i < s.length then (if s[i] = '\n' then some i else findNewline s (i + 1)) else none
termination_by s.length - i

/-- `readline` (`string_stream.py:71-78`). -/
def Stream.readline (st : Stream) : Except Err (Str × Stream) :=
  match findNewline st.string st.pos with
  | some i => st.read ((i : Int) - st.pos + 1)
  | none =>
    if st.pos = 0 then .ok (st.string, { st with pos := st.string.length })
    else st.read ((st.string.length : Int) - st.pos)

/-- Client calls. -/
inductive StreamOp where
  | read (n : Nat)
  | readline
  deriving DecidableEq, Repr

def Stream.step (st : Stream) : StreamOp → Except Err (Str × Stream)
  | .read n => st.read n
  | .readline => st.readline

def Stream.run (st : Stream) : List StreamOp → Except Err (List Str × Stream)
  | [] => .ok ([], st)
  | op :: ops => do
    let (d, st') ← st.step op
    let (ds, st'') ← st'.run ops
    return (d :: ds, st'')

/-! ## Paths -/

/-- Python's `s.rsplit(sep, 1)` for a one-character separator: `none` if it does not occur, else the parts before and after
its last occurrence. -/
def rsplit1 (sep : Char) : Str → Option (Str × Str)
  | [] => none
  | c :: cs =>
    match rsplit1 sep cs with
    | some (a, b) => some (c :: a, b)
    | none => if c = sep then some ([], cs) else none

/-- The first half of `path_split` (`osext.py:11-15`): directory and file. -/
def splitDir (sep : Char) (path : Str) : Str × Str :=
  match rsplit1 sep path with
  | some (a, b) => (a, b)
  | none => ([], path)

/-- The second half (`osext.py:16-21`): file name and extension. -/
def splitExt (file : Str) : Str × Str :=
  match rsplit1 '.' file with
  | some (a, b) => (a, b)
  | none => (file, [])

/-- `path_split` (`osext.py:6-22`): directory, file name, extension. -/
def pathSplit (sep : Char) (path : Str) : Str × Str × Str :=
  ((splitDir sep path).1, (splitExt (splitDir sep path).2).1, (splitExt (splitDir sep path).2).2)

/-- Outcome of loading one class file (`sourcecode_compiler.py:14-38`): the class with its name, the file's content being
whatever the parser makes of it; `none` is the `IOError` for a missing file. -/
abbrev FileSystem (C : Type) := Str → Option (Str × C)

/-- Result of `_load_class`. -/
inductive Loaded (C : Type) where
  | cls (c : C)
  /-- "File name … does not match class name …", the program exits (`sourcecode_compiler.py:29-35`) -/
  | nameMismatch
  | notFound
  deriving DecidableEq, Repr

/-- `_load_class` (`universe.py:451-471`) with `compile_class_from_file` (`sourcecode_compiler.py:14-38`). -/
def loadClassFile {C : Type} (sep : Char) (fs : FileSystem C) (name : Str) : List Str → Loaded C
  | [] => .notFound
  | cp :: cps =>
    match fs (cp ++ [sep] ++ name ++ ".som".toList) with
    | some (cname, c) => if name = cname then .cls c else .nameMismatch
    | none => loadClassFile sep fs name cps

/-- The end of `handle_arguments` (`universe.py:172-181`): the class path and class name for a program argument. -/
def programArgument (sep : Char) (classpath : List Str) (arg : Str) : List Str × Str :=
  let split := pathSplit sep arg
  (if split.1 ≠ [] then split.1 :: classpath else classpath, split.2.1)

end PySOM.Str

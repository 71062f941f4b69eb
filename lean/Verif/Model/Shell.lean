import Verif.Model.Strings
/-!
# The interactive shell

`raw_input` of `rlib/osext.py` and the loop of `vm/shell.py`.  What the operating system gives to the successive
`os.read(0, 32)` is a list of chunks; an empty chunk, or the end of the list, is the end of the input.
-/
set_option autoImplicit false
namespace PySOM.Shell
open PySOM.Str

abbrev Bytes := List UInt8

/-- The result of one `raw_input`: what was typed, or a decoding error; and the chunks not yet read. -/
structure Line where
  text : Option Str
  rest : List Bytes
  deriving DecidableEq, Repr

/-- `raw_input` with `_read_raw` (`osext.py:25-39`), `answer` being what was read before.  `decode` is `decode_str`
(`string_stream.py`; `none` is a `UnicodeDecodeError`).  The prompt is left out. -/
def rawInput (decode : Bytes → Option Str) (answer : Str) : List Bytes → Line
  | [] => ⟨some answer, []⟩
  | buf :: rest =>
    if buf.length = 0 then ⟨some answer, rest⟩
    else if buf.getLast? = some 10 then
      match decode buf.dropLast with
      | some t => ⟨some (answer ++ t), rest⟩
      | none => ⟨none, rest⟩
    else
      match decode buf with
      | some t => rawInput decode (answer ++ t) rest
      | none => ⟨none, rest⟩

/-- Reading a line consumes a chunk, if there is one. -/
theorem rawInput_rest_le (decode : Bytes → Option Str) (answer : Str) (cs : List Bytes) :
    (rawInput decode answer cs).rest.length ≤ cs.length - 1 := by
  induction cs generalizing answer with
  | nil => simp [rawInput]
  | cons b bs ih =>
    simp only [rawInput]
    split
    · simp
    · split
      · split <;> simp
      · split
        · have := ih (answer ++ ‹Str›)
          simp only [List.length_cons]; omega
        · simp

/-- What compiling and running the class made of a statement may give (`shell.py:40-58`): a value; no class; an error that
is printed (`ParseError` or any other exception); a `ParseError` whose message cannot be made, so that `str(ex)` in its handler
raises an exception (see `Position` and C63); or the end of the program. -/
inductive Result (V : Type) where
  | value (v : V)
  | noClass
  | error
  | badMessage
  | exit (code : Int)
  deriving DecidableEq, Repr

/-- The text of the class for a statement (`shell.py:31-37`). -/
def classText (counter : Nat) (stmt : Str) : Str :=
  "Shell_Class_".toList ++ (toString counter).toList ++ " = ( run: it = ( | tmp | tmp := (".toList ++ stmt ++
    " ). 'it = ' print. ^tmp println ) )".toList

/-- How the shell ends. -/
inductive End (V : Type) where
  | answer (it : V)
  | exit (code : Int)
  /-- an exception leaves `start`: it was raised in a handler, the other handlers do not see it -/
  | raised
  deriving DecidableEq, Repr

/-- `start` (`shell.py:13-58`).  `eval` stands for `load_shell_class`, `new_instance` and the invocation of `run:` with
`it`, in a state of the VM (`universe.py:473-480`).  Answers how the shell ends, the state, and the texts of the classes
made with the `it` that each was given, in order.  Output is left out.  The tests for `input = []` serve termination only:
at the end of the input `raw_input` answers the empty text, which ends the loop before them. -/
def start {S V : Type} (decode : Bytes → Option Str) (eval : S → Str → V → S × Result V)
    (s : S) (counter : Nat) (it : V) (input : List Bytes) : End V × S × List (Str × V) :=
  match hl : rawInput decode [] input with
  | ⟨none, rest⟩ =>
    -- the exception is caught by the loop (`shell.py:53-58`)
    if h : input = [] then (.answer it, s, [])
    else start decode eval s counter it rest
  | ⟨some stmt, rest⟩ =>
    if stmt = "quit".toList ∨ stmt = [] then (.answer it, s, [])
    else if h : input = [] then (.answer it, s, [])
    else if stmt = ['\n'] then start decode eval s counter it rest
    else
      let text := classText counter stmt
      match eval s text it with
      | (s', .value v) =>
        let r := start decode eval s' (counter + 1) v rest
        (r.1, r.2.1, (text, it) :: r.2.2)
      | (s', .exit c) => (.exit c, s', [(text, it)])
      | (s', .badMessage) => (.raised, s', [(text, it)])
      | (s', _) =>
        let r := start decode eval s' (counter + 1) it rest
        (r.1, r.2.1, (text, it) :: r.2.2)
termination_by input.length
decreasing_by
  all_goals
    have h1 := rawInput_rest_le decode [] input
    rw [hl] at h1
    have h2 : 0 < input.length := List.length_pos_iff.2 h
    simp only at h1
    omega

end PySOM.Shell

import Verif.Model.Strings
/-!
# The command line

`handle_arguments` and `interpret` of `universe.py`.
-/
set_option autoImplicit false
namespace PySOM.Args
open PySOM.Str

/-- Python's `s.split(sep)` for a one-character separator, as `setup_classpath` uses it (`universe.py:185-186`). -/
def splitAll (sep : Char) : Str → List Str
  | [] => [[]]
  | c :: cs =>
    if c = sep then [] :: splitAll sep cs
    else match splitAll sep cs with
      | p :: ps => (c :: p) :: ps
      | [] => [[c]]

/-- What the options set: the class path (`none` until `-cp` is seen, which is also `got_classpath`), `_dump_bytecodes`,
and whether garbage collection was switched off (`universe.py:143-163`; the text printed by `--no-gc` is left out). -/
structure Settings where
  classpath : Option (List Str)
  dump : Bool
  noGc : Bool
  deriving DecidableEq, Repr

/-- How `handle_arguments` ends. -/
inductive Outcome where
  /-- usage printed, `Exit(0)` raised (`universe.py:198-212`, `104-108`) -/
  | usage
  /-- `arguments[i + 1]` is out of range (`universe.py:152`) -/
  | indexError
  | run (settings : Settings) (remaining : List Str)
  deriving DecidableEq, Repr

/-- The loop of `handle_arguments` (`universe.py:147-168`) from one argument on.  `avoid` is `_avoid_exit`: printing the
usage then does not end the program.  `saw` is `saw_others`, `rest` is `remaining_args`. -/
def scan (pathsep : Char) (avoid : Bool) (s : Settings) (saw : Bool) (rest : List Str) : List Str → Outcome
  | [] => .run s rest
  | a :: as =>
    if a = "-cp".toList ∧ saw = false then
      match as with
      | [] => if avoid then .indexError else .usage
      | p :: as' => scan pathsep avoid { s with classpath := some (splitAll pathsep p) } saw rest as'
    else if a = "-d".toList ∧ saw = false then
      scan pathsep avoid { s with dump := true } saw rest as
    else if (a = "-h".toList ∨ a = "--help".toList ∨ a = "-?".toList) ∧ saw = false then
      if avoid then scan pathsep avoid s saw rest as else .usage
    else if a = "--no-gc".toList ∧ saw = false then
      scan pathsep avoid { s with noGc := true } saw rest as
    else scan pathsep avoid s true (rest ++ [a]) as

/-- `handle_arguments` (`universe.py:142-183`).  The class path of the result is never `none`. -/
def handleArguments (sep pathsep : Char) (avoid : Bool) (args : List Str) : Outcome :=
  match scan pathsep avoid ⟨none, false, false⟩ false [] args with
  | .run s rest =>
    let cp := s.classpath.getD [".".toList]
    match rest with
    | [] => .run { s with classpath := some cp } []
    | r :: rs =>
      .run { s with classpath := some (programArgument sep cp r).1 } ((programArgument sep cp r).2 :: rs)
  | o => o

/-- What `interpret` does after the arguments (`universe.py:134-140`): the shell, or `initialize:` with the arguments. -/
inductive Start where
  | shell
  | initialize (arguments : List Str)
  deriving DecidableEq, Repr

/-- `interpret` (`universe.py:134-140`). -/
def start (remaining : List Str) : Start :=
  match remaining with
  | [] => .shell
  | _ => .initialize remaining

end PySOM.Args

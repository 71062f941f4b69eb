import Verif.Model.Args
import Verif.Model.Shell
import Verif.Model.Universe
/-!
# The whole run: `main.py`, `main_rpython.py` and `interpret`

The command line (`Model/Args.lean`), the start of the VM (`Model/Universe.lean`), and the shell (`Model/Shell.lean`) or the program, put together; and what the process says to its caller at the end.
-/
set_option autoImplicit false
namespace PySOM.Main
open PySOM.Str

/-- How running something ends: with an answer, with the exception `Exit` (`rlib/exit.py`), with a `ParseError`, or with another exception. -/
inductive Ending where
  | normal
  | exit (code : Int)
  | parse
  | fails
  deriving DecidableEq, Repr

/-- An exception of the start, as the handlers see it. -/
def ofStart : Boot.Err → Ending
  | .exit c => .exit c
  | .parse => .parse
  | _ => .fails

/-- How the shell ends. -/
def ofShell {V : Type} : Shell.End V → Ending
  | .answer _ => .normal
  | .exit c => .exit c
  | .raised => .fails

/-- What is around a run: the separators of the platform, the files of each directory, the VM's own primitives, Python's limit of recursion, the input; what the shell does with a statement, and how the method `initialize:` of the
class System, called with the arguments, ends.  These last two are what the rest of the model is about; here they are parameters. -/
structure World (V : Type) where
  sep : Char
  pathsep : Char
  files : Str → Boot.Name → Option Boot.Text
  known : Boot.Name → Option (List Boot.Name × List Boot.Name)
  depth : Nat
  decode : Shell.Bytes → Option Str
  input : List Shell.Bytes
  nil : V
  eval : Boot.U → Str → V → Boot.U × Shell.Result V
  run : Boot.U → List Str → Ending

/-- What the VM is started with, for a class path.  The universe of `main` is made with `avoid_exit=False` (`current.py:1-7`, `universe.py:483-484`). -/
def World.env {V : Type} (W : World V) (paths : List Str) : Boot.Env where
  files := fun p n => (paths[p]?).bind fun d => W.files d n
  classpath := List.range paths.length
  known := W.known
  avoidExit := false

/-- `Universe.exit` (`universe.py:104-108`), for the universe of `main`. -/
def exit (code : Int) : Ending := .exit code

/-- `interpret` (`universe.py:126-140`). -/
def World.interpret {V : Type} (W : World V) (args : List Str) : Ending :=
  match Args.handleArguments W.sep W.pathsep false args with
  | .usage => exit 0
  | .indexError => .fails
  | .run s rest =>
    match Boot.boot (W.env (s.classpath.getD [])) W.depth ⟨[], []⟩ with
    | (.error e, _) => ofStart e
    | (.ok _, u) =>
      match Args.start rest with
      | .shell => ofShell (Shell.start W.decode W.eval u 0 W.nil W.input).1
      | .initialize as => W.run u as

/-- `main` (`universe.py:504-509`). -/
def World.main {V : Type} (W : World V) (args : List Str) : Ending :=
  match W.interpret args with
  | .normal => exit 0
  | e => e

/-- `main.py:6-16`: the argument of `sys.exit` (of which the system keeps the lowest eight bits); what no handler catches makes Python print a trace and end with status 1. -/
def World.status {V : Type} (W : World V) (args : List Str) : Int :=
  match W.main args with
  | .exit c => c
  | .parse => 1
  | .fails => 1
  | .normal => 0

/-- `entry_point` (`main_rpython.py:22-33`): the answer is the status. -/
def World.entryPoint {V : Type} (W : World V) (args : List Str) : Int :=
  match W.main args with
  | .exit c => c
  | .parse => 1
  | .fails => 1
  | .normal => 1

end PySOM.Main

import Verif.Model.Strings
/-!
# Reading whole files: `loadFile:`
-/
set_option autoImplicit false
namespace PySOM.FileRead
open PySOM.Str

/-- Exceptions while a file is opened or read: `OSError`, or another one (in Python 3 `UnicodeDecodeError`, for bytes that are no text). -/
inductive IoErr where
  | os
  | other
  deriving DecidableEq, Repr

/-- An open file: what a call of `read` with a size answers, and what the file is afterwards. -/
abbrev Read (σ : Type) := σ → Nat → Except IoErr Str × σ

/-- `if bufsize < 4194304: bufsize <<= 1` (`rlib/streamio.py:26-27`). -/
def nextSize (n : Nat) : Nat := if n < 4194304 then 2 * n else n

/-- The loop of `readall_from_stream` (`rlib/streamio.py:13-27`): `acc` is `result`.  `none`: the loop does not end.  The answer is `result`, of which `join` makes one text (line 28). -/
def readLoop {σ : Type} (read : Read σ) (s : σ) (size : Nat) (acc : List Str) : Option (Except IoErr (List Str)) :=
  match read s size with
  | (.error .os, _) => if acc = [] then some (.error .os) else some (.ok acc)
  | (.error .other, _) => some (.error .other)
  | (.ok data, s') => if data = [] then some (.ok acc) else readLoop read s' (nextSize size) (acc ++ [data])
partial_fixpoint

/-- `readall_from_stream` (`rlib/streamio.py:10-28`). -/
def readAll {σ : Type} (read : Read σ) (s : σ) : Option (Except IoErr Str) :=
  (readLoop read s 8192 []).map fun r => r.map List.flatten

/-- What `loadFile:` does: it answers a new string, or nil, or an exception leaves it. -/
inductive Answer where
  | text (t : Str)
  | nil
  | raises
  deriving DecidableEq, Repr

/-- `_load_file` (`primitives/system_primitives.py:72-87`), with the number of times that a file is closed: the `finally` closes the file that was opened. -/
def loadFile {σ : Type} (openFile : Str → Except IoErr σ) (read : Read σ) (name : Str) : Option (Answer × Nat) :=
  match openFile name with
  | .error .os => some (.nil, 0)
  | .error .other => some (.raises, 0)
  | .ok s => (readAll read s).map fun r => match r with
    | .ok t => (.text t, 1)
    | .error .os => (.nil, 1)
    | .error .other => (.raises, 1)

end PySOM.FileRead

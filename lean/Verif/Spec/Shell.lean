import Verif.Model.Shell
/-!
# What a session with the shell means

The user types lines.  Each is a statement of its own that may use `it`, the value of the last line that had one.
-/
set_option autoImplicit false
namespace PySOM.Shell.Spec
open PySOM.Str

/-- The value `it` after a line. -/
def newIt {V : Type} (it : V) : Result V → V
  | .value v => v
  | _ => it

/-- A session with the lines typed; empty lines mean nothing.  The `n`-th class made gets the number `n`. -/
def session {S V : Type} (eval : S → Str → V → S × Result V) (s : S) (n : Nat) (it : V) : List Str → End V × S × List (Str × V)
  | [] => (.answer it, s, [])
  | l :: ls =>
    if l = "quit".toList then (.answer it, s, [])
    else if l = [] then session eval s n it ls
    else
      let text := classText n l
      match (eval s text it).2 with
      | .exit c => (.exit c, (eval s text it).1, [(text, it)])
      | r =>
        let e := session eval (eval s text it).1 (n + 1) (newIt it r) ls
        (e.1, e.2.1, (text, it) :: e.2.2)

/-- Chunks in which a terminal delivers one line: the last one, and only that, ends with the newline, and no chunk cuts a
character. -/
inductive TypedLine (decode : Bytes → Option Str) : Str → List Bytes → Prop
  | last {b : Bytes} {t : Str} : decode b = some t → TypedLine decode t [b ++ [10]]
  | more {b : Bytes} {t u : Str} {cs : List Bytes} : decode b = some t → b ≠ [] → b.getLast? ≠ some 10 →
      TypedLine decode u cs → TypedLine decode (t ++ u) (b :: cs)

/-- Chunks of several lines. -/
inductive Typed (decode : Bytes → Option Str) : List Str → List Bytes → Prop
  | nil : Typed decode [] []
  | cons {l : Str} {ls : List Str} {cs ds : List Bytes} : TypedLine decode l cs → Typed decode ls ds →
      Typed decode (l :: ls) (cs ++ ds)

end PySOM.Shell.Spec

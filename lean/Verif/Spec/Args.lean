import Verif.Model.Strings
/-!
# What a command line means

A command line is a list of options followed by a program with its arguments.
-/
set_option autoImplicit false
namespace PySOM.Args.Spec
open PySOM.Str

inductive Opt where
  | cp (path : Str)
  | dump
  | noGc
  deriving DecidableEq, Repr

/-- How an option is written. -/
def Opt.words : Opt → List Str
  | .cp p => ["-cp".toList, p]
  | .dump => ["-d".toList]
  | .noGc => ["--no-gc".toList]

def helpWords : List Str := ["-h".toList, "--help".toList, "-?".toList]

/-- The words that are not taken for a program. -/
def optionWords : List Str := ["-cp".toList, "-d".toList, "--no-gc".toList] ++ helpWords

def Opt.path? : Opt → Option Str
  | .cp p => some p
  | _ => none

/-- The path given last. -/
def lastPath (os : List Opt) : Option Str := (os.filterMap Opt.path?).getLast?

/-- `ps` are the parts of `s` between the separators. -/
def Parts (sep : Char) (s : Str) (ps : List Str) : Prop :=
  ps ≠ [] ∧ [sep].intercalate ps = s ∧ ∀ p ∈ ps, sep ∉ p

end PySOM.Args.Spec

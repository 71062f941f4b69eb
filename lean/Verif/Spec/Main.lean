import Verif.Model.Main
import Verif.Spec.Args
/-!
# Specification: what the status of the process says

The parts of a command line are those of `Spec/Args.lean`.
-/
set_option autoImplicit false
namespace PySOM.Main
open PySOM.Str Args Args.Spec

/-- The directories in which classes are looked for, with these options. -/
def searched (pathsep : Char) (os : List Opt) : List Str := ((lastPath os).map (splitAll pathsep)).getD [".".toList]

/-- With a program: its directory first, if it is given with one. -/
def searchedFor (sep pathsep : Char) (os : List Opt) (prog : Str) : List Str := (if (pathSplit sep prog).1 = [] then [] else [(pathSplit sep prog).1]) ++ searched pathsep os

/-- The classes that the VM itself is made of. -/
def vmClasses : List String := ["Object", "Class", "Metaclass", "Nil", "Array", "Method", "String", "Symbol", "Integer", "Primitive", "Double"]

/-- The VM starts with the files of these directories. -/
def World.Starts {V : Type} (W : World V) (paths : List Str) (u : Boot.U) : Prop := ∃ s, Boot.boot (W.env paths) W.depth ⟨[], []⟩ = (.ok s, u)

/-- The status for an ending: 0 for a program that comes to its end, the number given to `exit:`, and 1 for an error. -/
def statusOf : Ending → Int
  | .normal => 0
  | .exit c => c
  | .parse | .fails => 1

end PySOM.Main

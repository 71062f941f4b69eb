import Verif.Model.Universe
import Verif.Model.Invoke
import Verif.Model.Prims
/-!
# The classes that were loaded, as the running program finds them

`Model/Universe.lean` says how classes are made from files (`src/som/vm/universe.py`), `Model/Prims.lean` how a program with given classes runs.  Here the classes of a running program are
those of a universe.
-/
set_option autoImplicit false
namespace PySOM.Boot

/-- The class and its superclasses, as `lookup_invokable` (`vmobjects/clazz.py:93-110`) goes through them; there are not more of them than classes. -/
def U.chainTo (u : U) : Nat → Cid → List Cid
  | 0, _ => []
  | k + 1, c => c :: (match (u.at c).sup with | some s => u.chainTo k s | none => [])

def U.chain (u : U) (c : Cid) : List Cid := u.chainTo u.classes.length c

/-- The value of a global, if it is a class. -/
def U.named (u : U) (n : Name) : Cid :=
  match List.lookup n u.globals with
  | some (.cls c) => c
  | _ => 0

/-- The name of the class of blocks with `i` arguments, including the block (`universe.py:400-415`). -/
def blockName (i : Nat) : Name := "Block".toList ++ (Nat.repr i).toList

/-- The selectors of the primitives of the VM, on both sides (`known.py:84-89`; the table is in `Model/Invoke.lean`): those that a universe in which `env.known` is this one enters. -/
def vmKnown (e : Inv.Engine) (n : Name) : Option (List Name × List Name) :=
  ((Inv.known e).find? fun c => c.1.toList == n).map fun c =>
    ((c.2.filter fun p => p.1 == .inst).map fun p => p.2.1.toList, (c.2.filter fun p => p.1 == .cls).map fun p => p.2.1.toList)

/-- The names under which the primitives of `Model/Prims.lean` are installed: `array_primitives.py:100-109`, `block_primitives.py:65-67`, `class_primitives.py:28-30`, `double_primitives.py:113-138`,
`false_primitives.py:40-50`, `integer_primitives.py:198-234` and `bc/integer_primitives.py:166-168`, `object_primitives.py:88-108`, `string_primitives.py:93-105`, `symbol_primitives.py:23-24`,
`system_primitives.py:98-110`, `true_primitives.py:40-51`, and for the classes of blocks `universe.py:400-415` with `block_bc.py:59-78`.  The other primitives are left out. -/
def namedPrims : List (String × List (String × Mach.Prim)) :=
  [("Array", [("at:", .arrAt), ("at:put:", .arrPut), ("length", .arrLength), ("copy", .arrCopy), ("doIndexes:", .arrIndexes), ("do:", .arrDo), ("putAll:", .arrPutAll)]),
   ("Array class", [("new:", .arrNew)]),
   ("Block", [("whileTrue:", .whileTrue), ("whileFalse:", .whileFalse), ("restart", .restart)]),
   ("Block1", [("value", .value)]), ("Block2", [("value:", .value)]), ("Block3", [("value:with:", .value)]),
   ("Class", [("new", .new), ("name", .name), ("superclass", .superclass)]),
   ("Double", [("+", .arith .plus), ("-", .arith .minus), ("*", .arith .times), ("//", .arith .over), ("%", .arith .mod), ("=", .compare .eq), ("<", .compare .lt), ("<=", .compare .le),
     (">", .compare .gt), (">=", .compare .ge), ("<>", .compare .ne), ("~=", .compare .ne), ("round", .round), ("asInteger", .asInteger), ("sqrt", .dblSqrt), ("max:", .max), ("min:", .min)]),
   ("Double class", [("PositiveInfinity", .infinity)]),
   ("False", [("not", .falseNot), ("and:", .falseAnd), ("&&", .falseAnd), ("or:", .falseOr), ("||", .falseOr), ("ifFalse:", .falseOr), ("ifTrue:ifFalse:", .falseIfElse)]),
   ("Integer", [("asString", .numString), ("as32BitSignedValue", .as32s), ("as32BitUnsignedValue", .as32u), ("+", .arith .plus), ("-", .arith .minus), ("*", .arith .times), ("//", .arith .over),
     ("/", .arith .div), ("%", .arith .mod), ("rem:", .arith .rem), ("&", .arith .band), ("==", .compare .same), ("=", .compare .eq), ("<", .compare .lt), ("<=", .compare .le), (">", .compare .gt),
     (">=", .compare .ge), ("<>", .compare .ne), ("~=", .compare .ne), ("<<", .arith .shl), ("bitXor:", .arith .xor), (">>>", .arith .shr), ("abs", .abs), ("max:", .max), ("min:", .min),
     ("to:do:", .toDo), ("downTo:do:", .downToDo), ("to:by:do:", .toByDo), ("to:", .to), ("asDouble", .asDouble), ("sqrt", .intSqrt)]),
   ("Integer class", [("fromString:", .fromString)]),
   ("Object", [("==", .identical), ("instVarAt:", .instVarAt), ("instVarAt:put:", .instVarAtPut), ("instVarNamed:", .instVarNamed), ("halt", .halt), ("class", .theClass), ("perform:", .perform), ("perform:inSuperclass:", .performIn),
     ("perform:withArguments:", .performWith)]),
   ("String", [("charAt:", .charAt), ("concatenate:", .concat), ("asSymbol", .asSymbol), ("length", .strLength), ("=", .strEq), ("primSubstringFrom:to:", .substring), ("hashcode", .strHash), ("isWhiteSpace", .kind .space), ("isLetters", .kind .alpha), ("isDigits", .kind .digit)]),
   ("Symbol", [("asString", .symString), ("=", .symEq)]),
   ("System", [("hasGlobal:", .hasGlobal), ("global:", .global), ("global:put:", .globalPut), ("printString:", .print), ("printNewline", .newline), ("errorPrint:", .errPrint), ("errorPrintln:", .errPrintln),
     ("fullGC", .fullGC)]),
   ("True", [("not", .trueNot), ("or:", .trueOr), ("||", .trueOr), ("and:", .trueAnd), ("&&", .trueAnd), ("ifTrue:", .trueAnd), ("ifFalse:", .trueIfFalse), ("ifTrue:ifFalse:", .trueIfElse)])]

/-- The primitive that is installed in the class with this name for this selector, if it is one of `Model/Prims.lean`. -/
def namedPrim (n sel : Name) : Option Mach.Prim :=
  (namedPrims.find? fun c => c.1.toList == n).bind fun c => (c.2.find? fun p => p.1.toList == sel).map (·.2)

/-- The classes of the universe `u` as those of a program.  `first` is the universe as it was after the start: `true_class`, `false_class` and `block_classes` are set then
(`universe.py:280-288, 307-309`).  `prim` says which primitive the one of a class with this name for this selector is, `clsObj` which objects the classes are, `blkArgs` how many arguments blocks have, and `catches` which methods
wait for returns.  Not included: primitives that are declared in a file but not known to the VM, which print a warning (C56). -/
def U.image (u first : U) (s : Sys) (prim : Name → Name → Mach.Prim) (blkArgs : Nat → Nat) (catches : Nat → Bool) (clsObj : Cid → Nat) : Mach.Image Nat where
  chain := u.chain
  table := fun c sel => (((u.at c).table.getD []).find? fun e => e.sel == sel).map fun e =>
    match e.kind with
    | .code b => .inl b
    | _ => .inr (prim ((u.at c).name.getD []) sel)
  nilCls := s.nil
  truCls := first.named "True".toList
  flsCls := first.named "False".toList
  intCls := s.integer
  symCls := s.symbol
  dblCls := s.double
  strCls := s.string
  arrCls := s.array
  blkCls := fun i => first.named (blockName i)
  blkArgs := blkArgs
  catches := catches
  clsObj := clsObj
  nflds := fun c => ((u.at c).fields.getD []).length
  clsName := fun c => (u.at c).name.getD []
  fldNames := fun c => (u.at c).fields.getD []

end PySOM.Boot

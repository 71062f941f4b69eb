import Verif.Model.Base
/-!
# Model of variables, frames and contexts

`src/som/compiler/method_generation_context.py` (`_separate_variables`, `prepare_frame`), `src/som/compiler/ast/variable.py`,
`src/som/interpreter/ast/frame.py`, `src/som/interpreter/bc/frame.py`, and the `invoke_*` methods of
`src/som/vmobjects/method_ast.py` and `method_bc.py` up to the start of the execution.

`V` is the type of object references; `nil` and `tru` are the objects nil and true.  Erasing and `make_sure_not_resized` are
RPython type hints and left out.
-/
set_option autoImplicit false
namespace PySOM.Frame
open PySOM

variable {V : Type}

/-! ## Storage assignment at the end of compilation -/

/-- `_separate_variables` (149-164): `vars` are the `is_accessed_out_of_context()` flags; `nl`, `nn` are the lengths of the
lists `only_local_access` and `non_local_access` so far.  The result has every variable's `access_idx` and the final
lengths. -/
def separate (frameOff innerOff : Nat) : List Bool → Nat → Nat → List Nat × Nat × Nat
  | [], nl, nn => ([], nl, nn)
  | true :: vs, nl, nn =>
    let r := separate frameOff innerOff vs nl (nn + 1)
    ((nn + innerOff) :: r.1, r.2)
  | false :: vs, nl, nn =>
    let r := separate frameOff innerOff vs (nl + 1) nn
    ((nl + frameOff) :: r.1, r.2)

/-- What `prepare_frame` computes: `arg_inner_access`, the two sizes, and the `access_idx` of all variables. -/
structure Layout where
  argInner : List Bool
  sizeFrame : Nat
  sizeInner : Nat
  argIdx : List Nat
  localIdx : List Nat
  deriving DecidableEq, Repr

/-- `FRAME_AND_INNER_RCVR_IDX` (`ast/frame.py:64`). -/
def rcvrIdx : Nat := 1
/-- `ARG_OFFSET` (`ast/frame.py:65-70`). -/
def argOffset : Nat := 2

/-- `prepare_frame` (166-200).  `args` (with `self` or `$blockSelf` first) and `locals` are the flags "accessed out of
context", `ctx` is `requires_context() or needs_to_catch_non_local_returns`. -/
def prepareFrame (args locals : List Bool) (ctx : Bool) : Except Err Layout :=
  match args with
  | [] => .error .index
  | self :: rest =>
    let a := separate argOffset argOffset rest 0 0
    let l := separate (argOffset + a.2.1) (argOffset + a.2.2) locals 0 0
    let size := a.2.2 + l.2.2
    .ok { argInner := rest
          sizeFrame := 1 + 1 + a.2.1 + l.2.1
          sizeInner := if ctx || decide (size > 0) || self then size + (1 + 1) else size
          argIdx := rcvrIdx :: a.1
          localIdx := l.1 }

/-! ## Activation -/

/-- A frame.  `inner` is `frame[0]` (the context, `None` if there is none); `slots` is the list itself, whose element 0 is not
used here. -/
structure Fr (V : Type) where
  inner : Option (List V)
  slots : List V
  deriving DecidableEq, Repr

/-- `l[i] = v` for an index that is not negative. -/
def put (l : List V) (i : Nat) (v : V) : Except Err (List V) :=
  if i < l.length then .ok (l.set i v) else .error .index

/-- `l[i]`. -/
def pyGet {α : Type} (l : List α) (i : Int) : Except Err α :=
  match pyIdx l.length i with
  | none => .error .index
  | some k => match l[k]? with
    | none => .error .index
    | some v => .ok v

/-- The common first part of all `create_frame` functions (`ast/frame.py:77-86`): receiver and bookkeeping. -/
def openFrame (nil tru rcvr : V) (sizeFrame sizeInner : Nat) : Except Err (Fr V) := do
  let slots ← put (List.replicate sizeFrame nil) rcvrIdx rcvr
  if sizeInner > 0 then
    let inner ← put (List.replicate sizeInner nil) 0 tru
    let inner ← put inner rcvrIdx rcvr
    return ⟨some inner, slots⟩
  else return ⟨none, slots⟩

/-- `frame[i] = v` or `inner[i] = v`. -/
def putAt (f : Fr V) (captured : Bool) (i : Nat) (v : V) : Except Err (Fr V) :=
  if captured then
    match f.inner with
    | none => .error .type
    | some l => do let l ← put l i v; return { f with inner := some l }
  else do let l ← put f.slots i v; return { f with slots := l }

/-- `create_frame_1` (`ast/frame.py:76-92`). -/
def createFrame1 (nil tru rcvr : V) (sizeFrame sizeInner : Nat) : Except Err (Fr V) := openFrame nil tru rcvr sizeFrame sizeInner

/-- `create_frame_2` (`ast/frame.py:95-117`). -/
def createFrame2 (nil tru rcvr arg : V) (argInner : Bool) (sizeFrame sizeInner : Nat) : Except Err (Fr V) := do
  let f ← openFrame nil tru rcvr sizeFrame sizeInner
  if sizeInner > 0 then
    if argInner then putAt f true (rcvrIdx + 1) arg else putAt f false (rcvrIdx + 1) arg
  else putAt f false (rcvrIdx + 1) arg

/-- The body of both `create_frame_3` (`ast/frame.py:120-151`, `bc/frame.py:91-129`), `a1` and `a2` being the flags of the two
arguments. -/
def createFrame3With (nil tru rcvr arg1 arg2 : V) (a1 a2 : Bool) (sizeFrame sizeInner : Nat) : Except Err (Fr V) := do
  let f ← openFrame nil tru rcvr sizeFrame sizeInner
  if sizeInner > 0 then
    if a1 then
      let f ← putAt f true (rcvrIdx + 1) arg1
      if a2 then putAt f true (rcvrIdx + 2) arg2 else putAt f false (rcvrIdx + 1) arg2
    else
      let f ← putAt f false (rcvrIdx + 1) arg1
      if a2 then putAt f true (rcvrIdx + 1) arg2 else putAt f false (rcvrIdx + 2) arg2
  else
    let f ← putAt f false (rcvrIdx + 1) arg1
    putAt f false (rcvrIdx + 2) arg2

/-- `create_frame_3` of the AST interpreter. -/
def createFrame3 (nil tru rcvr arg1 arg2 : V) (argInner : List Bool) (sizeFrame sizeInner : Nat) : Except Err (Fr V) := do
  let a1 ← if sizeInner > 0 then pyGet argInner 0 else .ok false
  let a2 ← if sizeInner > 0 then pyGet argInner 1 else .ok false
  createFrame3With nil tru rcvr arg1 arg2 a1 a2 sizeFrame sizeInner

/-- `create_frame_3` of the bytecode interpreter: it gets the flags in reverse. -/
def createFrame3Bc (nil tru rcvr arg1 arg2 : V) (argInnerRev : List Bool) (sizeFrame sizeInner : Nat) : Except Err (Fr V) := do
  let a1 ← if sizeInner > 0 then pyGet argInnerRev 1 else .ok false
  let a2 ← if sizeInner > 0 then pyGet argInnerRev 0 else .ok false
  createFrame3With nil tru rcvr arg1 arg2 a1 a2 sizeFrame sizeInner

/-- The loop of `_set_arguments_without_inner` (`ast/frame.py:182-185`): over the rest of the arguments. -/
def setArgsWithout : List V → Nat → Fr V → Except Err (Fr V)
  | [], _, f => .ok f
  | v :: vs, fi, f => do
    let f ← putAt f false fi v
    setArgsWithout vs (fi + 1) f

/-- The loop of `_set_arguments_with_inner` (`ast/frame.py:196-203`): over the rest of the arguments and flags. -/
def setArgsWith : List V → List Bool → Nat → Nat → Fr V → Except Err (Fr V)
  | v :: vs, true :: bs, fi, ii, f => do
    let f ← putAt f true ii v
    setArgsWith vs bs fi (ii + 1) f
  | v :: vs, false :: bs, fi, ii, f => do
    let f ← putAt f false fi v
    setArgsWith vs bs (fi + 1) ii f
  | _, [], _, _, f => .ok f
  | [], _ :: _, _, _, _ => .error .index

/-- `create_frame_args` (`ast/frame.py:154-172`). -/
def createFrameArgs (nil tru rcvr : V) (args : List V) (argInner : List Bool) (sizeFrame sizeInner : Nat) : Except Err (Fr V) := do
  let f ← openFrame nil tru rcvr sizeFrame sizeInner
  if args.length ≠ argInner.length then .error .assertion
  else if sizeInner > 0 then setArgsWith args argInner argOffset argOffset f
  else setArgsWithout args argOffset f

/-- The loop of `_set_arguments_without_inner` (`bc/frame.py:139-142`); the first argument is `arg_i + 1`. -/
def setArgsWithoutBc (stack : List V) (ptr : Int) : Nat → Nat → Fr V → Except Err (Fr V)
  | 0, _, f => .ok f
  | a + 1, fi, f => do
    let v ← pyGet stack (ptr - a)
    let f ← putAt f false fi v
    setArgsWithoutBc stack ptr a (fi + 1) f

/-- The loop of `_set_arguments_with_inner` (`bc/frame.py:158-166`); the first number is `arg_i + 1`. -/
def setArgsWithBc (rev : List Bool) (stack : List V) (ptr : Int) : Nat → Nat → Nat → Fr V → Except Err (Fr V)
  | 0, _, _, f => .ok f
  | a + 1, fi, ii, f => do
    let v ← pyGet stack (ptr - a)
    let b ← pyGet rev a
    if b then
      let f ← putAt f true ii v
      setArgsWithBc rev stack ptr a fi (ii + 1) f
    else
      let f ← putAt f false fi v
      setArgsWithBc rev stack ptr a (fi + 1) ii f

/-- `create_frame` (`bc/frame.py:53-88`); `numArgs` counts the receiver. -/
def createFrameBc (nil tru : V) (argInnerRev : List Bool) (sizeFrame sizeInner : Nat) (stack : List V) (ptr : Int) (numArgs : Nat) :
    Except Err (Fr V) := do
  let rcvr ← pyGet stack (ptr - ((numArgs : Int) - 1))
  if (numArgs : Int) - 1 ≠ argInnerRev.length then .error .assertion
  else
    let f ← openFrame nil tru rcvr sizeFrame sizeInner
    if sizeInner > 0 then setArgsWithBc argInnerRev stack ptr (numArgs - 1) argOffset argOffset f
    else setArgsWithoutBc stack ptr (numArgs - 1) argOffset f

/-- `AstMethod.invoke_1/2/3/args` (`method_ast.py:122-166`) as chosen by the call sites by the number of arguments
(`interpreter/ast/nodes/dispatch.py`, `message/generic_node.py`). -/
def activateAst (nil tru rcvr : V) (args : List V) (m : Layout) : Except Err (Fr V) :=
  match args with
  | [] => createFrame1 nil tru rcvr m.sizeFrame m.sizeInner
  | [a] => do createFrame2 nil tru rcvr a (← pyGet m.argInner 0) m.sizeFrame m.sizeInner
  | [a, b] => createFrame3 nil tru rcvr a b m.argInner m.sizeFrame m.sizeInner
  | _ => createFrameArgs nil tru rcvr args m.argInner m.sizeFrame m.sizeInner

/-- `assemble` (`bc/method_generation_context.py:147-153`): the flags are reversed if there are at least two. -/
def reversedFlags (m : Layout) : List Bool := if m.argInner.length > 1 then m.argInner.reverse else m.argInner

/-- `BcMethod.invoke_1/2/3` (`method_bc.py:214-238`). -/
def activateBc (nil tru rcvr : V) (args : List V) (m : Layout) : Except Err (Fr V) :=
  match args with
  | [] => createFrame1 nil tru rcvr m.sizeFrame m.sizeInner
  | [a] => do createFrame2 nil tru rcvr a (← pyGet (reversedFlags m) 0) m.sizeFrame m.sizeInner
  | [a, b] => createFrame3Bc nil tru rcvr a b (reversedFlags m) m.sizeFrame m.sizeInner
  | _ => .error .type

/-- `BcMethod.invoke_n` (`method_bc.py:240-248`). -/
def activateBcN (nil tru : V) (stack : List V) (ptr : Int) (numArgs : Nat) (m : Layout) : Except Err (Fr V) :=
  createFrameBc nil tru (reversedFlags m) m.sizeFrame m.sizeInner stack ptr numArgs

/-- Reading a variable of the running activation (`get_initialized_read_node`, `get_push_bytecode` at level 0;
`read_inner`, `read_frame`, `ast/frame.py:215-226`). -/
def readVar (f : Fr V) (captured : Bool) (idx : Nat) : Except Err V :=
  if captured then
    match f.inner with
    | none => .error .type
    | some l => pyGet l idx
  else pyGet f.slots idx

end PySOM.Frame

import Verif.Model.Frame
/-!
# Model of name resolution and of the chain of contexts

`find_var` (`src/som/compiler/bc/method_generation_context.py:259-271`), `get_variable` and `get_context_level`
(`src/som/compiler/ast/method_generation_context.py:69-89`), `mark_accessed` (`src/som/compiler/ast/variable.py:37-40`), the
flags of `src/som/compiler/method_generation_context.py:126-147`, the variable access nodes and bytecodes
(`src/som/interpreter/ast/nodes/variable_node.py`, `variable.py:52-106`, `interpreter/bc/interpreter.py:136-200, 283-345`), and
blocks (`vmobjects/block_ast.py`, `block_bc.py`).

A program is reduced to its scopes and to what happens to variables: which names are used in which scope, and at run time a
sequence of calls, block creations, reads and writes.  Dictionaries with insertion order are lists of names.
-/
set_option autoImplicit false
namespace PySOM.Scope
open PySOM PySOM.Frame

/-- A method or block: `_arguments` (`self` or `$blockSelf` first), `_locals`, and `outer_genc` as a position in the list of all
scopes. -/
structure Scope where
  args : List String
  locals : List String
  outer : Option Nat
  deriving DecidableEq, Repr

/-- The scopes of a program, in the order in which the parser opens them; the pairs of a scope and a name used in it; and the
scopes with a field access or a non-local return, which mark all enclosing scopes (126-147). -/
structure Prog where
  scopes : List Scope
  uses : List (Nat × String)
  marks : List Nat

/-- A scope and all scopes around it, following `outer_genc`. -/
def chain (sc : List Scope) (s : Nat) : List (Nat × Scope) :=
  match sc[s]? with
  | none => []
  | some S => (s, S) :: (match S.outer with
    | none => []
    | some o => if o < s then chain sc o else [])
termination_by s

/-- `FindVarResult`: the variable (as kind and index in its scope) and the level; `scope` says which scope it belongs to. -/
structure Found where
  level : Nat
  scope : Nat
  isArg : Bool
  idx : Nat
  deriving DecidableEq, Repr

/-- `find_var` (259-271): locals before arguments, then the enclosing scopes. -/
def findVar : List (Nat × Scope) → String → Nat → Option Found
  | [], _, _ => none
  | (s, S) :: rest, x, lvl =>
    match S.locals.idxOf? x with
    | some i => some ⟨lvl, s, false, i⟩
    | none => match S.args.idxOf? x with
      | some i => some ⟨lvl, s, true, i⟩
      | none => findVar rest x (lvl + 1)

/-- `get_context_level` of the AST compiler (69-73); `none` is the failed assertion. -/
def contextLevel : List (Nat × Scope) → String → Option Nat
  | [], _ => none
  | (_, S) :: rest, x => if x ∈ S.locals ∨ x ∈ S.args then some 0 else (contextLevel rest x).map (· + 1)

/-- `get_variable` of the AST compiler (75-89): scope, kind and index. -/
def getVariable : List (Nat × Scope) → String → Option (Nat × Bool × Nat)
  | [], _ => none
  | (s, S) :: rest, x =>
    match S.locals.idxOf? x with
    | some i => some (s, false, i)
    | none => match S.args.idxOf? x with
      | some i => some (s, true, i)
      | none => getVariable rest x

/-- `_is_accessed_out_of_context` of a variable at the end of compilation: some use was at a level above 0
(`variable.py:39-42`). -/
def captured (P : Prog) (s : Nat) (isArg : Bool) (i : Nat) : Bool :=
  P.uses.any fun u => match findVar (chain P.scopes u.1) u.2 0 with
    | some f => decide (f.level > 0) && decide (f.scope = s) && decide (f.isArg = isArg) && decide (f.idx = i)
    | none => false

/-- `requires_context()` or `needs_to_catch_non_local_returns` at the end of compilation: some lookup went through this scope
to an outer one (`find_var:267-270`), or a field access or non-local return of this scope or a nested one marked it. -/
def requires (P : Prog) (s : Nat) : Bool :=
  (P.uses.any fun u => match findVar (chain P.scopes u.1) u.2 0 with
    | some f => (((chain P.scopes u.1).take f.level).map Prod.fst).contains s
    | none => false) ||
  P.marks.any fun t => ((chain P.scopes t).map Prod.fst).contains s

/-- The flags of the arguments (with the receiver) and of the locals of a scope. -/
def argFlags (P : Prog) (s : Nat) (S : Scope) : List Bool := (List.range S.args.length).map (captured P s true)
def localFlags (P : Prog) (s : Nat) (S : Scope) : List Bool := (List.range S.locals.length).map (captured P s false)

/-- `prepare_frame` for a scope. -/
def layoutOf (P : Prog) (s : Nat) (S : Scope) : Except Err Layout := prepareFrame (argFlags P s S) (localFlags P s S) (requires P s)

/-! ## Run time -/

/-- Objects: a block has its method (scope) and `_outer`, the address of a context or `None`. -/
inductive Val where
  | obj (n : Nat)
  | block (scope : Nat) (outer : Option Nat)
  deriving DecidableEq, Repr

def nilV : Val := .obj 0
def trueV : Val := .obj 1

/-- An activation.  The context, if there is one, has the position of its activation as address, so that the frames'
`inner` lists are the heap. -/
structure Act where
  scope : Nat
  fr : Fr Val
  deriving DecidableEq, Repr

/-- `get_from_outer` (`block_bc.py:28-34`, `block_ast.py:31-34`). -/
def getFromOuter (acts : List Act) (v : Val) (i : Nat) : Except Err Val :=
  match v with
  | .obj _ => .error .attribute
  | .block _ none => .error .assertion
  | .block _ (some a) => match acts[a]? with
    | none => .error .other
    | some act => match act.fr.inner with
      | none => .error .other
      | some l => match l[i]? with
        | none => .error .assertion
        | some w => .ok w

/-- `set_outer` (`block_bc.py:36-40`, `block_ast.py:36-39`). -/
def setOuter (acts : List Act) (v : Val) (i : Nat) (w : Val) : Except Err (List Act) :=
  match v with
  | .obj _ => .error .attribute
  | .block _ none => .error .type
  | .block _ (some a) => match acts[a]? with
    | none => .error .other
    | some act => match act.fr.inner with
      | none => .error .other
      | some l => if i < l.length then .ok (acts.set a { act with fr := { act.fr with inner := some (l.set i w) } }) else .error .assertion

/-- `block.get_from_outer(FRAME_AND_INNER_RCVR_IDX)`, `n` times. -/
def outerTimes (acts : List Act) : Nat → Val → Except Err Val
  | 0, v => .ok v
  | n + 1, v => do outerTimes acts n (← getFromOuter acts v rcvrIdx)

/-- `get_block_at` (`bc/frame.py:179-186`) and `determine_block` (`contextual_node.py:22-28`). -/
def getBlockAt (acts : List Act) (act : Act) (lvl : Nat) : Except Err Val := do
  let b ← pyGet act.fr.slots rcvrIdx
  outerTimes acts (lvl - 1) b

/-- Where a variable is: `is_accessed_out_of_context` and `access_idx`. -/
def place (P : Prog) (f : Found) : Except Err (Bool × Nat) :=
  match P.scopes[f.scope]? with
  | none => .error .other
  | some S => do
    let m ← layoutOf P f.scope S
    let i ← pyGet (if f.isArg then m.argIdx else m.localIdx) f.idx
    return (captured P f.scope f.isArg f.idx, i)

/-- The bytecodes `get_push_bytecode` (67-86) chooses, with their meaning: `push_inner` or `push_frame` (which takes no notice
of the level). -/
def readBc (P : Prog) (acts : List Act) (act : Act) (f : Found) : Except Err Val := do
  let (cap, i) ← place P f
  if cap then
    if f.level = 0 then readVar act.fr true i
    else getFromOuter acts (← getBlockAt acts act f.level) i
  else readVar act.fr false i

/-- `get_pop_bytecode` (88-106).  `a` is the position of the activation. -/
def writeBc (P : Prog) (acts : List Act) (a : Nat) (act : Act) (f : Found) (v : Val) : Except Err (List Act) := do
  let (cap, i) ← place P f
  if cap then
    if f.level = 0 then return acts.set a { act with fr := ← putAt act.fr true i v }
    else setOuter acts (← getBlockAt acts act f.level) i v
  else return acts.set a { act with fr := ← putAt act.fr false i v }

/-- `get_initialized_read_node` (52-61), and for the receiver 130-145. -/
def readAst (P : Prog) (acts : List Act) (act : Act) (f : Found) : Except Err Val :=
  if f.isArg ∧ f.idx = 0 then
    if f.level > 0 then do getFromOuter acts (← getBlockAt acts act f.level) rcvrIdx
    else readVar act.fr false rcvrIdx
  else do
    let (cap, i) ← place P f
    if f.level > 0 then getFromOuter acts (← getBlockAt acts act f.level) i
    else readVar act.fr cap i

/-- `get_initialized_write_node` (63-71); the receiver cannot be written. -/
def writeAst (P : Prog) (acts : List Act) (a : Nat) (act : Act) (f : Found) (v : Val) : Except Err (List Act) := do
  let (cap, i) ← place P f
  if f.level > 0 then setOuter acts (← getBlockAt acts act f.level) i v
  else return acts.set a { act with fr := ← putAt act.fr cap i v }

/-- `push_block` / `push_block_no_ctx` (`bytecode_generator.py` `emit_push_block`, `interpreter.py:209-228`), `BlockNode` and
`BlockNodeWithContext`: the block of scope `t` is created in activation `a`. -/
def mkBlock (P : Prog) (a : Nat) (act : Act) (t : Nat) : Val :=
  if requires P t then .block t (if act.fr.inner.isSome then some a else none) else .block t none

end PySOM.Scope

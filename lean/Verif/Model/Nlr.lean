import Verif.Model.Base
/-!
# Model of blocks, contexts and non-local returns

* which blocks carry a context and which methods catch returns: `src/som/compiler/method_generation_context.py`;
* the return itself: `src/som/interpreter/bc/interpreter.py:72-85`, `src/som/interpreter/ast/nodes/return_non_local_node.py`,
  `src/som/interpreter/ast/nodes/contextual_node.py`, `src/som/interpreter/bc/frame.py:176-200`;
* catching it: `src/som/vmobjects/method_bc.py:200-211`, `644-700`, `CatchNonLocalReturnNode`, `interpreter/control_flow.py`;
* blocks: `src/som/vmobjects/block_bc.py`, `block_ast.py`; frames: `interpreter/ast/frame.py:76-92`, `204-212`.

What a program computes between these events is left open: a run is a list of requests, and a request may use any value the
program has seen so far.  Variables, fields and arguments are therefore not modelled here (see `Frame`, `Object`).
-/
set_option autoImplicit false
namespace PySOM.Nlr
open PySOM

/-! ## What the compiler records -/

/-- An assembled method or block.  `lvl` is the operand of its non-local returns (`emit_return_non_local`,
`bytecode_generator.py:44-45`; `ReturnNonLocalNode._context_level`), `blocks` are the blocks it creates.  The flags are those of
its `MethodGenerationContext` at the time of `assemble`: `throws_non_local_return`, `_accesses_variables_of_outer_context`,
`needs_to_catch_non_local_returns`; `captured`: a variable or `self` is accessed from a nested block; `caret`: it contains a
non-local return itself. -/
inductive Code where
  | mk (name lvl : Nat) (throws outerVars captured catches caret : Bool) (blocks : List Code)

namespace Code
def lvl : Code → Nat | .mk _ l _ _ _ _ _ _ => l
def throws : Code → Bool | .mk _ _ t _ _ _ _ _ => t
def catches : Code → Bool | .mk _ _ _ _ _ c _ _ => c
def caret : Code → Bool | .mk _ _ _ _ _ _ c _ => c
def blocks : Code → List Code | .mk _ _ _ _ _ _ _ bs => bs

/-- `requires_context` (`method_generation_context.py:138-139`). -/
def requiresContext : Code → Bool | .mk _ _ t o _ _ _ _ => t || o

/-- `size_inner > 0` after `prepare_frame` (191-198). -/
def hasInner : Code → Bool | .mk _ _ t o cap c _ _ => t || o || cap || c

mutual
/-- `adapt_after_outer_inlined` as far as it concerns the levels of non-local returns (`method_bc.py:505-622`, esp. 594-596 and
the treatment of `push_block`; `return_non_local_node.py:59-65`): blocks created with a context are adapted, too. -/
def lower : Code → Code
  | .mk n l t o cap c car bs => .mk n (l - 1) t o cap c car (lowerAll bs)
/-- The nested blocks. -/
def lowerAll : List Code → List Code
  | [] => []
  | b :: bs => (if b.requiresContext then lower b else b) :: lowerAll bs
end
end Code

/-- The part of a `MethodGenerationContext` that matters here. -/
structure Genc where
  throws : Bool := false
  outerVars : Bool := false
  captured : Bool := false
  catches : Bool := false
  caret : Bool := false
  blocks : List Code := []

/-- `_mark_outer_contexts_to_require_context_and_get_root_context` followed by setting `needs_to_catch_non_local_returns`
(`method_generation_context.py:134-146`): over the surrounding contexts, innermost first. -/
def markOuter : List Genc → List Genc
  | [] => []
  | [root] => [{ root with catches := true }]
  | g :: h :: gs => { g with throws := true } :: markOuter (h :: gs)

/-- `make_catch_non_local_return` (131-136). -/
def makeCatch : List Genc → List Genc
  | [] => []
  | g :: gs => { g with throws := true } :: markOuter gs

/-- Using a variable declared `k` contexts further out: `get_variable`/`find_var` set the flag in each context passed, and the
variable is captured in the last (`ast/method_generation_context.py:78-91`, `bc/method_generation_context.py`). -/
def useOuter : Nat → List Genc → List Genc
  | _, [] => []
  | 0, g :: gs => { g with captured := true } :: gs
  | k + 1, g :: gs => { g with outerVars := true } :: useOuter k gs

/-- What the parser comes across: the beginning of a block, `^ …` (in the innermost context), a variable, the end of a block
that becomes a literal, and the end of a block that is inlined into the surrounding context. -/
inductive Ev where
  | openBlock
  | caret
  | var (k : Nat)
  | closeBlock (name : Nat)
  | inlineBlock
  deriving DecidableEq, Repr

/-- `assemble` of the context `g` at depth `l`. -/
def Genc.assemble (g : Genc) (name l : Nat) : Code := .mk name l g.throws g.outerVars g.captured g.catches g.caret g.blocks

/-- One parser event; contexts innermost first, the method last.  A `^` in the method itself is a local return
(`bc/parser.py:106-114`, `ast/parser.py:89-96`).  Inlining (`method_bc.py:291-503`, `method_ast.py:168-171`) moves the code of
the block, including its non-local returns, which become local ones in a method (418-424), and adapts the blocks it creates
(the treatment of `push_block`).  Closing more blocks than were opened does nothing. -/
def Genc.step (gs : List Genc) : Ev → List Genc
  | .openBlock => {} :: gs
  | .caret =>
    match gs with
    | [] => []
    | [root] => [root]
    | g :: h :: gs => makeCatch ({ g with caret := true } :: h :: gs)
  | .var k => if k < gs.length ∧ 0 < k then useOuter k gs else gs
  | .closeBlock name =>
    match gs with
    | g :: h :: gs => { h with blocks := h.blocks ++ [g.assemble name (gs.length + 1)] } :: gs
    | gs => gs
  | .inlineBlock =>
    match gs with
    | g :: h :: gs =>
      { h with blocks := h.blocks ++ Code.lowerAll g.blocks, caret := h.caret || (g.caret && !gs.isEmpty) } :: gs
    | gs => gs

/-- Compiling a method: all events, then `assemble`. -/
def compile (name : Nat) (evs : List Ev) : Option Code :=
  match evs.foldl Genc.step [{}] with
  | [root] => some (root.assemble name 0)
  | _ => none

/-! ## The machine -/

/-- Object references.  A block has its method and the identity of the context it was created in (`BcBlock`, `AstBlock`); both
are immutable. -/
inductive Val where
  | obj (n : Nat)
  | blk (c : Code) (outer : Option Nat)

/-- A context: its slots 0 (on-stack marker) and 1 (receiver). -/
structure Context where
  on : Bool
  rcvr : Val

/-- A Python activation of `interpret` (or of the body node) inside `invoke_*`.  `tail`: it will answer whatever the send it
waits for answers. -/
structure Frame where
  code : Code
  rcvr : Val
  ctx : Option Nat
  tail : Bool

/-- What a value looks like to the lookup of a message. -/
inductive Seen where
  | obj (n : Nat)
  | blk (c : Code)

def Val.seen : Val → Seen
  | .obj n => .obj n
  | .blk c _ => .blk c

/-- What happened: the activation at this depth of the stack was answered the value with this number in `pool`; `escapedBlock:`
was sent (receiver, argument). -/
inductive Event where
  | answered (depth value : Nat)
  | escaped (rcvr blk : Seen)

/-- `mem` holds the contexts, `stack` the activations (innermost first), `pool` every value seen so far. -/
structure State where
  mem : List Context
  stack : List Frame
  pool : List Val
  nextObj : Nat
  log : List Event

/-- The two interpreters. -/
inductive Engine where
  | ast
  | bc
  deriving DecidableEq, Repr

/-- A request is refused, or a Python exception other than `ReturnException` is raised. -/
inductive Fail where
  | refused
  | raised (e : Err)
  deriving DecidableEq, Repr

/-- `get_from_outer(FRAME_AND_INNER_RCVR_IDX)` (`block_bc.py:30-36`, `block_ast.py:33-36`); other objects have no such method. -/
def getFromOuter (mem : List Context) : Val → Except Fail Val
  | .obj _ => .error (.raised .attribute)
  | .blk _ none => .error (.raised .assertion)
  | .blk _ (some x) => match mem[x]? with
    | none => .error (.raised .assertion)
    | some c => .ok c.rcvr

/-- `k` times `get_from_outer`. -/
def outerN (mem : List Context) : Nat → Val → Except Fail Val
  | 0, v => .ok v
  | k + 1, v => do outerN mem k (← getFromOuter mem v)

/-- `get_block_at` (`bc/frame.py:177-184`), `determine_block` (`contextual_node.py:22-29`). -/
def getBlockAt (mem : List Context) (rcvr : Val) (lvl : Nat) : Except Fail Val :=
  if lvl > 0 then outerN mem (lvl - 1) rcvr else .error (.raised .assertion)

/-- `get_self_dynamically` (`bc/frame.py:187-200`).  The loop is bounded by the number of contexts: every round goes on to an
older one. -/
def selfDynamically (mem : List Context) : Nat → Val → Except Fail Val
  | _, .obj n => .ok (.obj n)
  | 0, .blk _ _ => .error (.raised .other)
  | k + 1, .blk c o => do selfDynamically mem k (← getFromOuter mem (.blk c o))

/-- The receiver of `escapedBlock:`: `get_self_dynamically` or `determine_outer_self` (`contextual_node.py:31-36`). -/
def outerSelf (e : Engine) (mem : List Context) (rcvr : Val) (lvl : Nat) : Except Fail Val :=
  match e with
  | .ast => outerN mem lvl rcvr
  | .bc => selfDynamically mem (mem.length + 1) rcvr

/-- `invoke_*`: a new frame and, if `size_inner > 0`, a new context, marked as being on the stack (`ast/frame.py:76-92`). -/
def activate (c : Code) (rcvr : Val) (s : State) : State :=
  if c.hasInner then
    { s with mem := s.mem ++ [⟨true, rcvr⟩], stack := ⟨c, rcvr, some s.mem.length, false⟩ :: s.stack }
  else { s with stack := ⟨c, rcvr, none, false⟩ :: s.stack }

/-- `mark_as_no_longer_on_stack` (`ast/frame.py:206-208`) by the methods that catch returns (`method_bc.py:205`, `208`; `finally`
in `CatchNonLocalReturnNode`). -/
def leave (f : Frame) (mem : List Context) : Except Fail (List Context) :=
  if f.code.catches then
    match f.ctx with
    | none => .error (.raised .type)
    | some x => match mem[x]? with
      | none => .error (.raised .index)
      | some c => if c.on then .ok (mem.set x { c with on := false }) else .error (.raised .assertion)
  else .ok mem

/-- The innermost activation ends normally.  If its caller only waits to answer the same value it ends, too. -/
def ret (mem : List Context) : List Frame → Except Fail (List Context × List Frame)
  | [] => .error (.raised .index)
  | f :: fs => do
    let mem ← leave f mem
    match fs with
    | [] => .ok (mem, [])
    | g :: gs => if g.tail then ret mem (g :: gs) else .ok (mem, g :: gs)

/-- A `ReturnException` with the target `x` propagates (`method_bc.py:207-211`, `CatchNonLocalReturnNode.execute`): methods that
do not catch are left, the others mark their context and compare it with the target.  `catching` then answers the value as a
normal result. -/
def unwind (x : Nat) (mem : List Context) : List Frame → Except Fail (List Context × List Frame)
  | [] => .error (.raised .other)
  | f :: fs =>
    if f.code.catches then
      if f.ctx = some x then ret mem (f :: fs)
      else do unwind x (← leave f mem) fs
    else unwind x mem fs

/-- What the running activation does next; numbers are positions in `pool`. -/
inductive Req where
  /-- create an object -/
  | new
  /-- create the `i`th block of its code (`push_block`, `push_block_no_ctx`; `BlockNode(WithContext).execute`) -/
  | block (i : Nat)
  /-- invoke the method `m` on a receiver -/
  | send (r : Nat) (m : Code)
  /-- evaluate a block -/
  | value (b : Nat)
  /-- answer a value -/
  | ret (r : Nat)
  /-- `^ v` in a block -/
  | caret (r : Nat)
  /-- `^ v` of a block inlined into its method, AST interpreter (`ReturnLocalNode`) -/
  | exit (r : Nat)

/-- After an activation has ended: note which one goes on and with what. -/
def State.settle (s : State) (r : Nat) (p : List Context × List Frame) : State :=
  { s with mem := p.1, stack := p.2, log := s.log ++ [.answered p.2.length r] }

/-- `_do_return_non_local` (`interpreter.py:73-85`), `ReturnNonLocalNode.execute` (`return_non_local_node.py:41-49`) in the
activation `f`, whose callers are `fs`.  `esc` is the lookup of `escapedBlock:` (`send.py:4-10`, no check for `None`).  A block
without context has no marker: `None[0]` in the AST interpreter, the assertion in `ReturnException` in the other.
In both interpreters the activation ends with the answer of `escapedBlock:`: the bytecode returns it, and the AST node is the
last of its block (not if the block was inlined into another block, which is not modelled here). -/
def doReturnNonLocal (e : Engine) (esc : Seen → Option Code) (f : Frame) (fs : List Frame) (r : Nat) (s : State) :
    Except Fail State := do
  let block ← getBlockAt s.mem f.rcvr f.code.lvl
  match block with
  | .obj _ => .error (.raised .attribute)
  | .blk _ none => .error (.raised .type)
  | .blk _ (some x) =>
    match s.mem[x]? with
    | none => .error (.raised .index)
    | some c =>
      if c.on then
        let p ← unwind x s.mem (f :: fs)
        .ok (s.settle r p)
      else
        let self ← outerSelf e s.mem f.rcvr f.code.lvl
        match esc self.seen with
        | none => .error (.raised .attribute)
        | some m =>
          .ok (activate m self { s with
            stack := { f with tail := true } :: fs
            pool := s.pool ++ [self]
            log := s.log ++ [.escaped self.seen f.rcvr.seen] })

/-- One request.  Requests that make no sense (values not seen yet, `^` in code without `^`) are `.refused`. -/
def step (e : Engine) (esc : Seen → Option Code) (s : State) (q : Req) : Except Fail State :=
  match s.stack with
  | [] => .error .refused
  | f :: fs =>
    match q with
    | .new => .ok { s with pool := s.pool ++ [.obj s.nextObj], nextObj := s.nextObj + 1 }
    | .block i => match f.code.blocks[i]? with
      | none => .error .refused
      | some c => .ok { s with pool := s.pool ++ [.blk c (if c.requiresContext then f.ctx else none)] }
    | .send r m => match s.pool[r]? with
      | none => .error .refused
      | some v => .ok (activate m v s)
    | .value b => match s.pool[b]? with
      | some (.blk c o) => .ok (activate c (.blk c o) s)
      | _ => .error .refused
    | .ret r => match s.pool[r]? with
      | none => .error .refused
      | some _ => do
        let p ← ret s.mem (f :: fs)
        .ok (s.settle r p)
    | .caret r => match s.pool[r]? with
      | none => .error .refused
      | some _ => if f.code.caret then doReturnNonLocal e esc f fs r s else .error .refused
    | .exit r => match s.pool[r]? with
      | none => .error .refused
      | some _ =>
        if f.code.catches then
          match f.ctx with
          | none => .error (.raised .type)
          | some x => match s.mem[x]? with
            | none => .error (.raised .index)
            | some c => if c.on then do
                let p ← unwind x s.mem (f :: fs)
                .ok (s.settle r p)
              else .error (.raised .assertion)
        else .error .refused

/-- A run. -/
def run (e : Engine) (esc : Seen → Option Code) : List Req → State → Except Fail State
  | [], s => .ok s
  | q :: qs, s => do run e esc qs (← step e esc s q)

/-- The start: the method `m` is invoked on the object 0. -/
def start (m : Code) : State := activate m (.obj 0) ⟨[], [], [.obj 0], 1, []⟩

end PySOM.Nlr

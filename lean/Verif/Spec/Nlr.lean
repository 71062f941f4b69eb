import Verif.Model.Nlr
/-!
# Non-local return: specification

Every activation has a number of its own.  A block remembers its *home*, the method activation it was lexically created in, and
that method's receiver.  `^ v` in a block looks for the home among the current activations.  There are no contexts, markers, levels or
exceptions here.
-/
set_option autoImplicit false
namespace PySOM.Nlr.Spec
open PySOM.Nlr

/-- Objects, and blocks with their home and the receiver of their home. -/
inductive SVal where
  | obj (n : Nat)
  | blk (c : Code) (home : Nat) (self : SVal)

def SVal.seen : SVal → Seen
  | .obj n => .obj n
  | .blk c _ _ => .blk c

/-- An activation.  A method activation is its own home. -/
structure Act where
  code : Code
  rcvr : SVal
  id : Nat
  home : Nat
  self : SVal
  tail : Bool

structure State where
  stack : List Act
  pool : List SVal
  nextObj : Nat
  nextId : Nat
  log : List Event

/-- Invoke a method. -/
def invoke (m : Code) (rcvr : SVal) (t : State) : State :=
  { t with stack := ⟨m, rcvr, t.nextId, t.nextId, rcvr, false⟩ :: t.stack, nextId := t.nextId + 1 }

/-- Evaluate a block. -/
def evaluate (c : Code) (home : Nat) (self : SVal) (t : State) : State :=
  { t with stack := ⟨c, .blk c home self, t.nextId, home, self, false⟩ :: t.stack, nextId := t.nextId + 1 }

/-- The activations `rest` go on, the first of them with the value number `r`; those only waiting to answer it end as well. -/
def resume (r : Nat) (rest : List Act) (t : State) : State :=
  let rest := rest.dropWhile (·.tail)
  { t with stack := rest, log := t.log ++ [.answered rest.length r] }

/-- The callers of the activation `home`. -/
def callersOf (home : Nat) (stack : List Act) : List Act := (stack.dropWhile (·.id ≠ home)).tail

/-- `^ v` in the block activation `a`, called by `rest`. -/
def caret (esc : Seen → Option Code) (a : Act) (rest : List Act) (r : Nat) (t : State) : Option State :=
  if a.home ∈ t.stack.map (·.id) then some (resume r (callersOf a.home t.stack) t)
  else match esc a.self.seen with
    | none => none
    | some m => some (invoke m a.self { t with
        stack := { a with tail := true } :: rest
        pool := t.pool ++ [a.self]
        log := t.log ++ [.escaped a.self.seen a.rcvr.seen] })

/-- One request; `none`: it makes no sense. -/
def step (esc : Seen → Option Code) (t : State) (q : Req) : Option State :=
  match t.stack with
  | [] => none
  | a :: rest =>
    match q with
    | .new => some { t with pool := t.pool ++ [.obj t.nextObj], nextObj := t.nextObj + 1 }
    | .block i => match a.code.blocks[i]? with
      | none => none
      | some c => some { t with pool := t.pool ++ [.blk c a.home a.self] }
    | .send r m => match t.pool[r]? with
      | none => none
      | some v => some (invoke m v t)
    | .value b => match t.pool[b]? with
      | some (.blk c home self) => some (evaluate c home self t)
      | _ => none
    | .ret r => match t.pool[r]? with
      | none => none
      | some _ => some (resume r rest t)
    | .caret r => match t.pool[r]? with
      | none => none
      | some _ => if a.code.caret then caret esc a rest r t else none
    | .exit r => match t.pool[r]? with
      | none => none
      | some _ => if a.code.catches then some (resume r rest t) else none

def run (esc : Seen → Option Code) : List Req → State → Option State
  | [], t => some t
  | q :: qs, t => (step esc t q).bind (run esc qs)

def start (m : Code) : State := invoke m (.obj 0) ⟨[], [.obj 0], 1, 0, []⟩

/-! ## What can be seen of a state -/

/-- The activations with their code and receiver, all values, and what happened. -/
structure View where
  stack : List (Code × Seen × Bool)
  pool : List Seen
  log : List Event

def State.view (t : State) : View := ⟨t.stack.map fun a => (a.code, a.rcvr.seen, a.tail), t.pool.map (·.seen), t.log⟩

/-! ## Code as the compiler makes it -/

/-- `c` is code at nesting depth `l` (0: a method) with consistent notes: what contains a `^` knows so, its non-local returns go
`l` levels up, and if a nested block contains a `^` at any depth then the surrounding block knows so, too, or the method catches
returns. -/
inductive Ok : Nat → Code → Prop where
  | intro {l : Nat} {c : Code} (lvl : c.throws = true → c.lvl = l) (caret : c.caret = true → c.throws = true ∧ 0 < l)
      (catches : c.catches = true → l = 0)
      (nested : ∀ b ∈ c.blocks, Ok (l + 1) b)
      (knows : ∀ b ∈ c.blocks, b.throws = true → if l = 0 then c.catches = true else c.throws = true) : Ok l c

/-- The methods invoked by a request are methods. -/
def ReqOk : Req → Prop
  | .send _ m => Ok 0 m
  | _ => True

/-- A property of the state and the request holds at each step of a run. -/
def Along (esc : Seen → Option Code) (P : State → Req → Prop) : List Req → State → Prop
  | [], _ => True
  | q :: qs, t => P t q ∧ ∀ t', step esc t q = some t' → Along esc P qs t'

/-- A request does not invoke a method that has to catch returns on a receiver that is itself a block. -/
def NoBlockReceiver (t : State) : Req → Prop
  | .send r m => m.catches = true → ∀ c h self, t.pool[r]? ≠ some (.blk c h self)
  | _ => True

/-- If the request is a `^` in a block, the home of the block is still active. -/
def HomeActive (t : State) : Req → Prop
  | .caret _ => ∀ a, t.stack.head? = some a → a.home ∈ t.stack.map (·.id)
  | _ => True
end PySOM.Nlr.Spec

namespace PySOM.Nlr
def State.view (s : State) : Spec.View := ⟨s.stack.map fun f => (f.code, f.rcvr.seen, f.tail), s.pool.map (·.seen), s.log⟩
end PySOM.Nlr

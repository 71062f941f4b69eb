/-!
# Blocks, inlined and not inlined

An evaluator for programs with blocks in which variables are cells: either every block is created and evaluated as a
block, or the literal blocks of conditionals and loops are inlined, as both compilers do
(`compiler/ast/parser.py:247-333`, `compiler/bc/bytecode_generator.py`).  A variable is known by its declaration; that an
inlined access reaches the same declaration is C32, where frames keep variables is C26–C28.

What inlining changes at run time is when variables come into being: those of an inlined block belong to the frame of the
method or block it is inlined into (`inline_locals`, `compiler/method_generation_context.py:86-98`, `merge_into_scope`
214-218), which is made once, filled with nil (`interpreter/ast/frame.py:76-92`, `interpreter/bc/frame.py`).
-/
set_option autoImplicit false
namespace PySOM.Clo

/-- The declaration of a variable (`_source` of `Variable`, `compiler/symbol.py`, `interpreter/…/variable.py`). -/
abbrev Var := Nat
abbrev Sel := List Char

/-- Values without identity: `nilObject`, `trueObject`, `falseObject`, integers. -/
inductive Atom where
  | nil
  | tru
  | fls
  | int (i : Int)
  deriving DecidableEq, Repr

/-- Messages with one block that are inlined (`compiler/ast/parser.py:352-423`). -/
inductive Inl1 where
  | ifBool (b : Bool)
  | ifNil
  | ifNotNil
  | and
  | or
  deriving DecidableEq, Repr

/-- Messages with two blocks that are inlined. -/
inductive Inl2 where
  | ifElse (b : Bool)
  | ifNil (isIfNil : Bool)
  deriving DecidableEq, Repr

mutual
/-- Expressions.  `blk` is a block that is not inlined; the blocks of `inl1`, `inl2` and `while` are those that may be, with
their local variables. -/
inductive Ex where
  | atom (a : Atom)
  | self
  | var (x : Var)
  | asg (x : Var) (e : Ex)
  | fld (i : Nat)
  | fldW (i : Nat) (e : Ex)
  | blk (args locals : List Var) (body : Ex)
  /-- a new object of a class -/
  | new (c : Nat)
  /-- a message; `sup` is the class where the lookup of a `super` message begins -/
  | send (sup : Option Nat) (sel : Sel) (r : Ex) (as : Exs)
  | inl1 (k : Inl1) (r : Ex) (ls : List Var) (b : Ex)
  | inl2 (k : Inl2) (r : Ex) (ls1 : List Var) (b1 : Ex) (ls2 : List Var) (b2 : Ex)
  | while (w : Bool) (lc : List Var) (c : Ex) (lb : List Var) (b : Ex)
  | seq (e1 e2 : Ex)
  /-- `^ e` -/
  | ret (e : Ex)
inductive Exs where
  | nil
  | cons (e : Ex) (es : Exs)
end

structure Meth where
  args : List Var
  locals : List Var
  body : Ex

/-- Values.  A block has its code, the cells of the variables around it, the `self` around it, and the activation it
returns from (`vmobjects/block_ast.py:15-21`). -/
inductive Value where
  | atom (a : Atom)
  | obj (a : Nat)
  | clo (args locals : List Var) (body : Ex) (env : Var → Option Nat) (self : Value) (home : Nat)

def Value.nil : Value := .atom .nil

/-- A program: methods of classes (lookup is C17), the number of fields, primitives on atoms, and the classes of atoms and
blocks. -/
structure Prog where
  meth : Nat → Sel → Option Meth
  fields : Nat → Nat
  prim : Sel → Atom → List Atom → Option Atom
  atomClass : Atom → Nat
  blockClass : Nat

/-- The cells of all variables, the objects with their classes, the primitives that were called, and the number of
activations so far. -/
structure State where
  cells : List Value
  objs : List (Nat × List Value)
  log : List (Sel × Atom × List Atom)
  act : Nat

inductive Err where
  | unbound
  | notUnderstood
  | arity
  | noBoolean
  | escaped
  | badField
  deriving DecidableEq, Repr

/-- Outcomes: a value, a return from an activation (`ReturnException`), an error, or running out of steps. -/
inductive Out where
  | val (v : Value)
  | ret (home : Nat) (v : Value)
  | err (e : Err)
  | timeout

abbrev Res := Out × State

/-- What an activation knows (`frame`). -/
structure Ctx where
  env : Var → Option Nat
  self : Value
  home : Nat

/-- Evaluating an expression while some activations are on the stack. -/
abbrev Ev := List Nat → Ctx → Ex → State → Res

def andThen (r : Res) (k : Value → State → Res) : Res :=
  match r with
  | (.val v, s) => k v s
  | (.ret h v, s) => (.ret h v, s)
  | (.err e, s) => (.err e, s)
  | (.timeout, s) => (.timeout, s)

mutual
/-- The variables of the blocks that are inlined into the frame of an expression (`inline_locals`). -/
def Ex.hoist : Ex → List Var
  | .atom _ => []
  | .self => []
  | .var _ => []
  | .asg _ e => e.hoist
  | .fld _ => []
  | .fldW _ e => e.hoist
  | .blk _ _ _ => []
  | .new _ => []
  | .send _ _ r as => r.hoist ++ as.hoist
  | .inl1 _ r ls b => r.hoist ++ (ls ++ b.hoist)
  | .inl2 _ r ls1 b1 ls2 b2 => r.hoist ++ ((ls1 ++ b1.hoist) ++ (ls2 ++ b2.hoist))
  | .while _ lc c lb b => (lc ++ c.hoist) ++ (lb ++ b.hoist)
  | .seq e1 e2 => e1.hoist ++ e2.hoist
  | .ret e => e.hoist
def Exs.hoist : Exs → List Var
  | .nil => []
  | .cons e es => e.hoist ++ es.hoist
end

/-- New cells for variables, from `n` on. -/
def bindVars (env : Var → Option Nat) : List Var → Nat → Var → Option Nat
  | [], _ => env
  | x :: xs, n => bindVars (fun y => if y = x then some n else env y) xs (n + 1)

/-- Activating code: a frame with the arguments, and nil for the local variables and, if blocks are inlined, for theirs
(`create_frame_1` to `create_frame_args`, `interpreter/ast/frame.py:76-218`; `vmobjects/method_ast.py:122-166`). -/
def activate (inl : Bool) (ev : Ev) (live : List Nat) (as ls : List Var) (b : Ex) (env : Var → Option Nat) (self : Value) (home : Nat)
    (vs : List Value) (st : State) : Res :=
  if vs.length = as.length then
    ev live ⟨bindVars env (as ++ (ls ++ if inl then b.hoist else [])) st.cells.length, self, home⟩ b
      { st with cells := st.cells ++ (vs ++ List.replicate (ls ++ if inl then b.hoist else []).length .nil) }
  else (.err .arity, st)

/-- Invoking a method: what it answers, if it does not return with `^`, is `self`; a return to this activation ends here
(`CatchNonLocalReturnNode`, `return_non_local_node.py:68-87`). -/
def invoke (inl : Bool) (ev : Ev) (live : List Nat) (m : Meth) (self : Value) (vs : List Value) (st : State) : Res :=
  match activate inl ev (st.act :: live) m.args m.locals m.body (fun _ => none) self st.act vs { st with act := st.act + 1 } with
  | (.val _, s) => (.val self, s)
  | (.ret h v, s) => if h = st.act then (.val v, s) else (.ret h v, s)
  | r => r

/-- `value`, `value:`, `value:with:` (`block_ast.py:7-12`). -/
def valueSel : Nat → Sel
  | 0 => "value".toList
  | 1 => "value:".toList
  | _ => "value:with:".toList

def classOf (P : Prog) (st : State) : Value → Nat
  | .atom a => P.atomClass a
  | .obj a => match st.objs[a]? with
    | some (c, _) => c
    | none => 0
  | .clo .. => P.blockClass

/-- The atoms in a list of values, if there are only atoms. -/
def atoms : List Value → Option (List Atom)
  | [] => some []
  | .atom a :: vs => (atoms vs).map (a :: ·)
  | _ :: _ => none

/-- A message that is not `value` to a block: a method of the class, or a primitive on atoms, which is recorded. -/
def dispatch (P : Prog) (inl : Bool) (ev : Ev) (live : List Nat) (c : Nat) (sel : Sel) (v : Value) (vs : List Value) (st : State) : Res :=
  match P.meth c sel with
  | some m => invoke inl ev live m v vs st
  | none =>
    match v, atoms vs with
    | .atom a, some as =>
      match P.prim sel a as with
      | some r => (.val (.atom r), { st with log := st.log ++ [(sel, a, as)] })
      | none => (.err .notUnderstood, st)
    | _, _ => (.err .notUnderstood, st)

/-- Sending a message (`dispatch.py`; C57 is about which entry point is taken). -/
def sendV (P : Prog) (inl : Bool) (ev : Ev) (live : List Nat) (sup : Option Nat) (sel : Sel) (v : Value) (vs : List Value) (st : State) : Res :=
  match sup, v with
  | none, .clo as ls b env self home =>
    if sel = valueSel vs.length ∧ vs.length ≤ 2 then activate inl ev live as ls b env self home vs st
    else dispatch P inl ev live P.blockClass sel v vs st
  | none, v => dispatch P inl ev live (classOf P st v) sel v vs st
  | some c, v => dispatch P inl ev live c sel v vs st

/-- Arguments from left to right. -/
def evArgs (ev : Ev) (live : List Nat) (ctx : Ctx) : Exs → State → (List Value → State → Res) → Res
  | .nil, st, k => k [] st
  | .cons e es, st, k => andThen (ev live ctx e st) fun v st => evArgs ev live ctx es st fun vs st => k (v :: vs) st

def Value.atom? : Value → Option Atom
  | .atom a => some a
  | _ => none

/-- Whether the block of a message is evaluated, or the value of the message without it (`literal_if.py`,
`literal_and_or.py`; for the library's methods C40). -/
inductive Pick where
  | run
  | skip (v : Value)
  | fail

def Inl1.pick (k : Inl1) (v : Value) : Pick :=
  match k, v.atom? with
  | .ifBool b, some .tru => if b then .run else .skip .nil
  | .ifBool b, some .fls => if b then .skip .nil else .run
  | .ifBool _, _ => .fail
  | .ifNil, some .nil => .run
  | .ifNil, _ => .skip v
  | .ifNotNil, some .nil => .skip .nil
  | .ifNotNil, _ => .run
  | .and, some .tru => .run
  | .and, some .fls => .skip (.atom .fls)
  | .and, _ => .fail
  | .or, some .tru => .skip (.atom .tru)
  | .or, some .fls => .run
  | .or, _ => .fail

/-- Which of two blocks is evaluated: the first (`some true`), the second, or none. -/
def Inl2.pick (k : Inl2) (v : Value) : Option Bool :=
  match k, v.atom? with
  | .ifElse b, some .tru => some b
  | .ifElse b, some .fls => some (!b)
  | .ifElse _, _ => none
  | .ifNil b, some .nil => some b
  | .ifNil b, _ => some (!b)

/-- Evaluating the literal block of a conditional or a loop: inlined, its body in the same frame; not inlined, the block
is created here and evaluated with `value`. -/
def scope (inl : Bool) (ev : Ev) (live : List Nat) (ctx : Ctx) (ls : List Var) (b : Ex) (st : State) : Res :=
  if inl then ev live ctx b st
  else activate false ev live [] ls b ctx.env ctx.self ctx.home [] st

/-- One level of evaluation (the `execute` methods of the nodes). -/
def step (P : Prog) (inl : Bool) (ev : Ev) : Ev := fun live ctx e st =>
  match e with
  | .atom a => (.val (.atom a), st)
  | .self => (.val ctx.self, st)
  | .var x =>
    match ctx.env x with
    | some l => match st.cells[l]? with
      | some v => (.val v, st)
      | none => (.err .unbound, st)
    | none => (.err .unbound, st)
  | .asg x e => andThen (ev live ctx e st) fun v st =>
    match ctx.env x with
    | some l => (.val v, { st with cells := st.cells.set l v })
    | none => (.err .unbound, st)
  | .fld i =>
    match ctx.self with
    | .obj a => match st.objs[a]? with
      | some (_, fs) => match fs[i]? with
        | some v => (.val v, st)
        | none => (.err .badField, st)
      | none => (.err .badField, st)
    | _ => (.err .badField, st)
  | .fldW i e => andThen (ev live ctx e st) fun v st =>
    match ctx.self with
    | .obj a => match st.objs[a]? with
      | some (c, fs) => if i < fs.length then (.val v, { st with objs := st.objs.set a (c, fs.set i v) }) else (.err .badField, st)
      | none => (.err .badField, st)
    | _ => (.err .badField, st)
  | .blk as ls b => (.val (.clo as ls b ctx.env ctx.self ctx.home), st)
  | .new c => (.val (.obj st.objs.length), { st with objs := st.objs ++ [(c, List.replicate (P.fields c) .nil)] })
  | .send sup sel r as => andThen (ev live ctx r st) fun v st => evArgs ev live ctx as st fun vs st => sendV P inl ev live sup sel v vs st
  | .inl1 k r ls b => andThen (ev live ctx r st) fun v st =>
    match k.pick v with
    | .run => scope inl ev live ctx ls b st
    | .skip u => (.val u, st)
    | .fail => (.err .noBoolean, st)
  | .inl2 k r ls1 b1 ls2 b2 => andThen (ev live ctx r st) fun v st =>
    match k.pick v with
    | some true => scope inl ev live ctx ls1 b1 st
    | some false => scope inl ev live ctx ls2 b2 st
    | none => (.err .noBoolean, st)
  | .while w lc c lb b => andThen (scope inl ev live ctx lc c st) fun v st =>
    if v.atom? = some (if w then .tru else .fls) then
      andThen (scope inl ev live ctx lb b st) fun _ st => ev live ctx (.while w lc c lb b) st
    else if v.atom? = some (if w then .fls else .tru) then (.val .nil, st)
    else (.err .noBoolean, st)
  | .seq e1 e2 => andThen (ev live ctx e1 st) fun _ st => ev live ctx e2 st
  | .ret e => andThen (ev live ctx e st) fun v st => if ctx.home ∈ live then (.ret ctx.home v, st) else (.err .escaped, st)

/-- Evaluation with at most `n` levels.  An escaped `^` is an error here: the code sends `escapedBlock:` (C36). -/
def eval (P : Prog) (inl : Bool) : Nat → Ev
  | 0 => fun _ _ _ st => (.timeout, st)
  | n + 1 => step P inl (eval P inl n)

/-- Running a method of the program. -/
def run (P : Prog) (inl : Bool) (n : Nat) (m : Meth) (self : Value) (vs : List Value) (st : State) : Res :=
  invoke inl (eval P inl n) [] m self vs st

end PySOM.Clo

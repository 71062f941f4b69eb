import Verif.Model.ParserClass
import Verif.Model.Program
/-!
# From trees to methods: names

Model of what the bytecode parser does with names and literals while it emits code: `src/som/compiler/bc/parser.py` (`_primary`, `_gen_push_variable`, `_gen_pop_variable`,
`_literal`, `_result`, `_try_inc_or_dec_bytecodes`), `find_var` (`compiler/bc/method_generation_context.py:258-271`), `add_argument` and `add_local`
(`compiler/method_generation_context.py:58-93`), `has_field` and `get_field_index` (`compiler/class_generation_context.py:72-82`).  The trees are those of `Model/Parser`, the result is a method with
resolved names as in `Model/Program`, which is then compiled.

Variables and blocks, and literals that are objects, get numbers in the order in which the parser meets them.

A tree does not tell everything about the text: `e + (1)` has the tree of `e + 1`, `^ (self)` that of `^ self`, and `a. b.` that of `a. b`.  The code differs.  What it was is a
sequence of bits, so that the model has all possibilities; what is proved holds for all bits.
-/
set_option autoImplicit false
namespace PySOM.Elab
open PySOM PySOM.Parse PySOM.BC

/-- The next number of a variable or block, the next number of an object, and the bits. -/
structure St where
  next : Nat
  objs : Nat
  bits : List Bool

/-- The next bit. -/
def St.choose (s : St) : Bool × St :=
  match s.bits with
  | [] => (false, s)
  | b :: bs => (b, { s with bits := bs })

/-- A new object. -/
def St.fresh (s : St) : Nat × St := (s.objs, { s with objs := s.objs + 1 })

/-- `_arguments` and `_locals` of a `MethodGenerationContext`: names in the order of their indices, with the numbers of the variables.  The variables of inlined blocks, which are added to
`_locals` while the parser goes on, are left out: they come last, and their names are qualified (`get_qualified_name`, `compiler/ast/variable.py`), see `C62_inlined_names`. -/
structure NScope where
  args : List (Name × Nat)
  locals : List (Name × Nat)

/-- The index of a name. -/
def indexOf (xs : List (Name × Nat)) (x : Name) : Option Nat := xs.findIdx? fun p => p.1 = x

/-- `find_var` (`bc/method_generation_context.py:258-271`): whether it is an argument, the index and the level. -/
def findVar : List NScope → Name → Nat → Option (Bool × Nat × Nat)
  | [], _, _ => none
  | s :: rest, x, lvl =>
    match indexOf s.locals x with
    | some i => some (false, i, lvl)
    | none =>
      match indexOf s.args x with
      | some i => some (true, i, lvl)
      | none => findVar rest x (lvl + 1)

/-- What a name is looked up in: the contexts from the inside out, and the fields of the class, the inherited ones first. -/
structure Ctx where
  scopes : List NScope
  fields : List Name

/-- `_gen_push_variable` (`bc/parser.py:419-442`). -/
def pushVariable (Γ : Ctx) (x : Name) : Ex SBlock :=
  match findVar Γ.scopes x 0 with
  | some (a, i, l) => .var a i l
  | none =>
    match Γ.fields.idxOf? x with
    | some i => .fld x i
    | none => .glob x

/-- `_gen_pop_variable` (444-461).  A name that is not known is taken for a field, and `get_field_index` raises a `ValueError`. -/
def popVariable (Γ : Ctx) (x : Name) : Except Err Tgt :=
  match findVar Γ.scopes x 0 with
  | some (a, i, l) => .ok (.var x a i l)
  | none =>
    match Γ.fields.idxOf? x with
    | some i => .ok (.fld x i)
    | none => .error .value

/-- `for assignment in assignments: self._gen_pop_variable(mgenc, assignment)` (127-128). -/
def popVariables (Γ : Ctx) : List Name → Except Err (List Tgt)
  | [] => .ok []
  | x :: xs => do
    let t ← popVariable Γ x
    .ok (t :: (← popVariables Γ xs))

/-- `string_to_int` and `float` (`parser.py:289-327`): what they make of the text.  `none` is an integer that does not fit, which becomes a `BigInteger`. -/
structure Numbers where
  int : Name → Except Err (Option Int)
  dbl : Name → Except Err Unit

mutual
/-- `_literal` (`bc/parser.py:339-400`) with `_literal_integer` and `_literal_double` (`parser.py:289-327`).  Strings, doubles and large integers are new objects. -/
def literal (N : Numbers) (s : St) : Parse.Lit → Except Err (LitT × St)
  | .int neg text => do
    match ← N.int text with
    | some i => .ok (.val (.int (if neg then 0 - i else i)), s)
    | none => .ok (.val (.obj s.fresh.1), s.fresh.2)
  | .dbl _ text => do
    N.dbl text
    .ok (.val (.obj s.fresh.1), s.fresh.2)
  | .str _ => .ok (.val (.obj s.fresh.1), s.fresh.2)
  | .sym text => .ok (.val (.sym text), s)
  | .arr es => do
    let (es, s) ← literals N s es
    .ok (.arr es, s)
/-- The elements of a literal array. -/
def literals (N : Numbers) (s : St) : List Parse.Lit → Except Err (LitTs × St)
  | [] => .ok (.nil, s)
  | e :: es => do
    let (e, s) ← literal N s e
    let (es, s) ← literals N s es
    .ok (.cons e es, s)
end

def blockSelf : Name := "$blockSelf".toList

/-- `add_argument` (`method_generation_context.py:55-71`) for the names after the first argument; `seen` are the names so far. -/
def addArguments (seen : List Name) : List Name → Except Err Unit
  | [] => .ok ()
  | x :: xs =>
    if x ∈ seen then .error .parse
    else if x = selfName ∨ x = blockSelf then .error .other
    else addArguments (seen ++ [x]) xs

/-- `add_local` (73-84). -/
def addLocals (seen : List Name) : List Name → Except Err Unit
  | [] => .ok ()
  | x :: xs => if x ∈ seen then .error .parse else addLocals (seen ++ [x]) xs

/-- A new context with the first argument, the other arguments and the local variables, which get the numbers from `n` on. -/
def newScope (n : Nat) (first : Name) (params locals : List Name) : Except Err NScope := do
  addArguments [first] params
  addLocals [] locals
  .ok ⟨(first :: params).zipIdx n, locals.zipIdx (n + (params.length + 1))⟩

/-- The integer literal that is written `1`. -/
def isOne : List Tree → Bool
  | [.lit (.int false t)] => decide (t = ['1'])
  | _ => false

/-- The variable `self`. -/
def isSelf : Tree → Bool
  | .var x => decide (x = selfName)
  | _ => false

mutual
/-- `_expression` and what it calls (`bc/parser.py:118-337`). -/
def expr (N : Numbers) (Γ : Ctx) (s : St) : Tree → Except Err (Ex SBlock × St)
  | .var x => .ok (pushVariable Γ x, s)
  | .lit l => do
    let (l, s) ← literal N s l
    .ok (.lit l, s)
  | .send sup sel r as => do
    let (r, s) ← expr N Γ s r
    -- `_try_inc_or_dec_bytecodes` (216-226)
    if sup = false ∧ (sel = ['+'] ∨ sel = ['-']) ∧ isOne as = true ∧ s.choose.1 = true then
      .ok (if sel = ['+'] then .inc r else .dec r, s.choose.2)
    else do
      let (as, s) ← args N Γ s.choose.2 as
      .ok (if sup then .superSend sel r as else .send sel r as, s)
  | .assign xs v => do
    let (v, s) ← expr N Γ s v
    match ← popVariables Γ xs with
    | [] => .ok (v, s)
    | t :: ts => .ok (.asg t ts v, s)
  | .block ps ls ts ex => do
    -- `_primary` (169-174), `nested_block` (402-417)
    let S ← newScope (s.next + 1) blockSelf ps ls
    let (b, s') ← body N true { Γ with scopes := S :: Γ.scopes } { s with next := s.next + 1 + (ps.length + 1) + ls.length } ex ts
    .ok (.blk false (.mk s.next (S.args.map Prod.snd) (S.locals.map Prod.snd) b), s')
/-- Arguments of messages, from left to right. -/
def args (N : Numbers) (Γ : Ctx) (s : St) : List Tree → Except Err (Exs SBlock × St)
  | [] => .ok (.nil, s)
  | a :: as => do
    let (a, s) ← expr N Γ s a
    let (as, s) ← args N Γ s as
    .ok (.cons a as, s)
/-- `_block_body` with `_result` (60-116).  `ex` says whether the last statement is `^ …`. -/
def body (N : Numbers) (isBlock : Bool) (Γ : Ctx) (s : St) (ex : Bool) : List Tree → Except Err (Body SBlock × St)
  | [] => .ok (.done, s)
  | t :: ts =>
    if ts.isEmpty = true ∧ ex = true then
      if isBlock = false ∧ isSelf t = true ∧ s.choose.1 = true then .ok (.exitSelf, s.choose.2)
      else do
        let (e, s) ← expr N Γ s.choose.2 t
        .ok (.exit e, s)
    else do
      let (e, s) ← expr N Γ s t
      if ts.isEmpty = true ∧ s.choose.1 = true then .ok (.last e, s.choose.2)
      else do
        let (b, s) ← body N isBlock Γ s.choose.2 ex ts
        .ok (.stmt e b, s)
end

/-- A method (`parser.py:361-380`, `bc/parser.py:45-58`) that is not a primitive; `fields` are the fields of the class. -/
def method (N : Numbers) (fields : List Name) (bits : List Bool) (params locals : List Name) (ts : List Tree) (ex : Bool) : Except Err SMethod := do
  let S ← newScope 0 selfName params locals
  let (b, _) ← body N false ⟨[S], fields⟩ ⟨params.length + 1 + locals.length, 0, bits⟩ ex ts
  .ok ⟨S.args.map fun p => some p.2, S.locals.map Prod.snd, b⟩

/-- The same with numbers from `n` on, for programs of several methods; objects get the numbers from `o` on. -/
def methodAt (N : Numbers) (fields : List Name) (n o : Nat) (bits : List Bool) (params locals : List Name) (ts : List Tree) (ex : Bool) : Except Err (SMethod × St) := do
  let S ← newScope n selfName params locals
  let (b, s) ← body N false ⟨[S], fields⟩ ⟨n + (params.length + 1) + locals.length, o, bits⟩ ex ts
  .ok (⟨S.args.map fun p => some p.2, S.locals.map Prod.snd, b⟩, s)

end PySOM.Elab

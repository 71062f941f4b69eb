import Verif.Model.Elab
/-!
# From trees to methods: names, in the AST parser

Model of what the AST parser does with names and literals: `src/som/compiler/ast/parser.py` (`_primary`, `_variable_read`, `_variable_write`, `_assignments`, `_block_body`, `_result`,
`_get_object_for_current_literal`) and `src/som/compiler/ast/method_generation_context.py` (`get_variable`, `get_context_level`, `get_self_read`, `get_object_field_read`,
`get_object_field_write`).  The trees are those of `Model/Parser`; the result is a method with resolved names, from which `Model/Ast` makes the nodes.

The bits are those of `Model/Elab`: what the text was.  The nodes do not depend on them (`Ex.ast` makes the same of `e + 1` and of `e + (1)`), so that the result can be compared with that of the bytecode
parser.
-/
set_option autoImplicit false
namespace PySOM.Elab.Ast
open PySOM PySOM.Parse PySOM.BC

/-- `get_variable` (`ast/method_generation_context.py:76-88`): whether it is an argument, and its index in its context. -/
def getVariable : List NScope → Name → Option (Bool × Nat)
  | [], _ => none
  | s :: rest, x =>
    match indexOf s.locals x with
    | some i => some (false, i)
    | none =>
      match indexOf s.args x with
      | some i => some (true, i)
      | none => getVariable rest x

/-- `get_context_level` (70-74). -/
def getContextLevel : List NScope → Name → Except Err Nat
  | [], _ => .error .assertion
  | s :: rest, x =>
    if (indexOf s.locals x).isSome ∨ (indexOf s.args x).isSome then .ok 0
    else do .ok (1 + (← getContextLevel rest x))

/-- `get_self_read` (101-102): the variable, its index and its level.  Without a variable `self`, `get_read_node` is called on `None`. -/
def getSelfRead (Γ : Ctx) : Except Err (Bool × Nat × Nat) :=
  match getVariable Γ.scopes selfName with
  | some (a, i) => do .ok (a, i, ← getContextLevel Γ.scopes selfName)
  | none => .error .attribute

/-- A field of the receiver (`get_object_field_read`, `get_object_field_write`, 104-117).  The nodes of `Model/Ast` take it from the first argument of the method; a node that takes it from another variable called `self` is not modelled, and `.error .other` stands for it. -/
def fieldOf (Γ : Ctx) : Except Err Unit := do
  let (a, i, l) ← getSelfRead Γ
  if a = true ∧ i = 0 ∧ l + 1 = Γ.scopes.length then .ok () else .error .other

/-- `_variable_read` (`ast/parser.py:516-529`). -/
def variableRead (Γ : Ctx) (x : Name) : Except Err (Ex SBlock) :=
  match getVariable Γ.scopes x with
  | some (a, i) => do .ok (.var a i (← getContextLevel Γ.scopes x))
  | none =>
    match Γ.fields.idxOf? x with
    | some i => do
      fieldOf Γ
      .ok (.fld x i)
    | none => .ok (.glob x)

/-- `_variable_write` (531-556).  That `self` and `super` are not assigned to is in `Model/Parser`.  Without a variable or field of this name there is a `RuntimeError`. -/
def variableWrite (Γ : Ctx) (x : Name) : Except Err Tgt :=
  match getVariable Γ.scopes x with
  | some (a, i) => do .ok (.var x a i (← getContextLevel Γ.scopes x))
  | none =>
    match Γ.fields.idxOf? x with
    | some i => do
      fieldOf Γ
      .ok (.fld x i)
    | none => .error .other

/-- `_assignments` (101-121): the write nodes are made from the last one on. -/
def variableWrites (Γ : Ctx) : List Name → Except Err (List Tgt)
  | [] => .ok []
  | x :: xs => do
    let ts ← variableWrites Γ xs
    .ok ((← variableWrite Γ x) :: ts)

mutual
/-- `_get_object_for_current_literal` (473-507). -/
def literal (N : Numbers) (s : St) : Parse.Lit → Except Err (LitT × St)
  | .int neg text => do
    match ← N.int text with
    | some i => .ok (.val (.int (if neg then 0 - i else i)), s)
    | none => .ok (.val (.obj s.fresh.1), s.fresh.2)
  | .dbl _ text => do
    N.dbl text
    .ok (.val (.obj s.fresh.1), s.fresh.2)
  | .str _ => .ok (.val (.obj s.fresh.1), s.fresh.2)
  | .sym text => .ok (.val (.sym text), s)
  | .arr es => do
    let (es, s) ← literals N s es
    .ok (.arr es, s)
/-- `_literal_array` (500-507). -/
def literals (N : Numbers) (s : St) : List Parse.Lit → Except Err (LitTs × St)
  | [] => .ok (.nil, s)
  | e :: es => do
    let (e, s) ← literal N s e
    let (es, s) ← literals N s es
    .ok (.cons e es, s)
end

mutual
/-- `_expression` and what it calls (98-471). -/
def expr (N : Numbers) (Γ : Ctx) (s : St) : Tree → Except Err (Ex SBlock × St)
  | .var x => do .ok (← variableRead Γ x, s)
  | .lit l => do
    let (l, s) ← literal N s l
    .ok (.lit l, s)
  | .send sup sel r as => do
    let (r, s) ← expr N Γ s r
    if sup = false ∧ (sel = ['+'] ∨ sel = ['-']) ∧ isOne as = true ∧ s.choose.1 = true then
      .ok (if sel = ['+'] then .inc r else .dec r, s.choose.2)
    else do
      let (as, s) ← args N Γ s.choose.2 as
      .ok (if sup then .superSend sel r as else .send sel r as, s)
  | .assign xs v => do
    let (v, s) ← expr N Γ s v
    match ← variableWrites Γ xs with
    | [] => .ok (v, s)
    | t :: ts => .ok (.asg t ts v, s)
  | .block ps ls ts ex => do
    -- `_primary` (155-167), `nested_block` (509-513)
    let S ← newScope (s.next + 1) blockSelf ps ls
    let (b, s') ← body N true { Γ with scopes := S :: Γ.scopes } { s with next := s.next + 1 + (ps.length + 1) + ls.length } ex ts
    .ok (.blk false (.mk s.next (S.args.map Prod.snd) (S.locals.map Prod.snd) b), s')
/-- Arguments of messages, from left to right. -/
def args (N : Numbers) (Γ : Ctx) (s : St) : List Tree → Except Err (Exs SBlock × St)
  | [] => .ok (.nil, s)
  | a :: as => do
    let (a, s) ← expr N Γ s a
    let (as, s) ← args N Γ s as
    .ok (.cons a as, s)
/-- `_block_body` with `_result` (52-96).  At the end of a method `self` is read as any other variable; the nodes of `Model/Ast` read the receiver, and `fieldOf` says that it is the same. -/
def body (N : Numbers) (isBlock : Bool) (Γ : Ctx) (s : St) (ex : Bool) : List Tree → Except Err (Body SBlock × St)
  | [] => do
    if isBlock = false then fieldOf Γ
    .ok (.done, s)
  | t :: ts =>
    if ts.isEmpty = true ∧ ex = true then
      if isBlock = false ∧ isSelf t = true ∧ s.choose.1 = true then do
        fieldOf Γ
        .ok (.exitSelf, s.choose.2)
      else do
        let (e, s) ← expr N Γ s.choose.2 t
        .ok (.exit e, s)
    else do
      let (e, s) ← expr N Γ s t
      if ts.isEmpty = true ∧ s.choose.1 = true then do
        if isBlock = false then fieldOf Γ
        .ok (.last e, s.choose.2)
      else do
        let (b, s) ← body N isBlock Γ s.choose.2 ex ts
        .ok (.stmt e b, s)
end

/-- A method (`parser.py:361-380`, `ast/parser.py:46-50`) that is not a primitive; `fields` are the fields of the class.  Variables and blocks get the numbers from `n` on, objects those from `o` on. -/
def methodAt (N : Numbers) (fields : List Name) (n o : Nat) (bits : List Bool) (params locals : List Name) (ts : List Tree) (ex : Bool) : Except Err (SMethod × St) := do
  let S ← newScope n selfName params locals
  let (b, s) ← body N false ⟨[S], fields⟩ ⟨n + (params.length + 1) + locals.length, o, bits⟩ ex ts
  .ok (⟨S.args.map fun p => some p.2, S.locals.map Prod.snd, b⟩, s)

end PySOM.Elab.Ast

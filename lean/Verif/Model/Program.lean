import Verif.Spec.Compiled
/-!
# Methods with their blocks

Model of how the bytecode compiler puts together a method from its source: the blocks are compiled where they stand, before the code around them
(`compiler/bc/parser.py:169-174`), with or without a context, and then used as literals or inlined.
-/
set_option autoImplicit false
namespace PySOM.BC
open PySOM

/-- A block of the source: its identity, its arguments (the first is the block itself), its local variables, and its body, which contains such blocks.  Names have been resolved;
the flag of a block inside the body has no meaning in the source. -/
inductive SBlock where
  | mk (id : Nat) (args env : List Nat) (body : Body SBlock)

/-- A method of the source. -/
structure SMethod where
  args : List (Option Nat)
  env : List Nat
  body : Body SBlock

/-! ## `requires_context` (`compiler/method_generation_context.py:126-148`)

`find_var` (`compiler/bc/method_generation_context.py:258-271`) marks all blocks between the access of a variable and the context that declares it;
`mark_self_as_accessed_from_outer_context` is called for fields (`compiler/bc/parser.py:439`, `460`) and unknown globals (`bytecode_generator.py:106-109`), and
`make_catch_non_local_return` for `^` in a block; they mark all blocks around. -/

/-- `is_global_known` (118-124) is false and `emit_push_global` marks the block. -/
def unknownGlobal (known : Sel → Bool) (n : Sel) : Bool := !(n = symNil || n = symTrue || n = symFalse || known n)

/-- The target is outside of `d` blocks. -/
def Tgt.outside (d : Nat) : Tgt → Bool
  | .var _ _ _ l => decide (d < l)
  | .fld _ _ => true

/-- The literal is an array, which is made with the global `Array`. -/
def LitT.outside (known : Sel → Bool) : LitT → Bool
  | .val _ => false
  | .arr _ => unknownGlobal known symArray

mutual
/-- An expression inside `d` blocks of a block marks that block. -/
def Ex.outside (known : Sel → Bool) (d : Nat) : Ex SBlock → Bool
  | .lit l => l.outside known
  | .glob n => unknownGlobal known n
  | .var _ _ l => decide (d < l)
  | .fld _ _ => true
  | .blk _ s => s.outside known d
  | .asg t ts e => e.outside known d || t.outside d || ts.any (Tgt.outside d)
  | .inc e => e.outside known d
  | .dec e => e.outside known d
  | .send _ r as => r.outside known d || as.outside known d
  | .superSend _ r as => r.outside known d || as.outside known d
def Exs.outside (known : Sel → Bool) (d : Nat) : Exs SBlock → Bool
  | .nil => false
  | .cons e es => e.outside known d || es.outside known d
def Body.outside (known : Sel → Bool) (d : Nat) : Body SBlock → Bool
  | .done => false
  | .last e => e.outside known d
  | .stmt e rest => e.outside known d || rest.outside known d
  | .exit _ => true
  | .exitSelf => true
def SBlock.outside (known : Sel → Bool) (d : Nat) : SBlock → Bool
  | .mk _ _ _ b => b.outside known (d + 1)
end

/-- `requires_context` for a block. -/
def SBlock.requiresContext (known : Sel → Bool) : SBlock → Bool
  | .mk _ _ _ b => b.outside known 0

mutual
/-- Compile the blocks of an expression in a context at level `lvl`. -/
def Ex.build (known : Sel → Bool) (n lvl : Nat) : Ex SBlock → Except Err (Ex Meth)
  | .lit l => .ok (.lit l)
  | .glob s => .ok (.glob s)
  | .var a i l => .ok (.var a i l)
  | .fld s i => .ok (.fld s i)
  | .blk _ s => do .ok (.blk (s.requiresContext known) (← s.compile known n lvl))
  | .asg t ts e => do .ok (.asg t ts (← e.build known n lvl))
  | .inc e => do .ok (.inc (← e.build known n lvl))
  | .dec e => do .ok (.dec (← e.build known n lvl))
  | .send sel r as => do
    let r ← r.build known n lvl
    .ok (.send sel r (← as.build known n lvl))
  | .superSend sel r as => do
    let r ← r.build known n lvl
    .ok (.superSend sel r (← as.build known n lvl))
def Exs.build (known : Sel → Bool) (n lvl : Nat) : Exs SBlock → Except Err (Exs Meth)
  | .nil => .ok .nil
  | .cons e es => do
    let e ← e.build known n lvl
    .ok (.cons e (← es.build known n lvl))
def Body.build (known : Sel → Bool) (n lvl : Nat) : Body SBlock → Except Err (Body Meth)
  | .done => .ok .done
  | .last e => do .ok (.last (← e.build known n lvl))
  | .stmt e rest => do
    let e ← e.build known n lvl
    .ok (.stmt e (← rest.build known n lvl))
  | .exit e => do .ok (.exit (← e.build known n lvl))
  | .exitSelf => .ok .exitSelf
/-- `nested_block` and `assemble` for a block in a context at level `lvl` (`compiler/bc/parser.py:169-174`). -/
def SBlock.compile (known : Sel → Bool) (n lvl : Nat) : SBlock → Except Err Meth
  | .mk id args env b => do
    let b ← b.build known n (lvl + 1)
    compileBlock n lvl id args env b
end

/-- A method (`compiler/bc/parser.py:37-68`), before `assemble`.  `n` bounds the depth of nesting of blocks in inlined blocks. -/
def SMethod.compile (known : Sel → Bool) (n : Nat) (s : SMethod) : Except Err (G Meth (List Nat)) := do
  let b ← s.body.build known n 0
  BC.compile (inlineMeth n) false 0 s.env b

end PySOM.BC

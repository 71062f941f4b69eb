import Verif.Spec.Inline
import Verif.Model.Trivial
/-!
# Compiled blocks

Which methods the compiler produces for the blocks of a source, level by level.
-/
set_option autoImplicit false
namespace PySOM.BC
open PySOM

/-- How blocks are inlined; `n` bounds the depth of nesting of blocks in the inlined ones. -/
def inliner (n : Nat) : Inliner Meth (List Nat) := ⟨inlineMeth n, inlCode n, inlEnv, Good⟩

/-- `nested_block` (`compiler/bc/parser.py:402-417`) and `assemble` (`compiler/bc/method_generation_context.py:133-180`) for a block in a context at level `lvl`.
`env` are the local variables the block declares, `args` its arguments. -/
def compileBlock (n lvl id : Nat) (args env : List Nat) (b : Body Meth) : Except Err Meth := do
  let g ← compile (inlineMeth n) true (lvl + 1) env b
  match ← assembleTrivial true g with
  | some t => .ok (.triv id t)
  | none => do
    let C ← assemble g
    .ok (.bc id C.lits C.bytes g.loops args g.env C.max (genBody (inliner n) true (lvl + 1) b (false, env)))

section
variable {M : Type}
mutual
/-- The blocks of an expression, and whether they need a context. -/
def Ex.blks : Ex M → List (Bool × M)
  | .blk c m => [(c, m)]
  | .asg _ _ e => e.blks
  | .inc e => e.blks
  | .dec e => e.blks
  | .send _ r as => r.blks ++ as.blks
  | .superSend _ r as => r.blks ++ as.blks
  | _ => []
def Exs.blks : Exs M → List (Bool × M)
  | .nil => []
  | .cons e es => e.blks ++ es.blks
end

def Body.blks : Body M → List (Bool × M)
  | .done => []
  | .last e => e.blks
  | .stmt e rest => e.blks ++ rest.blks
  | .exit e => e.blks
  | .exitSelf => []
end

/-- The identities of blocks and of those in them. -/
def idsOf (bs : List (Bool × Meth)) : List Nat := bs.flatMap fun p => p.2.ids

/-- No instruction of the block or of a block in it refers to the level: it does not read fields and does not return from a method. -/
inductive Closed : Meth → Prop where
  | bc (id : Nat) (lits : List (Lit Meth)) (bytes : List Nat) (loops : List (Nat × Nat)) (args locals : List Nat) (stack : Nat) (code : SC Meth)
      (fld : ∀ i l, Ins.pushFld i l ∉ code.instrs) (ret : ∀ l, Ins.retNonLocal l ∉ code.instrs)
      (inner : ∀ m, Ins.pushBlock true m ∈ code.instrs → Closed m) :
      Closed (.bc id lits bytes loops args locals stack code)
  | triv (id : Nat) (t : Triv Meth) (ok : ∀ i l, t ≠ .fldRead i l) : Closed (.triv id t)

/-- `m` is what the compiler produces for a block in a context at level `lvl`: the blocks in it have been compiled one level further in, and those that are
pushed without context do not need one.  Every block of the source has an identity of its own. -/
inductive Compiled (n : Nat) : Nat → Meth → Prop where
  | mk (lvl id : Nat) (args env : List Nat) (b : Body Meth) (m : Meth) (wf : b.wf fun _ => True) (fits : b.fits true) (ids : (idsOf b.blks).Nodup)
      (inner : ∀ c m', (c, m') ∈ b.blks → Compiled n (lvl + 1) m') (closed : ∀ m', (false, m') ∈ b.blks → Closed m')
      (h : compileBlock n lvl id args env b = .ok m) : Compiled n lvl m

/-- The source of a method: a body whose blocks are compiled blocks.  What a body of a block at level `lvl` has to be like is the same. -/
structure Sourced (n lvl : Nat) (isBlock : Bool) (b : Body Meth) : Prop where
  wf : b.wf fun _ => True
  fits : b.fits isBlock
  ids : (idsOf b.blks).Nodup
  blocks : ∀ c m, (c, m) ∈ b.blks → Compiled n lvl m
  closed : ∀ m, (false, m) ∈ b.blks → Closed m

end PySOM.BC

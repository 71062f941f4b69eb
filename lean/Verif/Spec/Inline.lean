import Verif.Model.Inline
import Verif.Spec.GenCode
import Verif.Lemmas.Ext
/-!
# The code that inlining a block should add
-/
set_option autoImplicit false
namespace PySOM.BC
open PySOM

/-- No bytes encode this instruction.  It stands for a block that cannot be adapted, so that inlining fails. -/
abbrev impossible : Ins Meth := .send [] 0

/-- What becomes of an instruction of a block that is inlined into a context at level `lvl` with the variables `env` (the block's own are among them):
accesses lose one level, variables of the block are found among those of the context, the end of the block is no instruction, and `^` returns from the
context or one level less. -/
def inlIns (sub : Meth → Except Err Meth) (lvl : Nat) (env locals : List Nat) : Ins Meth → SC Meth
  | .pushVar true i l => .ins (.pushVar true i (l - 1))
  | .popVar true i l => .ins (.popVar true i (l - 1))
  | .pushVar false i 0 => .ins (.pushVar false (((getLocal [locals] i 0).bind (inlinedIdx env)).toOption.getD i) 0)
  | .popVar false i 0 => .ins (.popVar false (((getLocal [locals] i 0).bind (inlinedIdx env)).toOption.getD i) 0)
  | .pushVar false i (l + 1) => .ins (.pushVar false i l)
  | .popVar false i (l + 1) => .ins (.popVar false i l)
  | .pushFld i l => .ins (.pushFld i (l - 1))
  | .popFld i l => .ins (.popFld i (l - 1))
  | .incFld i l => .ins (.incFld i (l - 1))
  | .incFldPush i l => .ins (.incFldPush i (l - 1))
  | .pushBlock true m => .ins (match sub m with | .ok m' => .pushBlock true m' | .error _ => impossible)
  | .pushGlobal n => .ins (globIns n)
  | .retLocal => .nop
  | .retNonLocal _ => if lvl = 0 then .ins .retLocal else .ins (.retNonLocal lvl)
  | i => .ins i

/-- The code that inlining adds; `n` bounds the depth of nesting.  Blocks with arguments cannot be inlined: the only one is the block itself. -/
def inlCode (n : Nat) : Meth → Nat → List Nat → SC Meth
  | .bc _ _ _ _ args locals _ code, lvl, env =>
    if args.length = 1 then code.subst (inlIns (adapt n 1 [locals] (env ++ locals)) lvl (env ++ locals) locals) else .ins impossible
  | .triv _ (.lit (.val v)), _, _ => .ins (.pushConst v)
  | .triv _ (.glob n _), _, _ => .ins (globIns n)
  | .triv _ (.fldRead i l), _, _ => .ins (.pushFld i (l - 1))
  | .triv _ _, _, _ => .nop

/-- The variables of the context after inlining. -/
def inlEnv (m : Meth) (_lvl : Nat) (env : List Nat) : List Nat := env ++ m.locals

section
variable {M : Type}
/-- The instructions of structured code. -/
def SC.instrs : SC M → List (Ins M)
  | .nop => []
  | .ins i => [i]
  | .seq a b => a.instrs ++ b.instrs
  | .thenB _ b => b.instrs
  | .ifElse _ a b => a.instrs ++ b.instrs
  | .loop _ a b => a.instrs ++ b.instrs

/-- The first branch of every conditional leaves one value. -/
def SC.std : SC M → Prop
  | .nop => True
  | .ins _ => True
  | .seq a b => a.std ∧ b.std
  | .thenB _ b => b.std
  | .ifElse _ a b => (∀ d, a.ty d = some (d + 1)) ∧ a.std ∧ b.std
  | .loop _ a b => a.std ∧ b.std
end

mutual
/-- The identities of a block and of all blocks in it. -/
def Meth.ids : Meth → List Nat
  | .bc id _ _ _ _ _ _ code => id :: code.ids
  | .triv id _ => [id]
def SC.ids : SC Meth → List Nat
  | .nop => []
  | .ins i => i.ids
  | .seq a b => a.ids ++ b.ids
  | .thenB _ b => b.ids
  | .ifElse _ a b => a.ids ++ b.ids
  | .loop _ a b => a.ids ++ b.ids
def Ins.ids : Ins Meth → List Nat
  | .pushBlock _ m => m.ids
  | _ => []
end

/-- What an instruction of code at level `lvl` looks like. -/
def InsAt (lvl : Nat) : Ins Meth → Prop
  | .pushFld _ l => l = lvl
  | .retNonLocal l => l = lvl
  | .retFld _ => lvl = 0
  | .send s n => n = Sym.numberOfSignatureArguments s
  | .superSend s n => n = Sym.numberOfSignatureArguments s
  | _ => True

/-- What an instruction of a block in a context at level `lvl` looks like. -/
abbrev InsOK (lvl : Nat) : Ins Meth → Prop := InsAt (lvl + 1)

/-- Trivial methods of blocks. -/
def TrivOK (lvl : Nat) : Triv Meth → Prop
  | .lit (.val _) => True
  | .lit (.meth _) => False
  | .glob _ _ => True
  | .fldRead _ l => l = lvl + 1
  | .fldWrite _ _ => False

/-- A block as the compiler produces it in a context at level `lvl`: its bytes are an encoding of its structured code, which leaves one value and fits its stack, and the blocks
in it are such blocks one level further in.  A block without context looks the same at every level. -/
inductive Sound : Nat → Meth → Prop where
  | bc (lvl id : Nat) (lits : List (Lit Meth)) (bytes : List Nat) (loops : List (Nat × Nat)) (args locals : List Nat) (stack : Nat) (code : SC Meth)
      (enc : Enc lits code bytes) (ty : ∀ d, code.ty d = some (d + 1)) (std : code.std) (size : code.maxd 0 ≤ stack)
      (small : ∀ b ∈ bytes, b ≤ 255) (ends : code.endsRet = true)
      (ins : ∀ i ∈ code.instrs, InsOK lvl i) (ids : code.ids.Nodup)
      (inner : ∀ m, Ins.pushBlock true m ∈ code.instrs → Sound (lvl + 1) m) (closed : ∀ m, Ins.pushBlock false m ∈ code.instrs → ∀ l, Sound l m) :
      Sound lvl (.bc id lits bytes loops args locals stack code)
  | triv (lvl id : Nat) (t : Triv Meth) (ok : TrivOK lvl t) : Sound lvl (.triv id t)

/-- The recorded loops are backward jumps. -/
def Meth.Loops : Meth → Prop
  | .bc _ _ bytes loops _ _ _ _ => ∀ e ∈ loops, LoopAt Meth 0 bytes e
  | .triv _ _ => True

/-- A block that may be inlined. -/
def Good (lvl : Nat) (m : Meth) : Prop := Sound lvl m ∧ m.Loops

end PySOM.BC

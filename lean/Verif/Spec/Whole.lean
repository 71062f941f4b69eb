import Verif.Spec.Ast
/-!
# Whole programs

What sending a message or evaluating a block does depends on what the methods and blocks of the program do, and that depends on the interpreter.  Here a *system* says what
the actions of an interpreter do, given the behaviour of all methods and blocks: it stands for the parts that both interpreters share (objects, classes, frames, primitives).
The behaviour of a program is the limit of the behaviours up to a depth of calls.
-/
set_option autoImplicit false
namespace PySOM.BC
open PySOM

/-! ## The blocks that code creates -/

mutual
/-- The blocks that a tree creates, and whether they need a context. -/
def Node.blks : Node → List (Bool × AMeth)
  | .lit _ => []
  | .globK _ => []
  | .globU _ _ => []
  | .readArg _ _ => []
  | .readLoc _ _ _ => []
  | .self _ => []
  | .writeArg _ _ e => e.blks
  | .writeLoc _ _ _ e => e.blks
  | .fld _ _ => []
  | .fldW _ _ e => e.blks
  | .fldInc _ _ => []
  | .inc e => e.blks
  | .blk c m => [(c, m)]
  | .send _ r as => r.blks ++ as.blks
  | .superSend _ r as => r.blks ++ as.blks
  | .inl1 _ r a => r.blks ++ a.blks
  | .inl2 _ r a b => r.blks ++ (a.blks ++ b.blks)
  | .while _ c b => c.blks ++ b.blks
  | .seq es => es.blks
  | .retNL _ e => e.blks
  | .retL e => e.blks
def Nodes.blks : Nodes → List (Bool × AMeth)
  | .nil => []
  | .cons e es => e.blks ++ es.blks
end

def AMeth.makes : AMeth → List (Bool × AMeth)
  | .ast _ _ _ body => body.blks
  | .triv _ _ => []

def AMethod.makes : AMethod → List (Bool × AMeth)
  | .ast _ _ body => body.blks
  | .triv _ => []

/-- The length of an instruction. -/
def Dec.size {M : Type} : Dec M → Nat
  | .ins _ len => len
  | _ => 3

/-- The blocks that bytecode creates: those of its instructions, one after the other. -/
def makesIn (lits : List (Lit Meth)) : Nat → List Nat → List (Bool × Meth)
  | 0, _ => []
  | n + 1, bs =>
    match decode lits bs with
    | none => []
    | some (.ins (.pushBlock c m) len) => (c, m) :: makesIn lits n (bs.drop len)
    | some d => makesIn lits n (bs.drop d.size)

def Code.makes (C : Code Meth) : List (Bool × Meth) := makesIn C.lits C.bytes.length C.bytes

def Meth.makes : Meth → List (Bool × Meth)
  | .bc _ lits bytes _ _ _ stack _ => Code.makes ⟨lits, bytes, stack⟩
  | .triv _ _ => []

/-- The blocks that are created by code that creates the blocks `xs`, or by these blocks, and so on. -/
inductive Comes {B : Type} (makes : B → List (Bool × B)) (xs : List (Bool × B)) : B → Prop where
  | here (c : Bool) (m : B) (h : (c, m) ∈ xs) : Comes makes xs m
  | deeper (m : B) (c : Bool) (m' : B) (h : Comes makes xs m) (h' : (c, m') ∈ makes m) : Comes makes xs m'

/-! ## Programs -/

section
variable {ι W E : Type}

/-- What the methods and the blocks of a program do; blocks are named by their identities in the source. -/
structure Behaviour (ι W E : Type) where
  meth : ι → Src.Rel W E
  blk : Nat → Src.Rel W E

/-- What the actions do, given the behaviour of all methods and blocks; the second part is for globals that were not known when the code was compiled. -/
abbrev System (ι W E : Type) := Behaviour ι W E → World Nat W E × (Sel → Nat → Src.Rel W E)

/-- A program that has been compiled for both interpreters. -/
structure Compiled2 (ι : Type) where
  src : ι → SMethod
  code : ι → Code Meth
  tree : ι → AMethod

/-- Executing the bytecode, with calls nested less than `k` deep. -/
def bcBehaviour (p : Compiled2 ι) (Φ : System ι W E) : Nat → Behaviour ι W E
  | 0 => ⟨fun _ _ _ _ => False, fun _ _ _ _ => False⟩
  | k + 1 =>
    let A := (Φ (bcBehaviour p Φ k)).1
    ⟨fun i => bcRun (onMeth A) (p.code i), fun id w r w' => ∃ i m, Comes Meth.makes (p.code i).makes m ∧ m.id = id ∧ m.run (onMeth A) w r w'⟩

/-- Executing the trees, with calls nested less than `k` deep. -/
def astBehaviour (p : Compiled2 ι) (Φ : System ι W E) (err : Err → E) : Nat → Behaviour ι W E
  | 0 => ⟨fun _ _ _ _ => False, fun _ _ _ _ => False⟩
  | k + 1 =>
    let A := Φ (astBehaviour p Φ err k)
    ⟨fun i => (p.tree i).run A.1 A.2 err, fun id w r w' => ∃ i m, Comes AMeth.makes (p.tree i).makes m ∧ m.id = id ∧ m.run A.1 A.2 err w r w'⟩

/-- The system passes on the exceptions that are `bad`: apart from these, its actions depend on the outcomes of methods and blocks only. -/
def System.passes (bad : E → Prop) (Φ : System ι W E) : Prop :=
  ∀ b2 b1 : Behaviour ι W E, (∀ i, Approx bad (b2.meth i) (b1.meth i)) → (∀ id, Approx bad (b2.blk id) (b1.blk id)) →
    (∀ a, Approx bad (Src.act (Φ b2).1 a) (Src.act (Φ b1).1 a)) ∧ ∀ n l, Approx bad ((Φ b2).2 n l) ((Φ b1).2 n l)

end
end PySOM.BC

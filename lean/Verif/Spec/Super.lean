import Verif.Spec.Returns
/-!
# Where `super` looks

A machine in which code knows the class it was written in: `super` looks above that class.  Nothing else is different from `Model/Machine.lean`, where `super` looks above the class that
is noted in the frame, and a block takes this class from the frame in which it is made.
-/
set_option autoImplicit false
namespace PySOM.Mach
open PySOM BC

section
variable {ι X Y P : Type}

/-- What an action does in code that was written in the class `h`. -/
def Prog.planIn (G : Prog ι X Y P) (K : Incs X Y) (h : Nat) (w : St X Y) : Act Nat → Now X Y ⊕ Call × St X Y
  | .superSend sel vs => .inr (.from (G.chain h).tail sel vs, w)
  | a => G.plan K w a

def Prog.worldIn (G : Prog ι X Y P) (K : Incs X Y) (h : Nat) (b : Behaviour ι (St X Y) Esc) : World Nat (St X Y) Esc := fun a w r w' =>
  match G.planIn K h w a with
  | .inl x => r = x.1 ∧ w' = x.2
  | .inr x => Do G b (G.resolve x.2 x.1).1 (G.resolve x.2 x.1).2 r w'

/-- Bytecode: method `i`, with all its blocks, was written in the class `own i`. -/
def Prog.codeIn (G : Prog ι X Y P) (K : Incs X Y) (p : Compiled2 ι) (own : ι → Nat) : Nat → Behaviour ι (St X Y) Esc
  | 0 => ⟨fun _ _ _ _ => False, fun _ _ _ _ => False⟩
  | k + 1 =>
    let A := fun i => G.worldIn K (own i) (G.codeIn K p own k)
    ⟨fun i => bcRun (onMeth (A i)) (p.code i), fun id w r w' => ∃ i m, Comes Meth.makes (p.code i).makes m ∧ m.id = id ∧ m.run (onMeth (A i)) w r w'⟩

/-- The same for trees. -/
def Prog.treesIn (G : Prog ι X Y P) (K : Incs X Y) (p : Compiled2 ι) (own : ι → Nat) : Nat → Behaviour ι (St X Y) Esc
  | 0 => ⟨fun _ _ _ _ => False, fun _ _ _ _ => False⟩
  | k + 1 =>
    let A := fun i => G.worldIn K (own i) (G.treesIn K p own k)
    let U := fun i n (_ : Nat) => Src.act (A i) (.glob n)
    ⟨fun i => (p.tree i).run (A i) (U i) Esc.err, fun id w r w' => ∃ i m, Comes AMeth.makes (p.tree i).makes m ∧ m.id = id ∧ m.run (A i) (U i) Esc.err w r w'⟩

/-- Each method is in the table of the class it was written in, and in no other. -/
def Owns (G : Prog ι X Y P) (own : ι → Nat) : Prop := ∀ c sel i, G.table c sel = some (.meth i) → own i = c

end

/-- The blocks that `set_holder` of a method reaches (`vmobjects/method_bc.py:104-111`): those among its literals, and those among theirs.  (`method_trivial.py:30, 49-52` have no literals.) -/
inductive Given (lits : List (Lit Meth)) : Meth → Prop where
  | here (m : Meth) (h : .meth m ∈ lits) : Given lits m
  | deeper (id : Nat) (ls : List (Lit Meth)) (bytes : List Nat) (loops : List (Nat × Nat)) (args locals : List Nat) (stack : Nat) (code : SC Meth) (m : Meth)
      (h : Given lits (.bc id ls bytes loops args locals stack code)) (h' : .meth m ∈ ls) : Given lits m

end PySOM.Mach

import Verif.Model.Ast
/-!
# When the two interpreters agree

Both interpreters act on the same kind of world: `Act` are the things they do (read a variable, send a message, create a block, …), and `World` says what these do.
Blocks are created by their identities in the source, so that the blocks of both can be compared.
-/
set_option autoImplicit false
namespace PySOM.BC
open PySOM

section
variable {M N W E : Type}

def Act.map (f : M → N) : Act M → Act N
  | .rdVar a i l => .rdVar a i l
  | .wrVar a i l v => .wrVar a i l v
  | .rdFld i l => .rdFld i l
  | .wrFld i l v => .wrFld i l v
  | .incFld i l => .incFld i l
  | .glob g => .glob g
  | .mkBlock c m => .mkBlock c (f m)
  | .send sel vs => .send sel vs
  | .superSend sel vs => .superSend sel vs
  | .inc v => .inc v
  | .dec v => .dec v
  | .self => .self
  | .nlr l v => .nlr l v

/-- The world for bytecode, in which a block is created from its method. -/
def onMeth (A : World Nat W E) : World Meth W E := fun a => A (a.map Meth.id)

/-- What running bytecode does: it answers or raises. -/
def bcRun (A : World M W E) (C : Code M) : Src.Rel W E := fun w r w' =>
  match r with
  | .val _ => False
  | .ret v => ∃ n, Steps A C n (Code.start w) (.done v w')
  | .exc e => ∃ n, Steps A C n (Code.start w) (.raised e w')

/-- `R1` and `R2` have the same outcomes and effects, except that `R2` may raise an exception that is `bad` where `R1` does something else. -/
def Approx (bad : E → Prop) (R2 R1 : Src.Rel W E) : Prop :=
  (∀ w r w', R2 w r w' → R1 w r w' ∨ ∃ e, r = .exc e ∧ bad e) ∧
  (∀ w r w', R1 w r w' → R2 w r w' ∨ ∃ e w'', bad e ∧ R2 w (.exc e) w'')

/-- What the nodes of the AST interpreter raise if the receiver of an inlined conditional or loop is not a boolean. -/
def NoBoolean (err : Err → E) : E → Prop := fun e => e = err .notImplemented ∨ e = err .assertion

/-- `nil`, `true` and `false` are not globals that are looked up. -/
def special (n : Sel) : Prop := n = symNil ∨ n = symTrue ∨ n = symFalse

/-- The assumptions about the world for code at level `lvl`.  The first is about what globals are; the others are needed only if the condition in front of them holds. -/
structure Std (I D F C N : Prop) (A : World Nat W E) (U : Sel → Nat → Src.Rel W E) (lvl : Nat) : Prop where
  /-- a global that was not known at compile time is read in the same way -/
  glob : ∀ n, ¬ special n → U n lvl = Src.act A (.glob n)
  /-- incrementing is sending `+ 1` -/
  inc : I → ∀ v, Src.act A (.inc v) = Src.act A (.send "+".toList [v, .int 1])
  /-- decrementing is sending `- 1` -/
  dec : D → ∀ v, Src.act A (.dec v) = Src.act A (.send "-".toList [v, .int 1])
  /-- incrementing a field is reading, incrementing and writing it -/
  fuse : F → Src.IncFieldIsPlus A (Src.machine A)
  /-- variables may be written in any order -/
  comm : C → ∀ (v : Val) (t u : Tgt),
    Src.bind (Src.store A lvl v t) (fun _ => Src.bind (Src.store A lvl v u) fun _ => Src.pure v) = Src.bind (Src.store A lvl v u) (fun _ => Src.bind (Src.store A lvl v t) fun _ => Src.pure v)
  /-- the home method of a block is active when the block returns from it (otherwise `escapedBlock:` is sent, which may answer) -/
  nlr : N → lvl = 0 ∨ ∀ v w u w', ¬ A (.nlr lvl v) w (.val u) w'

/-- Incrementing a field as the value of an assignment. -/
def fuses : List Tgt → Ex SBlock → Prop
  | ts, .inc (.fld _ j) => ∃ n, ts.getLast? = some (.fld n j)
  | ts, .send sel (.fld _ j) (.cons (.lit (.val (.int 1))) .nil) => sel = "+".toList ∧ ∃ n, ts.getLast? = some (.fld n j)
  | _, _ => False

/-- A block that only gives a literal, a global or a field has no variables. -/
def Body.tidy (env : List Nat) : Body SBlock → Prop
  | .stmt (.lit _) .done => env = []
  | .stmt (.glob _) .done => env = []
  | .stmt (.fld _ _) .done => env = []
  | _ => True

/-- The method is not `^ f := x`, where `x` is an argument; if it is `f := x`, then `x` is an argument of the method. -/
def Body.setter : Body SBlock → Prop
  | .exit (.asg (.fld _ _) [] (.var true i _)) => i = 0
  | .last (.asg (.fld _ _) [] (.var true _ l)) => l = 0
  | .stmt (.asg (.fld _ _) [] (.var true _ l)) _ => l = 0
  | _ => True

/-- What a trivial block does: the same as the code it stands for (C35). -/
def Triv.means (A : World M W E) : Triv M → Src.Rel W E
  | .lit (.val v) => Src.answer v
  | .lit (.meth _) => fun _ _ _ => False
  | .glob n _ => Src.bind (Src.act A (.glob n)) Src.answer
  | .fldRead i l => Src.bind (Src.act A (.rdFld i l)) Src.answer
  | .fldWrite i j => Src.bind (Src.act A (.rdVar true j 0)) fun v => Src.bind (Src.act A (.wrFld i 0 v)) fun _ => Src.bind (Src.act A .self) Src.answer

/-- Activating a block in the bytecode interpreter. -/
def Meth.run (A : World Meth W E) : Meth → Src.Rel W E
  | .bc _ lits bytes _ _ _ stack _ => bcRun A ⟨lits, bytes, stack⟩
  | .triv _ t => t.means A

mutual
/-- Where the source needs the assumptions: `e + 1` where the text is not exactly that (`I`), `e - 1` (`D`), `f := f + 1` (`F`), several variables are assigned at once (`C`), and,
in a block, there is a block with `^` (`N`).  There are no literal arrays; the variables of a block are different from each other. -/
def Ex.fair (I D F C N : Prop) (inner : Bool) : Ex SBlock → Prop
  | .lit (.val _) => True
  | .lit (.arr _) => False
  | .glob _ => True
  | .var _ _ _ => True
  | .fld _ _ => True
  | .blk _ s => s.fair I D F C N ∧ (inner = true → s.throws = true → N)
  | .asg t ts e => e.fair I D F C N inner ∧ (ts ≠ [] → C) ∧ (fuses (t :: ts) e → F)
  | .inc e => e.fair I D F C N inner
  | .dec e => e.fair I D F C N inner ∧ D
  | .send sel r as => r.fair I D F C N inner ∧ as.fair I D F C N inner ∧ (sel = "+".toList → as = .cons (.lit (.val (.int 1))) .nil → I)
  | .superSend _ r as => r.fair I D F C N inner ∧ as.fair I D F C N inner
def Exs.fair (I D F C N : Prop) (inner : Bool) : Exs SBlock → Prop
  | .nil => True
  | .cons e es => e.fair I D F C N inner ∧ es.fair I D F C N inner
def Body.fair (I D F C N : Prop) (inner : Bool) : Body SBlock → Prop
  | .done => True
  | .last e => e.fair I D F C N inner
  | .stmt e rest => e.fair I D F C N inner ∧ rest.fair I D F C N inner
  | .exit e => e.fair I D F C N inner
  | .exitSelf => True
def SBlock.fair (I D F C N : Prop) : SBlock → Prop
  | .mk _ _ env b => b.fair I D F C N true ∧ b.tidy env ∧ env.Nodup
end

end
end PySOM.BC

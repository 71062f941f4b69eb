import Verif.Model.Prims
import Verif.Spec.Returns
import Verif.Spec.Loops
/-!
# What primitives that evaluate blocks and send messages should do
-/
set_option autoImplicit false
namespace PySOM.Mach
open PySOM BC

section
variable {ι F : Type}

/-- The method for a message, and the class that has it. -/
def Image.find (I : Image ι) (c : Nat) (sel : Sel) : Option (Nat × (ι ⊕ Prim)) := (I.chain c).findSome? fun h => (I.table h sel).map fun e => (h, e)

/-- Instances of the class `c` answer the message by the primitive `x`. -/
def Image.Has (I : Image ι) (c : Nat) (sel : String) (x : Prim) : Prop := ∃ h, I.find c sel.toList = some (h, .inr x)

/-- The classes of numbers leave `+` and `-` to the primitives. -/
structure Image.Numbers (I : Image ι) : Prop where
  intPlus : I.Has I.intCls "+" (.arith .plus)
  dblPlus : I.Has I.dblCls "+" (.arith .plus)
  intMinus : I.Has I.intCls "-" (.arith .minus)
  dblMinus : I.Has I.dblCls "-" (.arith .minus)

variable {X Y P : Type}

/-- A call as a piece of code. -/
def Prog.does (G : Prog ι X Y P) (b : Behaviour ι (St X Y) Esc) (c : Call) : Src.Rel (St X Y) Esc := fun w r w' => ∃ r0, r = toSrc r0 ∧ G.calls b c w r0 w'

/-- Sending a message. -/
def Prog.sends (G : Prog ι X Y P) (b : Behaviour ι (St X Y) Esc) (sel : String) (vs : List Val) : Src.Rel (St X Y) Esc := G.does b (.send sel.toList vs)

/-- Evaluating a block. -/
def Prog.evals (G : Prog ι X Y P) (b : Behaviour ι (St X Y) Esc) (vs : List Val) : Src.Rel (St X Y) Esc := G.does b (.value vs)

/-- One after the other, then answer `v`. -/
def inTurn {α W E : Type} (f : α → Src.Rel W E) (v : Val) : List α → Src.Rel W E
  | [] => Src.pure v
  | x :: xs => Src.bind (f x) fun _ => inTurn f v xs

/-- The object `a` is a block. -/
def IsBlock (w : St X Y) (v : Val) : Prop := ∃ (a id : Nat) (ctx : Option Nat) (h : Nat), v = .obj a ∧ w.sh.objs[a]? = some (.block id ctx h)

/-- The value `v` is an array with these elements. -/
def IsArray (w : St (Data F) Y) (v : Val) (vs : List Val) : Prop := ∃ (a c : Nat), v = .obj a ∧ w.sh.objs[a]? = some (.data c (.arr vs))

/-- Reading an element of an array, counted from 0. -/
def element (v : Val) (i : Nat) : Src.Rel (St (Data F) Y) Esc := fun w r w' => w' = w ∧
  ((∃ vs, IsArray w v vs ∧ r = .val (vs[i]?.getD .nil)) ∨ ((¬ ∃ vs, IsArray w v vs) ∧ r = .exc (.err .attribute)))

/-- There is one outcome: a value for which `good` holds.  New objects may be made, nothing else is done. -/
def Computes (c : Src.Rel (St (Data F) Printed) Esc) (w : St (Data F) Printed) (good : Mem F → Val → Prop) : Prop :=
  ∃ (v : Val) (new : List (Obj (Data F))), good { w.sh with objs := w.sh.objs ++ new } v ∧
    ∀ r w', c w (toSrc r) w' ↔ r = .val v ∧ w' = { w with sh := { w.sh with objs := w.sh.objs ++ new } }

/-- The mathematical operations of the primitives `+`, `-` and `*`. -/
def Arith.exact : Arith → Option (Int → Int → Int)
  | .plus => some (· + ·)
  | .minus => some (· - ·)
  | .times => some (· * ·)
  | _ => none

/-- The comparisons of integers. -/
def Compare.exact : Compare → Int → Int → Bool
  | .lt, x, y => decide (x < y)
  | .le, x, y => decide (x ≤ y)
  | .gt, x, y => decide (x > y)
  | .ge, x, y => decide (x ≥ y)
  | .eq, x, y => decide (x = y)
  | .ne, x, y => decide (x ≠ y)
  | .same, x, y => decide (x = y)

end
end PySOM.Mach

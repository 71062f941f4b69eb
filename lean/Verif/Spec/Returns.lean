import Verif.Spec.Machine
/-!
# States that a program can reach

A VM starts without frames and blocks; then messages are sent and blocks evaluated from outside, each after the one before has ended, and in between objects may change.
-/
set_option autoImplicit false
namespace PySOM.Mach
open PySOM BC

section
variable {ι X Y P : Type}

/-- The blocks that are there were there before. -/
def Kept (old new : Shared X Y) : Prop := ∀ (a id : Nat) (ctx : Option Nat) (h : Nat), new.objs[a]? = some (.block id ctx h) → ∃ a' : Nat, old.objs[a']? = some (.block id ctx h)

/-- Primitives do not make blocks. -/
def Tame (G : Prog ι X Y P) : Prop := ∀ q sh, Kept sh (G.step q sh).1

/-- The shortcuts do not make blocks. -/
def Incs.Tame (K : Incs X Y) : Prop := (∀ v sh, Kept sh (K.inc v sh).1) ∧ (∀ v sh, Kept sh (K.dec v sh).1) ∧ ∀ a i sh, Kept sh (K.incFld a i sh).1

/-- No frames and no blocks. -/
def Fresh (w : St X Y) : Prop := w.frames = [] ∧ ∀ (a id : Nat) (ctx : Option Nat) (h : Nat), w.sh.objs[a]? ≠ some (.block id ctx h)

/-- What can be reached by calls from outside. -/
inductive Reached (run : Call → St X Y → Res Esc → St X Y → Prop) : St X Y → Prop where
  | fresh (w : St X Y) (h : Fresh w) : Reached run w
  | call (w : St X Y) (c : Call) (r : Res Esc) (w' : St X Y) (hw : Reached run w) (h : run c w r w') : Reached run w'
  | host (w : St X Y) (sh : Shared X Y) (hw : Reached run w) (h : Kept w.sh sh) : Reached run { w with sh := sh }

/-- No method and no block is running. -/
def Idle (w : St X Y) : Prop := ∀ (f : Nat) (x : Frame), w.frames[f]? = some x → x.on = false

end
end PySOM.Mach

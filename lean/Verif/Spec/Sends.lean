import Verif.Model.Machine
/-!
# What a message should do

The nearest class with a method of that name, and what it means to run that method.
-/
set_option autoImplicit false
namespace PySOM.Mach
open PySOM BC

section
variable {ι X Y P : Type}

/-- Of the given classes, `h` is the first one that has `sel`, and it has `e` there. -/
def Nearest (G : Prog ι X Y P) (cs : List Nat) (sel : Sel) (h : Nat) (e : Entry ι) : Prop :=
  ∃ before after, cs = before ++ h :: after ∧ (∀ c ∈ before, G.table c sel = none) ∧ G.table h sel = some e

/-- None of the classes has it. -/
def Nowhere (G : Prog ι X Y P) (cs : List Nat) (sel : Sel) : Prop := ∀ c ∈ cs, G.table c sel = none

/-- How a call ends if its code ends in this way: a value that the code answers is the value of the call; a return on its way to the frame `f` has arrived, if the code waits for it; everything else goes on. -/
inductive Ends (f : Nat) (waits : Bool) : Src.Res Esc → Res Esc → Prop where
  | val (v : Val) : Ends f waits (.val v) (.val v)
  | ret (v : Val) : Ends f waits (.ret v) (.val v)
  | arrived (v : Val) (h : waits = true) : Ends f waits (.exc (.away f v)) (.val v)
  | pass (e : Esc) (h : ∀ v, e = .away f v → waits = false) : Ends f waits (.exc e) (.exc e)

/-- Running code in a new frame with the arguments `vs`, no values in its variables, and this context; afterwards the frame is no longer running, and the caller goes on. -/
def Runs (code : Src.Rel (St X Y) Esc) (vs : List Val) (ctx : Option Nat) (holder : Nat) (waits : Bool) (w : St X Y) (r : Res Esc) (w' : St X Y) : Prop :=
  ∃ r0 w0, code { sh := w.sh, frames := w.frames ++ [⟨vs, fun _ => .nil, ctx, holder, true, waits⟩], cur := w.frames.length } r0 w0 ∧ Ends w.frames.length waits r0 r ∧
    w'.sh = w0.sh ∧ w'.cur = w.cur ∧ w'.frames.length = w0.frames.length ∧
    (∀ (i : Nat) (x : Frame), w0.frames[i]? = some x → w'.frames[i]? = some (if i = w.frames.length then { x with on := false } else x))

end
end PySOM.Mach

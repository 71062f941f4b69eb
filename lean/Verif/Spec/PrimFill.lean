import Verif.Spec.PrimData
/-!
# What filling an array with the answers of a block should do
-/
set_option autoImplicit false
namespace PySOM.Mach
open PySOM BC

/-- Do this `n` times, then go on with the answers, in their order. -/
def answers {W E : Type} (f : Src.Rel W E) : Nat → (List Val → Src.Rel W E) → Src.Rel W E
  | 0, k => k []
  | n + 1, k => Src.bind f fun v => answers f n fun vs => k (v :: vs)

section
variable {ι F : Type}

/-- The value is a Double. -/
def Image.IsDouble (I : Image ι) (w : St (Data F) Printed) (v : Val) : Prop := ∃ (a : Nat) (f : F), v = .obj a ∧ w.sh.objs[a]? = some (.data I.dblCls (.dbl f))

/-- All are machine integers, or all are Doubles, or the first is neither of these nor a Boolean. -/
def Image.Alike (I : Image ι) (w : St (Data F) Printed) (vs : List Val) : Prop :=
  (∀ v ∈ vs, ∃ i, v = .int i) ∨ (∀ v ∈ vs, I.IsDouble w v) ∨ ∃ v more, vs = v :: more ∧ v ≠ .tru ∧ v ≠ .fls ∧ (∀ i, v ≠ .int i) ∧ ¬ I.IsDouble w v

end
end PySOM.Mach

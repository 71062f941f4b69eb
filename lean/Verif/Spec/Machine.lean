import Verif.Model.Machine
/-!
# The language on the machine

The same machine for a language in which `+ 1`, `- 1` and `f := f + 1` are what they look like: messages, and writing the answer.
-/
set_option autoImplicit false
namespace PySOM.Mach
open PySOM BC

section
variable {ι X Y P : Type}

/-- An outcome of an action as an outcome of code. -/
def toSrc : Res Esc → Src.Res Esc
  | .val v => .val v
  | .exc e => .exc e

open Classical in
/-- Carrying out actions as the language says.  (If `D` does not hold, decrementing is left as it is in `K`.) -/
noncomputable def Prog.ideal (G : Prog ι X Y P) (D : Prop) (K : Incs X Y) (b : Behaviour ι (St X Y) Esc) : World Nat (St X Y) Esc := fun a =>
  match a with
  | .inc v => G.world K b (.send "+".toList [v, .int 1])
  | .dec v => if D then G.world K b (.send "-".toList [v, .int 1]) else G.world K b (.dec v)
  | .incFld i l => fun w r w' =>
      Src.bind (Src.act (G.world K b) (.rdFld i l)) (fun v => Src.bind (Src.act (G.world K b) (.send "+".toList [v, .int 1])) fun u =>
        Src.bind (Src.act (G.world K b) (.wrFld i l u)) fun _ => Src.pure u) w (toSrc r) w'
  | a => G.world K b a

noncomputable def Prog.language (G : Prog ι X Y P) (D : Prop) (K : Incs X Y) : System ι (St X Y) Esc := fun b => (G.ideal D K b, fun n _ => Src.act (G.ideal D K b) (.glob n))

/-- The Python errors that are raised where a value is not of the expected kind. -/
def Quirk (e : Esc) : Prop := e = .err .notImplemented ∨ e = .err .assertion ∨ e = .err .attribute

/-- The shortcut `f` for the message `sel` with the argument 1 gives what the primitive for this message gives, or raises one of these errors. -/
def Shortcut (G : Prog ι X Y P) (sel : Sel) (f : Val → Shared X Y → Shared X Y × Except Err Val) : Prop :=
  ∀ v sh, match f v sh with
    | (sh', .ok u) => ∃ c h n, G.classOf sh v = some c ∧ G.look (G.chain c) sel = some (h, .prim n) ∧ G.step (G.start n [v, .int 1]) sh = (sh', .done u)
    | (_, .error e) => Quirk (.err e)

/-- Incrementing a field gives what incrementing its value and writing it gives, or raises one of these errors. -/
def FieldShortcut (K : Incs X Y) : Prop :=
  ∀ a i sh, match K.incFld a i sh with
    | (sh', .ok u) => ∃ c fs v sh1, sh.objs[a]? = some (.inst c fs) ∧ fs[i]? = some v ∧ K.inc v sh = (sh1, .ok u) ∧ sh1.objs[a]? = some (.inst c fs) ∧
        sh' = { sh1 with objs := sh1.objs.set a (.inst c (fs.set i u)) }
    | (_, .error e) => Quirk (.err e)

/-- The shortcuts of an interpreter. -/
structure Incs.Ok (G : Prog ι X Y P) (D : Prop) (K : Incs X Y) : Prop where
  inc : Shortcut G "+".toList K.inc
  dec : D → Shortcut G "-".toList K.dec
  incFld : FieldShortcut K

/-- A call, given the behaviour of methods and blocks. -/
def Prog.calls (G : Prog ι X Y P) (b : Behaviour ι (St X Y) Esc) (c : Call) (w : St X Y) (r : Res Esc) (w' : St X Y) : Prop := Do G b (G.resolve w c).1 (G.resolve w c).2 r w'

/-- A call in the bytecode interpreter. -/
def Prog.bytecode (G : Prog ι X Y P) (K : Incs X Y) (p : Compiled2 ι) (c : Call) (w : St X Y) (r : Res Esc) (w' : St X Y) : Prop :=
  ∃ k, G.calls (bcBehaviour p (G.system K) k) c w r w'

/-- A call in the AST interpreter. -/
def Prog.trees (G : Prog ι X Y P) (K : Incs X Y) (p : Compiled2 ι) (c : Call) (w : St X Y) (r : Res Esc) (w' : St X Y) : Prop :=
  ∃ k, G.calls (astBehaviour p (G.system K) Esc.err k) c w r w'

/-- All blocks of the program have different identities. -/
def Distinct {B M : Type} (makes : B → List (Bool × B)) (id : B → Nat) (ms : ι → M) (first : M → List (Bool × B)) : Prop :=
  ∀ i i' m m', Comes makes (first (ms i)) m → Comes makes (first (ms i')) m' → id m = id m' → m = m'

end
end PySOM.Mach

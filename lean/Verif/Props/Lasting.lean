import Verif.Lemmas.Lasting
import Verif.Props.Prims
/-!
# C79: what objects are does not change

Whatever a program does, in both interpreters, and however a call ends (with a value, an error or a return on its way): objects keep their classes, numbers and strings keep their contents, arrays keep their
lengths and instances the number of their fields, blocks stay the blocks that they are; a global that has a value never loses it, and output is only added to.
There are no hypotheses about the state: what is meant is any moment of any run.
-/
set_option autoImplicit false
namespace PySOM.Mach
open PySOM BC

section
variable {ι F : Type} {I : Image ι} {p : Platform} {fo : Floats F} {q : Compiled2 ι} {known : Sel → Bool} {n : Nat} {c : Call} {w w' : St (Data F) Printed} {r : Res Esc}

/-- C79 for the bytecode interpreter. -/
theorem C79_bytecode (hp : q.BcOk known n) (h : (I.prog p fo).bytecode (I.incs p fo) q c w r w') : Lasting w.sh w'.sh :=
  let ⟨k, h⟩ := h
  lasting_respects.calls (lasting_respects.code hp k) h

/-- C79 for the AST interpreter. -/
theorem C79_trees (h : (I.prog p fo).trees (I.incs p fo) q c w r w') : Lasting w.sh w'.sh :=
  let ⟨k, h⟩ := h
  lasting_respects.calls (lasting_respects.tree q k) h

/-- A call in one of the interpreters. -/
def Image.runs (I : Image ι) (p : Platform) (fo : Floats F) (q : Compiled2 ι) (c : Call) (w : St (Data F) Printed) (r : Res Esc) (w' : St (Data F) Printed) : Prop :=
  (I.prog p fo).bytecode (I.incs p fo) q c w r w' ∨ (I.prog p fo).trees (I.incs p fo) q c w r w'

theorem runs_lasting (hp : q.BcOk known n) (h : I.runs p fo q c w r w') : Lasting w.sh w'.sh := h.elim (C79_bytecode hp) C79_trees

/-- C79: the class of an object does not change. -/
theorem C79_class (hp : q.BcOk known n) (h : I.runs p fo q c w r w') (v : Val) (k : Nat) (hv : I.classOf w.sh v = some k) : I.classOf w'.sh v = some k := by
  cases v with
  | obj a =>
    simp only [Image.classOf] at hv ⊢
    cases ho : w.sh.objs[a]? with
    | none => rw [ho] at hv; cases hv
    | some o =>
      rw [ho] at hv
      obtain ⟨o', h1, h2⟩ := (runs_lasting hp h).objs a o ho
      rw [h1]
      cases o with
      | inst c fs =>
        cases o' with
        | inst c' fs' => obtain ⟨rfl, _⟩ := h2; exact hv
        | _ => exact h2.elim
      | block id ctx hh =>
        cases o' with
        | block id' ctx' h' => obtain ⟨rfl, _⟩ := h2; exact hv
        | _ => exact h2.elim
      | data c x =>
        cases o' with
        | data c' x' => obtain ⟨rfl, _⟩ := h2; exact hv
        | _ => exact h2.elim
  | _ => exact hv

/-- C79: a number stays the number that it is: what a variable refers to is the same integer or double after any call. -/
theorem C79_numbers (hp : q.BcOk known n) (h : I.runs p fo q c w r w') (v : Val) (hv : I.classOf w.sh v ≠ none) : I.num w'.sh v = I.num w.sh v := by
  cases v with
  | obj a =>
    simp only [Image.classOf, Image.num] at hv ⊢
    cases ho : w.sh.objs[a]? with
    | none => rw [ho] at hv; exact absurd rfl hv
    | some o =>
      obtain ⟨o', h1, h2⟩ := (runs_lasting hp h).objs a o ho
      rw [h1]
      cases o with
      | inst c fs =>
        cases o' with
        | inst c' fs' => rfl
        | _ => exact h2.elim
      | block id ctx hh =>
        cases o' with
        | block id' ctx' h' => rfl
        | _ => exact h2.elim
      | data c x =>
        cases o' with
        | data c' x' =>
          obtain ⟨rfl, h3⟩ := h2
          cases x with
          | arr vs =>
            cases x' with
            | arr vs' => rfl
            | _ => exact h3.elim
          | _ => cases h3; rfl
        | _ => exact h2.elim
  | _ => rfl

/-- C79: strings do not change. -/
theorem C79_strings (hp : q.BcOk known n) (h : I.runs p fo q c w r w') (a k : Nat) (s : List Char) (hs : w.sh.objs[a]? = some (.data k (.str s))) : w'.sh.objs[a]? = some (.data k (.str s)) := by
  obtain ⟨o', h1, h2⟩ := (runs_lasting hp h).objs a _ hs
  cases o' with
  | data c' x' => obtain ⟨rfl, rfl⟩ := h2; exact h1
  | _ => exact h2.elim

/-- C79: an array keeps its length, so an index that is allowed stays allowed. -/
theorem C79_arrays (hp : q.BcOk known n) (h : I.runs p fo q c w r w') (v : Val) (vs : List Val) (hv : IsArray w v vs) : ∃ vs', IsArray w' v vs' ∧ vs'.length = vs.length := by
  obtain ⟨a, k, rfl, ha⟩ := hv
  obtain ⟨o', h1, h2⟩ := (runs_lasting hp h).objs a _ ha
  cases o' with
  | data c' x' =>
    obtain ⟨rfl, h3⟩ := h2
    cases x' with
    | arr vs' => exact ⟨vs', ⟨a, _, rfl, h1⟩, h3⟩
    | _ => exact h3.elim
  | _ => exact h2.elim

/-- C79: a block stays a block with the same code and the same context. -/
theorem C79_blocks (hp : q.BcOk known n) (h : I.runs p fo q c w r w') (a id hh : Nat) (ctx : Option Nat) (hb : w.sh.objs[a]? = some (.block id ctx hh)) : w'.sh.objs[a]? = some (.block id ctx hh) := by
  obtain ⟨o', h1, h2⟩ := (runs_lasting hp h).objs a _ hb
  cases o' with
  | block id' ctx' h' => obtain ⟨rfl, rfl, rfl⟩ := h2; exact h1
  | _ => exact h2.elim

/-- C79: what was printed stays printed; a call adds to the end. -/
theorem C79_output (hp : q.BcOk known n) (h : I.runs p fo q c w r w') : (∃ s, w'.sh.ext.out = w.sh.ext.out ++ s) ∧ ∃ s, w'.sh.ext.err = w.sh.ext.err ++ s :=
  let ⟨s, hs⟩ := (runs_lasting hp h).out
  let ⟨t, ht⟩ := (runs_lasting hp h).err
  ⟨⟨s, hs.symm⟩, t, ht.symm⟩

end

/-- The hypotheses are met: the program of C66 and C67 is compiled, and runs; with the classes of C71 and any state. -/
example : ∃ q : Compiled2 Unit, q.src = (fun _ => downMethod) ∧ q.BcOk (fun _ => false) 5 := by
  obtain ⟨q, h1, h2, _⟩ := small_run
  exact ⟨q, h1, h2.wf, h2.code⟩

/-- A call that makes an array: `3 foo` is not understood and nobody answers that either, so the array of arguments has been made when the error is raised. -/
example : (tinyImage.prog .rpython tinyFloats).trees (tinyImage.incs .rpython tinyFloats) ⟨fun _ => downMethod, fun _ => ⟨[], [], 0⟩, fun _ => .ast [] false (.lit .nil)⟩ (.send "foo".toList [.int 3]) tinyStart
    (.exc (.err .attribute)) { tinyStart with sh := { tinyStart.sh with objs := tinyStart.sh.objs ++ [.data 6 (.arr [])] } } :=
  ⟨0, .fail .attribute _⟩

/-- Assigning to an element is allowed, and changes no length. -/
example : Lasting (F := Int) ⟨[.data 6 (.arr [.tru, .fls]), .data 8 (.str ['a'])], fun _ => none, ⟨[], []⟩⟩ ⟨[.data 6 (.arr [.tru, .nil]), .data 8 (.str ['a'])], fun _ => some .nil, ⟨['x'], []⟩⟩ := by
  refine ⟨fun a o h => ?_, fun _ _ => rfl, ⟨['x'], rfl⟩, ⟨[], rfl⟩⟩
  match a with
  | 0 => cases h; exact ⟨_, rfl, rfl, rfl⟩
  | 1 => cases h; exact ⟨_, rfl, rfl, rfl⟩
  | n + 2 => cases h

/-- A string whose text changes would be another matter. -/
example : ¬ Lasting (F := Int) ⟨[.data 8 (.str ['a'])], fun _ => none, ⟨[], []⟩⟩ ⟨[.data 8 (.str ['b'])], fun _ => none, ⟨[], []⟩⟩ := by
  intro h
  obtain ⟨o, h1, h2⟩ := h.objs 0 _ rfl
  cases h1
  exact absurd h2.2 (by simp [Data.Lasts])

end PySOM.Mach

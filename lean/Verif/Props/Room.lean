import Verif.Lemmas.Room
import Verif.Lemmas.ObjectSingle
import Verif.Props.Texts
/-!
# C74: the fields of the class side have a place

A class can declare fields for itself, after the `----` in its file.  They are kept in the class, which is an object with slots; it gets its slots when it is made, from its class (`clazz.py:22-36`, `object_with_layout.py:40-60`).
Full property: every class has a slot for every field of its class side; what is stored in one of them is read back from it, and a field that was never written is `nil`.

This fails for the classes that the VM makes itself before it reads their files (`C74_violated`), and for class sides with more than 32 fields (C15); it holds for all others.
-/
set_option autoImplicit false
namespace PySOM.Boot
open PySOM.Elab (IsClass IsClassAst)
open PySOM.Parse (ClassText)

/-- The classes that the VM makes itself (`universe.py:213-261`). -/
def Sys.own (s : Sys) : List Cid := [s.meta, s.object, s.nil, s.class_, s.array, s.symbol, s.method, s.integer, s.primitive, s.string, s.double]

theorem base0 : Base u0 := by
  refine ⟨by decide +kernel, fun c hc m hm => ?_⟩
  have : ∀ c < 22, ∀ m ∈ (u0.at c).cls, m < 22 := by decide +kernel
  exact this c hc m hm

section
variable {env : Env} {P : Name → Prop} {s : Sys} {first u : U} {k : Nat}

theorem boot_safe (hb : boot env k ⟨[], []⟩ = (.ok s, first)) : s = sys0 ∧ Safe u0 first := by
  refine ⟨(boot_inv hb).1, ?_⟩
  unfold boot at hb
  rw [run_bind initClasses_eq] at hb
  have := Safely.bootRest env k u0 base0
  rw [hb] at this
  exact this

theorem goes_safe (hb : boot env k ⟨[], []⟩ = (.ok s, first)) (hg : Goes s.meta env P first u) : s = sys0 ∧ Safe u0 u := by
  obtain ⟨rfl, h⟩ := boot_safe hb
  refine ⟨rfl, ?_⟩
  generalize hm : sys0.meta = m at hg
  have hm1 : m = 1 := hm.symm
  subst hm1
  clear hb hm
  induction hg with
  | stay => exact h
  | load u' k n _ ih => exact ih.trans (Safely.loadClass env k n u' (base0.safe ih))
  | shell u' k t _ ih => exact ih.trans (Safely.compile (Safely.loadClass env k) t none (fun _ h => nomatch h) u' (base0.safe ih))
  | put u' n v _ _ ih => exact ih.trans (Safely.setGlobal n v u' (base0.safe ih))

/-- The classes that are made before the files are read, and their classes. -/
theorem old0 : ∀ c < 22, ((u0.at c).cls = some 1 ∨ c ∈ sys0.own) ∧ (c ∈ sys0.own → (u0.at c).size = 0) := by decide +kernel

/-- C74 (partly): a class that the VM has not made itself has exactly one slot for every field of its class side: those of its file, of files of superclasses, and if classes were loaded, were
entered in the shell, or have failed to load meanwhile.  Missing: the classes of the VM, see `C74_own`. -/
theorem C74_room_partial (hb : boot env k ⟨[], []⟩ = (.ok s, first)) (hg : Goes s.meta env P first u) {c m : Nat} (hc : (u.at c).cls = some m) (hm : m ≠ s.meta) (ho : c ∉ s.own) :
    (u.at c).size = ((u.at m).fields.getD []).length := by
  obtain ⟨rfl, h⟩ := goes_safe hb hg
  by_cases h1 : c < 22
  · obtain ⟨h2, _⟩ := (old0 c h1).1.resolve_right ho ▸ (h.old c (Nat.lt_of_lt_of_le h1 base0.len)).1 ▸ hc
    exact absurd rfl hm
  · by_cases h2 : c < u.classes.length
    · by_cases h3 : c < u0.classes.length
      · exact absurd (Nat.lt_of_lt_of_le h3 (by decide +kernel)) h1
      · rcases h.new c (Nat.not_lt.1 h3) h2 with h4 | ⟨m', h4, _, _, h5⟩
        · cases hc.symm.trans h4; exact absurd rfl hm
        · cases hc.symm.trans h4; exact h5
    · rw [U.at_out u c (Nat.not_lt.1 h2)] at hc
      cases hc

/-- C74: a class of the VM never has a slot, whatever the files say, so that it has room for the fields of its class side only if there are none. -/
theorem C74_own (hb : boot env k ⟨[], []⟩ = (.ok s, first)) (hg : Goes s.meta env P first u) {c : Nat} (ho : c ∈ s.own) : (u.at c).size = 0 := by
  obtain ⟨rfl, h⟩ := goes_safe hb hg
  have hlt : ∀ c ∈ sys0.own, c < 22 := by decide
  rw [(h.old c (Nat.lt_of_lt_of_le (hlt c ho) base0.len)).2.1]
  exact (old0 c (hlt c ho)).2 ho

/-- C74 (partly): the fields of the class side are a record: a field that was stored to has the value that was stored last, one that was not is `nil`, and nothing fails.  Here `run` is the model of slots and
layouts of C15, for a class (`World.init`, with the layout that the class of the class has after the start) with one instance, as classes of classes have. Missing: the classes of the VM, and class sides with
more than 32 fields. -/
theorem C74_record_partial (hb : boot env k ⟨[], []⟩ = (.ok s, first)) (hg : Goes s.meta env P first u) {c m : Nat} (hc : (u.at c).cls = some m) (hm : m ≠ s.meta) (ho : c ∉ s.own)
    {fs : List Name} (hf : (u.at m).fields = some fs) (hn : fs.length ≤ 32) (ops : List Obj.Op) (hops : ∀ op ∈ ops, Obj.Spec.FieldOk fs.length op) (hnew : ∀ op ∈ ops, op ≠ .new) :
    ∃ w, Obj.run (Obj.World.init (u.at c).size) (.new :: ops) = .ok (Obj.Spec.run Obj.Spec.S.init (.new :: ops), w) := by
  have := C74_room_partial hb hg hc hm ho
  rw [hf, Option.getD_some] at this
  rw [this]
  exact Obj.single fs.length hn ops hops hnew

end

/-! ## Examples -/

namespace TextDemo

def started2 : U := (boot env2 5 ⟨[], []⟩).2
def loaded2 : U := (loadClass sys0.meta env2 5 "Point".toList started2).2

theorem starts2 : boot env2 5 ⟨[], []⟩ = (.ok sys0, started2) := Demo.gives_eq (by decide +kernel)

/-- `Point = ( ---- | x | )` has a slot for `x`. -/
example : (loaded2.at 37).size = ((loaded2.at 36).fields.getD []).length ∧ (loaded2.at 36).fields = some [['x']] :=
  ⟨C74_room_partial (P := fun _ => False) starts2 (.load started2 started2 5 "Point".toList (.stay _)) (by decide +kernel) (by decide) (by decide), by decide +kernel⟩

/-- It is `nil` first, then what is stored. -/
example : ∃ w, Obj.run (Obj.World.init (loaded2.at 37).size) [.new, .get 0 0, .set 0 0 (.int 5), .sync 0, .get 0 0] = .ok ([none, some .nil, none, none, some (.int 5)], w) :=
  C74_record_partial (P := fun _ => False) starts2 (.load started2 started2 5 "Point".toList (.stay _)) (show (loaded2.at 37).cls = some 36 by decide +kernel) (by decide) (by decide)
    (show (loaded2.at 36).fields = some [['x']] by decide +kernel) (by decide) [.get 0 0, .set 0 0 (.int 5), .sync 0, .get 0 0]
    (by simp [Obj.Spec.FieldOk]) (by simp)

/-- The class `Integer` has no slots. -/
example : (loaded2.at sys0.integer).size = 0 := C74_own (P := fun _ => False) starts2 (.load started2 started2 5 "Point".toList (.stay _)) (by decide)

/-- Files in which `Integer` has a field on its class side. -/
def decls3 : List (Name × List Char × ClassText) := ("Integer".toList, "Integer = ( ---- | x | )".toList, ⟨"Integer".toList, none, [], [], some ([['x']], [])⟩) :: decls

def env3 : Env := { env with files := fun p n => if p = 1 then (List.lookup n decls3).map fun x => textOf (num p n) x.2 else none }

end TextDemo

/-- C74 is violated by the classes of the VM: here `Integer class` has the field `x`, but `Integer` has no slot for it, so that it can neither be read nor be stored to, and `Integer` cannot be brought to the layout
that its class has. -/
theorem C74_violated : (∀ x ∈ TextDemo.decls3, IsClass Lex.Spec.ascii x.2.1 x.2.2 ∧ IsClassAst Lex.Spec.ascii x.2.1 x.2.2) ∧
    (∀ n, TextDemo.env3.files 1 n = (List.lookup n TextDemo.decls3).map fun x => textOf (TextDemo.num 1 n) x.2) ∧
    ∃ u c m, boot TextDemo.env3 5 ⟨[], []⟩ = (.ok sys0, u) ∧ List.lookup "Integer".toList u.globals = some (.cls c) ∧ (u.at c).cls = some m ∧ (u.at m).fields = some [['x']] ∧ (u.at c).size = 0 ∧
      Obj.getField (.new (List.replicate (u.at c).size .unwritten)) 0 = .error .index ∧
      (∀ v, Obj.setField (List.replicate (u.width m) .unwritten) (.new (List.replicate (u.at c).size .unwritten)) 0 v = .error .index) ∧
      Obj.sync (List.replicate (u.width m) .unwritten) (.new (List.replicate (u.at c).size .unwritten)) = .error .assertion := by
  have h1 : ∀ x ∈ TextDemo.decls3, (Lex.scanAll Lex.Spec.ascii 100 (Lex.St.init x.2.1)).any (fun r => match r with
      | .ok ts => match Parse.classdef .bc 100 ⟨ts, false⟩ with | .ok (e, _) => decide (e = x.2.2) | .error _ => false
      | .error _ => false) = true := by decide +kernel
  have h2 : ∀ x ∈ TextDemo.decls3, (Lex.scanAll Lex.Spec.ascii 100 (Lex.St.init x.2.1)).any (fun r => match r with
      | .ok ts => match Parse.classdef .ast 100 ⟨ts, false⟩ with | .ok (e, _) => decide (e = x.2.2) | .error _ => false
      | .error _ => false) = true := by decide +kernel
  refine ⟨fun x hx => ⟨Elab.class_of (h1 x hx), Elab.classAst_of (h2 x hx)⟩, fun n => rfl, ?_⟩
  have hs : ((boot TextDemo.env3 5 ⟨[], []⟩).2.at sys0.integer).size = 0 := by decide +kernel
  have hw : (boot TextDemo.env3 5 ⟨[], []⟩).2.width 14 = 1 := by decide +kernel
  refine ⟨(boot TextDemo.env3 5 ⟨[], []⟩).2, sys0.integer, 14, Demo.gives_eq (by decide +kernel), by decide +kernel, by decide +kernel, by decide +kernel, hs, ?_⟩
  rw [hs, hw]
  exact ⟨rfl, fun v => rfl, rfl⟩
end PySOM.Boot

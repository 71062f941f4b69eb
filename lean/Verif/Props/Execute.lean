import Verif.Model.Execute
import Verif.Spec.Execute
import Verif.Lemmas.ClassFilesChain
import Verif.Lemmas.Main
import Verif.Props.Universe
/-!
# C84: `execute_method` calls the method of the class
-/
set_option autoImplicit false
namespace PySOM.Boot

theorem Inherits.path {u : U} {c d : Cid} (h : Inherits u c d) (hd : (u.at d).sup = none) (hl : d < u.classes.length) : ∃ cs, Path u c cs ∧ ∀ x ∈ cs, x < u.classes.length := by
  induction h with
  | refl c =>
    refine ⟨[c], .top c hd, fun x hx => ?_⟩
    rcases List.mem_cons.1 hx with rfl | hx
    · exact hl
    · cases hx
  | step c s d hs _ ih =>
    obtain ⟨cs, h1, h2⟩ := ih hd hl
    refine ⟨c :: cs, .up c s cs hs h1, fun x hx => ?_⟩
    rcases List.mem_cons.1 hx with rfl | hx
    · rcases Nat.lt_or_ge x u.classes.length with h3 | h3
      · exact h3
      · rw [U.at_out u x h3] at hs; cases hs
    · exact h2 x hx

theorem Path.find {u : U} {c : Cid} {cs : List Cid} (sel : Name) (h : Path u c cs) (e : Entry) : (cs.findSome? fun d => (u.at d).method sel) = some e ↔ Finds u sel c e := by
  induction h with
  | top c hs =>
    rw [List.findSome?_cons]
    constructor
    · intro h
      cases hm : (u.at c).method sel with
      | none => rw [hm] at h; cases h
      | some e' => rw [hm] at h; exact .own c e (hm.trans h)
    · intro h
      cases h with
      | own _ _ h => rw [h]
      | up _ s _ _ hs' => rw [hs] at hs'; cases hs'
  | up c s cs hs _ ih =>
    rw [List.findSome?_cons]
    constructor
    · intro h
      cases hm : (u.at c).method sel with
      | none => rw [hm] at h; exact .up c s e hm hs (ih.1 h)
      | some e' => rw [hm] at h; exact .own c e (hm.trans h)
    · intro h
      cases h with
      | own _ _ h => rw [h]
      | up _ s' _ hn hs' h' =>
        cases Option.some.inj (hs.symm.trans hs')
        rw [hn]
        exact ih.2 h'

/-- In a history, what a class that the program can get at finds is what `lookup_invokable` answers. -/
theorem find_iff {env : Env} {k : Nat} {s : Sys} {u : U} {L : List Cid} (h : Hist env k s u L) {c : Cid} (hc : Known u L c) (sel : Name) (e : Entry) : u.find c sel = some e ↔ Finds u sel c e := by
  have ho := (C54_hierarchy h).object
  obtain ⟨cs, h1, h2⟩ := (C54_reach h hc).1.path ho.1 (U.lt_of_name ho.2)
  unfold U.find
  rw [h1.chain h2]
  exact h1.find sel e

/-- The VM starts and loads a class under the name. -/
def Loads (env : Env) (k : Nat) (n : Name) (c : Cid) (s : Sys) (u : U) : Prop := ∃ u0, boot env k ⟨[], []⟩ = (.ok s, u0) ∧ loadClass s.meta env k n u0 = (.ok (.cls c), u)

theorem Loads.hist {env : Env} {k : Nat} {n : Name} {c : Cid} {s : Sys} {u : U} (h : Loads env k n c s u) : Hist env k s u [c] := by
  obtain ⟨u0, h1, h2⟩ := h
  exact .load u0 [] n (.cls c) u (.boot u0 h1) h2

/-- C84: if the VM starts and loads the class, the method that runs is the one that the class of the class finds, and its receiver is the class; there is such a class of the class. -/
theorem C84_runs {env : Env} {k : Nat} {n : Name} {c : Cid} {s : Sys} {u : U} (h : Loads env k n c s u) : ∃ m, (u.at c).cls = some m ∧
    ∀ (sel : Name), (∀ e, executeMethod env k n sel = (.runs e c, u) ↔ Finds u sel m e) ∧ (executeMethod env k n sel = (.noMethod, u) ↔ ∀ e, ¬ Finds u sel m e) ∧
      (executeMethod env k n sel = (.noMethod, u) ∨ ∃ e, executeMethod env k n sel = (.runs e c, u)) := by
  have hk : Known u [c] c := .answered c (.head _)
  obtain ⟨m, hm, -⟩ := (C54_hierarchy h.hist).closed c hk
  have hf := fun sel e => find_iff h.hist (Known.classOf c m hk hm) sel e
  obtain ⟨u0, h1, h2⟩ := h
  have he : ∀ sel, executeMethod env k n sel = match u.find m sel with | none => (.noMethod, u) | some e => (.runs e c, u) := by
    intro sel
    unfold executeMethod
    rw [h1]
    dsimp only
    rw [h2]
    dsimp only
    rw [hm]
    dsimp only
    cases u.find m sel <;> rfl
  refine ⟨m, hm, fun sel => ?_⟩
  rw [he sel]
  cases hx : u.find m sel with
  | none =>
    have hno : ∀ e, ¬ Finds u sel m e := fun e h => by rw [← hf, hx] at h; cases h
    exact ⟨fun e => ⟨fun h => (nomatch h), fun h => absurd h (hno e)⟩, ⟨fun _ => hno, fun _ => rfl⟩, .inl rfl⟩
  | some e =>
    have hy := (hf sel e).1 hx
    refine ⟨fun e' => ⟨fun h => ?_, fun h => ?_⟩, ⟨fun h => (nomatch h), fun h => absurd hy (h e)⟩, .inr ⟨e, rfl⟩⟩
    · cases h; exact hy
    · rw [← hf, hx] at h; cases h; rfl

/-- C84: a class-side method of the class file runs, if the VM has none of this name for the class. -/
theorem C84_own {env : Env} {k : Nat} {n sel : Name} {c : Cid} {s : Sys} {u0 u : U} (h1 : boot env k ⟨[], []⟩ = (.ok s, u0)) (h2 : loadClass s.meta env k n u0 = (.ok (.cls c), u))
    (hn : (List.lookup n u0.globals).getD .none = .none) {t : Text} {name : Name} {sup : Option Name} {i cl : Side} (ht : source env n = some t) (hh : t.head = some (name, sup)) (hr : t.rest = some (i, cl))
    (hv : sel ∉ ((env.known name).getD ([], [])).2) {b : Nat} (hb : lastMeth cl.meths sel = some (some b)) :
    ∃ m, (u.at c).cls = some m ∧ executeMethod env k n sel = (.runs ⟨sel, .code b, m⟩ c, u) := by
  obtain ⟨m, hm, h⟩ := C84_runs (n := n) ⟨u0, h1, h2⟩
  refine ⟨m, hm, ((h sel).1 _).2 (.own _ _ ?_)⟩
  obtain ⟨-, m', hm', hx⟩ := C56_methods hn h2 ht hh hr sel
  cases Option.some.inj (hm.symm.trans hm')
  rw [hx, if_neg, hb]
  · rfl
  · split
    · exact hv
    · exact fun h => nomatch h

/-- C84: without a file for the class, and without a global of its name, nothing runs: the error says that the class could not be loaded. -/
theorem C84_no_class {env : Env} {k : Nat} {n : Name} {s : Sys} {u0 : U} (h1 : boot env (k + 1) ⟨[], []⟩ = (.ok s, u0)) (hn : (List.lookup n u0.globals).getD .none = .none) (hs : source env n = none) (sel : Name) :
    (executeMethod env (k + 1) n sel).1 = .noClass := by
  have hg : getGlobal n u0 = (.ok .none, u0) := by show (Except.ok ((List.lookup n u0.globals).getD .none), u0) = _; rw [hn]
  have hl : loadClass s.meta env (k + 1) n u0 = (.ok .none, (setGlobal n .none u0).2) := by
    unfold loadClass
    rw [run_bind hg]
    dsimp only
    rw [run_bind (loadFile_none s.meta env _ n none u0 hs)]
    rfl
  unfold executeMethod
  rw [h1]
  dsimp only
  rw [hl]

/-- C84: the errors of the start and of the loading are not hidden. -/
theorem C84_errors {env : Env} {k : Nat} {n sel : Name} : (∀ e u, boot env k ⟨[], []⟩ = (.error e, u) → executeMethod env k n sel = (.fails e, u)) ∧
    ∀ s u0 e u, boot env k ⟨[], []⟩ = (.ok s, u0) → loadClass s.meta env k n u0 = (.error e, u) → executeMethod env k n sel = (.fails e, u) := by
  constructor
  · intro e u h
    unfold executeMethod
    rw [h]
  · intro s u0 e u h1 h2
    unfold executeMethod
    rw [h1]
    dsimp only
    rw [h2]

/-! ## A class with a class-side method -/
namespace Demo

/-- The files of `Demo`, and a class `Main` with the class-side method `go`. -/
def mainEnv : Env := { env with files := fun p n => if p = 1 ∧ n = "Main".toList then some ⟨some ("Main".toList, none), some (⟨[], []⟩, ⟨[], [("go".toList, some 8), ("stop".toList, some 9)]⟩)⟩ else env.files p n }

def mainStarted : U := (boot mainEnv 5 ⟨[], []⟩).2
def mainLoaded : U := (loadClass sys0.meta mainEnv 5 "Main".toList mainStarted).2
theorem main_starts : boot mainEnv 5 ⟨[], []⟩ = (.ok sys0, mainStarted) := gives_eq (by decide +kernel)
theorem main_loads : loadClass sys0.meta mainEnv 5 "Main".toList mainStarted = (.ok (.cls 37), mainLoaded) := gives_eq (by decide +kernel)

/-- `go` of `Main` runs; `hashcode` is inherited from `Object`, through `Class`; `x` is not there, and the class `Nothing` neither. -/
example : (∃ m, (mainLoaded.at 37).cls = some m ∧ executeMethod mainEnv 5 "Main".toList "go".toList = (.runs ⟨"go".toList, .code 8, m⟩ 37, mainLoaded)) ∧
    (executeMethod mainEnv 5 "Main".toList "hashcode".toList).1 = .runs ⟨"hashcode".toList, .vm, 3⟩ 37 ∧ (executeMethod mainEnv 5 "Main".toList "x".toList).1 = .noMethod ∧
    (executeMethod mainEnv 5 "Nothing".toList "x".toList).1 = .noClass :=
  ⟨C84_own main_starts main_loads (by decide +kernel) (t := ⟨some ("Main".toList, none), some (⟨[], []⟩, ⟨[], [("go".toList, some 8), ("stop".toList, some 9)]⟩)⟩) (by decide +kernel) rfl rfl (by decide +kernel) (by decide +kernel),
    by decide +kernel, by decide +kernel, C84_no_class main_starts (by decide +kernel) (by decide +kernel) _⟩

example : Loads mainEnv 5 "Main".toList 37 sys0 mainLoaded := ⟨_, main_starts, main_loads⟩

end Demo
end PySOM.Boot

import Verif.Lemmas.Room
import Verif.Lemmas.ClassFiles
/-!
# The start keeps the names of classes, and never ends with status 0
-/
set_option autoImplicit false
namespace PySOM.Boot

/-- Classes stay, with their names. -/
structure Named (u u' : U) : Prop where
  len : u.classes.length ≤ u'.classes.length
  name : ∀ c : Nat, c < u.classes.length → (u'.at c).name = (u.at c).name

theorem Named.refl (u : U) : Named u u := ⟨Nat.le_refl _, fun _ _ => rfl⟩
theorem Named.trans {u v w : U} (h : Named u v) (h' : Named v w) : Named u w := ⟨Nat.le_trans h.len h'.len, fun c hc => (h'.name c (Nat.lt_of_lt_of_le hc h.len)).trans (h.name c hc)⟩

/-- In every state, names stay, and there is no exit with status 0. -/
def Fine {α : Type} (m : M α) : Prop := ∀ u, Named u (m u).2 ∧ (m u).1 ≠ .error (.exit 0)

theorem Fine.bind {α β : Type} {m : M α} {k : α → M β} (h : Fine m) (h' : ∀ a, Fine (k a)) : Fine (m >>= k) := fun u => by
  rw [bind_run]
  obtain ⟨h1, h2⟩ := h u
  rcases hm : m u with ⟨r, u'⟩
  rw [hm] at h1 h2
  cases r with
  | error e => exact ⟨h1, fun he => h2 (by cases he; rfl)⟩
  | ok a => exact ⟨h1.trans (h' a u').1, (h' a u').2⟩

theorem Fine.pure {α : Type} (a : α) : Fine (Pure.pure a : M α) := fun u => ⟨.refl u, fun h => nomatch h⟩
theorem Fine.raise {α : Type} {e : Err} (he : e ≠ .exit 0) : Fine (raise e : M α) := fun u => ⟨.refl u, fun h => he (by cases h; rfl)⟩
theorem Fine.get : Fine get := fun u => ⟨.refl u, fun h => nomatch h⟩

theorem Named.upd (u : U) (c : Nat) (f : Cls → Cls) (h : ∀ x, (f x).name = x.name) : Named u (u.upd c f) := by
  have hl : (u.upd c f).classes.length = u.classes.length := by unfold U.upd; simp
  refine ⟨by rw [hl]; exact Nat.le_refl _, fun d hd => ?_⟩
  by_cases he : c = d
  · subst he
    have : (u.upd c f).at c = f (u.at c) := by unfold U.upd U.at; simp [List.getD, List.getElem?_modify, hd]
    rw [this]
    exact h _
  · have : (u.upd c f).at d = u.at d := by unfold U.upd U.at; simp [List.getD, List.getElem?_modify, he]
    rw [this]

theorem Fine.upd (c : Nat) (f : Cls → Cls) (h : ∀ x, (f x).name = x.name) : Fine (modify (·.upd c f)) := fun u => ⟨.upd u c f h, fun h => nomatch h⟩

theorem Fine.setFields (c : Nat) (fs : List Name) : Fine (setFields c fs) := .upd c _ fun _ => rfl
theorem Fine.addPrimitive (c : Cid) (sel : Name) : Fine (addPrimitive c sel) := .upd c _ fun _ => rfl

theorem Fine.setInvokables (c : Cid) (v : List (Name × Kind)) (p : Bool) : Fine (setInvokables c v p) := by
  unfold Boot.setInvokables
  refine Fine.bind (Fine.upd c (fun x => { x with prims := p }) fun _ => rfl) fun _ => ?_
  split
  · refine Fine.get.bind fun u => ?_
    split
    · exact .pure _
    · exact .raise (by decide)
  · exact .upd c _ fun _ => rfl

theorem Fine.classOf (c : Cid) : Fine (classOf c) := by
  unfold Boot.classOf
  refine Fine.get.bind fun u => ?_
  split
  · exact .pure _
  · exact .raise (by decide)

theorem Fine.fieldsOf (c : Cid) : Fine (fieldsOf c) := by
  unfold Boot.fieldsOf
  refine Fine.get.bind fun u => ?_
  split
  · exact .pure _
  · exact .raise (by decide)

theorem Fine.setGlobal (n : Name) (v : Glob) : Fine (setGlobal n v) := fun _ => ⟨⟨Nat.le_refl _, fun _ _ => rfl⟩, fun h => nomatch h⟩
theorem Fine.getGlobal (n : Name) : Fine (getGlobal n) := Fine.get.bind fun _ => .pure _

theorem Fine.forAll {α : Type} {f : α → M Unit} : ∀ (xs : List α), (∀ x, Fine (f x)) → Fine (forAll f xs)
  | [], _ => .pure _
  | x :: xs, h => (h x).bind fun _ => Fine.forAll xs h

theorem Fine.loadPrims (known : Name → Option (List Name × List Name)) (c : Cid) : Fine (loadPrims known c) := by
  unfold Boot.loadPrims
  refine Fine.get.bind fun u => ?_
  split
  · exact .raise (by decide)
  · split
    · exact .pure _
    · exact (Fine.forAll _ fun _ => .addPrimitive _ _).bind fun _ => Fine.forAll _ fun _ => (Fine.classOf _).bind fun _ => .addPrimitive _ _

theorem Fine.classdef {load : Name → M Glob} (hl : ∀ n, Fine (load n)) (t : Text) : Fine (classdef load t) := by
  unfold Boot.classdef
  split
  · exact .raise (by decide)
  · refine Fine.bind ?_ fun a => ?_
    · split
      · exact .pure _
      · refine (hl _).bind fun v => ?_
        cases v with
        | none => exact .raise (by decide)
        | obj o => exact .raise (by decide)
        | cls s => exact (Fine.fieldsOf _).bind fun _ => (Fine.classOf _).bind fun _ => (Fine.fieldsOf _).bind fun _ => .pure _
    · obtain ⟨s, fs, cfs⟩ := a
      dsimp only
      split
      · exact .raise (by decide)
      · exact .pure _

theorem Named.app (u : U) (xs : List Cls) : Named u ⟨u.classes ++ xs, u.globals⟩ := ⟨by simp, fun c hc => by rw [U.at_app u _ u.globals c hc]⟩

theorem Fine.assemble (g : Cgc) : Fine (assemble 1 g) := fun u => by
  rw [assemble_eq]
  unfold assembled
  split
  · exact ⟨.refl _, fun h => nomatch h⟩
  · dsimp only
    split
    · exact ⟨.app _ _, fun h => nomatch h⟩
    · split
      · exact ⟨.app _ _, fun h => nomatch h⟩
      · exact ⟨.app _ _, fun h => nomatch h⟩

theorem Fine.assembleSystem (c : Nat) (g : Cgc) : Fine (assembleSystem c g) := by
  unfold Boot.assembleSystem
  exact (Fine.setInvokables _ _ _).bind fun _ => (Fine.setFields c _).bind fun _ => (Fine.classOf _).bind fun _ => (Fine.setInvokables _ _ _).bind fun _ => .setFields _ _

theorem Fine.compile {load : Name → M Glob} (hl : ∀ n, Fine (load n)) (t : Text) (sys : Option Nat) : Fine (compile 1 load t sys) := by
  unfold Boot.compile
  refine (Fine.classdef hl t).bind fun g => ?_
  cases sys with
  | none => exact .assemble g
  | some c => exact (Fine.assembleSystem c g).bind fun _ => .pure _

theorem Fine.exit (env : Env) {n : Nat} (hn : n ≠ 0) : Fine (exit_ env n) := by
  unfold exit_
  split
  · exact .pure _
  · exact .raise fun h => hn (by cases h; rfl)

theorem Fine.loadFile (env : Env) {load : Name → M Glob} (hl : ∀ n, Fine (load n)) (n : Name) (sys : Option Nat) : ∀ ps, Fine (loadFile 1 env load n sys ps)
  | [] => .pure _
  | p :: ps => by
    unfold Boot.loadFile
    split
    · exact Fine.loadFile env hl n sys ps
    · refine (Fine.compile hl _ sys).bind fun c => Fine.get.bind fun u => ?_
      split
      · exact .pure _
      · exact (Fine.exit _ (by decide)).bind fun _ => .pure _

theorem Fine.loadClass (env : Env) : ∀ (k : Nat) (n : Name), Fine (loadClass 1 env k n)
  | 0, _ => .raise (by decide)
  | k + 1, n => by
    unfold Boot.loadClass
    refine (Fine.getGlobal n).bind fun v => ?_
    split
    · refine (Fine.loadFile env (Fine.loadClass env k) n none _).bind fun r => ?_
      cases r with
      | none => exact (Fine.setGlobal _ _).bind fun _ => .pure _
      | some c =>
        refine (show Fine (needsPrims c) from Fine.get.bind fun _ => .pure _).bind fun b => ?_
        split
        · exact (Fine.loadPrims _ _).bind fun _ => (Fine.setGlobal _ _).bind fun _ => .pure _
        · exact (Fine.setGlobal _ _).bind fun _ => .pure _
    · exact .pure _

theorem Fine.loadSystem (env : Env) (k c : Nat) : Fine (loadSystem 1 env k c) := by
  unfold Boot.loadSystem
  refine Fine.get.bind fun u => ?_
  split
  · exact .raise (by decide)
  · refine (Fine.loadFile env (Fine.loadClass env k) _ (some c) _).bind fun r => ?_
    cases r with
    | none => exact .exit _ (by decide)
    | some c => exact .loadPrims _ _

theorem Fine.makeBlock (env : Env) (k i : Nat) : Fine (makeBlock 1 env k i) := by
  unfold Boot.makeBlock
  refine (Fine.loadFile env (Fine.loadClass env k) _ none _).bind fun r => ?_
  cases r with
  | none => exact .raise (by decide)
  | some c => exact (Fine.addPrimitive _ _).bind fun _ => .setGlobal _ _

theorem Fine.must (v : Glob) : Fine (must v) := by
  unfold Boot.must
  split
  · exact .pure _
  · exact .raise (by decide)

theorem Fine.bootRest (env : Env) (k : Nat) : Fine (bootRest env k sys0) := by
  unfold Boot.bootRest
  exact (Fine.forAll _ fun c => Fine.loadSystem env k c).bind fun _ => (Fine.loadClass env k _).bind fun _ => (Fine.loadClass env k _).bind fun _ => (Fine.must _).bind fun _ =>
    (Fine.loadPrims _ _).bind fun _ => (Fine.loadClass env k _).bind fun _ => (Fine.must _).bind fun _ => (Fine.loadPrims _ _).bind fun _ => (Fine.loadClass env k _).bind fun _ =>
    (Fine.must _).bind fun _ => (Fine.setGlobal _ _).bind fun _ => (Fine.setGlobal _ _).bind fun _ => (Fine.setGlobal _ _).bind fun _ => (Fine.setGlobal _ _).bind fun _ =>
    (Fine.setGlobal _ _).bind fun _ => (Fine.setGlobal _ _).bind fun _ => (Fine.setGlobal _ _).bind fun _ => (Fine.setGlobal _ _).bind fun _ => (Fine.setGlobal _ _).bind fun _ =>
    (Fine.forAll _ fun i => Fine.makeBlock env k i).bind fun _ => .pure _

/-- The start does not end with status 0. -/
theorem boot_exit (env : Env) (k : Nat) : (boot env k ⟨[], []⟩).1 ≠ .error (.exit 0) := by
  unfold boot
  rw [run_bind initClasses_eq]
  exact (Fine.bootRest env k u0).2

/-! ## Missing files -/

theorem loadFile_none («meta» : Cid) (env : Env) (load : Name → M Glob) (n : Name) (sys : Option Cid) (u : U) (h : source env n = none) : loadFile «meta» env load n sys env.classpath u = (.ok none, u) := by
  rw [loadFile_eq, show (env.classpath.findSome? fun p => env.files p n) = none from h]
  rfl

/-- A class of the VM without a file: status 200. -/
theorem loadSystem_none {env : Env} (hx : env.avoidExit = false) (k : Nat) {c : Cid} {n : Name} {u : U} (hn : (u.at c).name = some n) (h : source env n = none) :
    loadSystem 1 env k c u = (.error (.exit 200), u) := by
  unfold loadSystem
  rw [run_bind (show Boot.get u = (.ok u, u) from rfl)]
  rw [hn]
  dsimp only
  rw [run_bind (loadFile_none _ env _ n _ u h)]
  simp only [exit_, hx]
  rfl

theorem forAll_sources {env : Env} (hx : env.avoidExit = false) (k : Nat) (cs : List Cid) : ∀ {u u' : U}, (∀ c ∈ cs, c < u.classes.length) → forAll (loadSystem 1 env k) cs u = (.ok (), u') →
    ∀ c ∈ cs, ∀ n, (u.at c).name = some n → source env n ≠ none := by
  induction cs with
  | nil => intro u u' _ _ c hc; cases hc
  | cons d cs ih =>
    intro u u' hlen h c hc n hn hs
    obtain ⟨_, u1, h1, h2⟩ := bind_ok h
    have hk := (Fine.loadSystem env k d u).1
    rw [h1] at hk
    rcases List.mem_cons.1 hc with rfl | hc
    · rw [loadSystem_none hx k hn hs] at h1
      cases h1
    · exact ih (fun c hc => Nat.lt_of_lt_of_le (hlen c (.tail _ hc)) hk.len) h2 c hc n ((hk.name c (hlen c (.tail _ hc))).trans hn) hs

/-- When the start succeeds, the files of all classes that the VM makes were found. -/
theorem boot_sources {env : Env} (hx : env.avoidExit = false) {k : Nat} {s : Sys} {u : U} (h : boot env k ⟨[], []⟩ = (.ok s, u)) : ∀ x ∈ sysIds, source env x.1 ≠ none := by
  unfold boot at h
  rw [run_bind initClasses_eq] at h
  unfold bootRest at h
  obtain ⟨_, u1, h1, -⟩ := bind_ok h
  have hn : ∀ x ∈ sysIds, (u0.at x.2).name = some x.1 ∧ x.2 ∈ [sys0.object, sys0.class_, sys0.meta, sys0.nil, sys0.array, sys0.method, sys0.string, sys0.symbol, sys0.integer, sys0.primitive, sys0.double] := by decide +kernel
  have hl : ∀ c ∈ [sys0.object, sys0.class_, sys0.meta, sys0.nil, sys0.array, sys0.method, sys0.string, sys0.symbol, sys0.integer, sys0.primitive, sys0.double], c < u0.classes.length := by decide +kernel
  exact fun x hx' => forAll_sources hx k _ hl h1 x.2 (hn x hx').2 x.1 (hn x hx').1

/-- Without a file for Object, which is loaded first, the start ends with status 200. -/
theorem boot_object {env : Env} (hx : env.avoidExit = false) (k : Nat) (h : source env "Object".toList = none) : (boot env k ⟨[], []⟩).1 = .error (.exit 200) := by
  have hn : (u0.at sys0.object).name = some "Object".toList := by decide +kernel
  unfold boot
  rw [run_bind initClasses_eq]
  unfold bootRest
  rw [run_bind_error (show forAll (loadSystem sys0.meta env k) [sys0.object, sys0.class_, sys0.meta, sys0.nil, sys0.array, sys0.method, sys0.string, sys0.symbol, sys0.integer, sys0.primitive, sys0.double] u0 = (.error (.exit 200), u0) from run_bind_error (loadSystem_none hx k hn h))]

end PySOM.Boot

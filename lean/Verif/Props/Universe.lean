import Verif.Lemmas.UniverseSystem
/-!
# C54–C56: starting the system and loading classes

The histories of a system (`Hist`, `Goes`) and what its classes should look like (`Hierarchy`, `Loaded`) are in `Spec/Universe.lean`.
-/
set_option autoImplicit false
namespace PySOM.Boot

/-! ## A small system for the examples -/
namespace Demo

/-- A file: name, superclass, instance fields, methods. -/
def file (n : String) (sup : Option String) (fs : List String) (ms : List (String × Option Nat)) : Text :=
  ⟨some (n.toList, sup.map (·.toList)), some (⟨fs.map (·.toList), ms.map fun m => (m.1.toList, m.2)⟩, ⟨[], []⟩)⟩

def system : List String :=
  ["Class", "Metaclass", "Nil", "Array", "Method", "String", "Symbol", "Integer", "Primitive", "Double", "Block", "True", "False", "System", "Block1", "Block2", "Block3"]

def files : List (Name × Text) :=
  ("Object".toList, file "Object" (some "nil") [] [("asString", some 7), ("hashcode", none)]) ::
  ("Point".toList, file "Point" none ["x", "y"] [("x", some 1), ("length", some 2), ("x", some 3)]) ::
  ("Point3D".toList, file "Point3D" (some "Point") ["z"] [("length", none), ("z", some 4), ("hash", some 5), ("what", none)]) ::
  ("Hen".toList, file "Hen" (some "Egg") [] []) :: ("Egg".toList, file "Egg" (some "Hen") [] []) ::
  ("Root".toList, file "Root" (some "nil") [] []) ::
  ("Other".toList, file "Another" none [] []) ::
  system.map fun n => (n.toList, file n none [] [])

def env : Env where
  files p n := if p = 1 then List.lookup n files else none
  classpath := [0, 1]
  known n := if n = "Object".toList then some (["hashcode".toList, "==".toList], []) else if n = "Point3D".toList then some (["length".toList, "hash".toList], ["origin".toList]) else none
  avoidExit := false

/-- Is this the result? -/
def gives {α : Type} [DecidableEq α] (r : Except Err α × U) (a : α) : Bool := match r.1 with | .ok b => decide (b = a) | .error _ => false
/-- Is this the exception? -/
def raises {α : Type} (r : Except Err α × U) (e : Err) : Bool := match r.1 with | .ok _ => false | .error e' => decide (e' = e)

theorem gives_eq {α : Type} [DecidableEq α] {r : Except Err α × U} {a : α} (h : gives r a = true) : r = (.ok a, r.2) := by
  obtain ⟨r, u⟩ := r
  cases r with
  | error e => cases h
  | ok b => rw [of_decide_eq_true h]

/-- After the start. -/
def started : U := (boot env 5 ⟨[], []⟩).2

theorem starts : boot env 5 ⟨[], []⟩ = (.ok sys0, started) := gives_eq (by decide +kernel)

/-- After `Point3D` was loaded. -/
def loaded : U := (loadClass sys0.meta env 5 "Point3D".toList started).2

theorem loads : loadClass sys0.meta env 5 "Point3D".toList started = (.ok (.cls 39), loaded) := gives_eq (by decide +kernel)

theorem hist : Hist env 5 sys0 loaded [39] := .load started [] "Point3D".toList (.cls 39) loaded (.boot _ starts) loads

end Demo

/-! ## C54 -/

/-- **C54.** At any time after the start, whatever classes the program loads or fails to load, and whatever it does with globals, the classes it can get at form the hierarchy of
Smalltalk: every class has a class; every class that is not a metaclass is an instance of its own metaclass, named after it, whose superclass is the class of its superclass; every
metaclass has exactly one instance; `Object` is the only class without superclass and the superclass of `Object class` is `Class`; and the metaclass of `Metaclass` is itself an instance of
`Metaclass`. -/
theorem C54_hierarchy {env : Env} {k : Nat} {s : Sys} {u : U} {L : List Cid} (h : Hist env k s u L) : Hierarchy s u (Known u L) := by
  obtain ⟨G, hi, hL⟩ := hist_inv h
  have kn : ∀ {c}, Known u L c → Kn u G c := known_kn hi hL
  refine ⟨fun c hc => ?_, fun c m hc hm hne => ?_, fun m hm hmm => ?_, hi.obj.2, ?_⟩
  · obtain ⟨m, hm, _⟩ := (kn hc).cls hi
    exact ⟨m, hm, .classOf c m hc hm⟩
  · obtain hg := (hi.inst c m hm).resolve_left hne
    obtain ⟨m', _, ho, _⟩ := hi.ord c hg
    cases Option.some.inj (ho.class_.symm.trans hm)
    exact ho
  · rcases kn hm with hg | ⟨p, hp, hpm⟩
    · obtain ⟨m', hne, ho, _⟩ := hi.ord m hg
      exact absurd (Option.some.inj (ho.class_.symm.trans hmm)) hne
    · obtain ⟨m', hne, ho, _⟩ := hi.ord p hp
      cases Option.some.inj (ho.class_.symm.trans hpm)
      refine ⟨p, ho, fun h => hne (Option.some.inj (ho.class_.symm.trans h)), fun d hd => ?_⟩
      exact hi.inj d p m ((hi.inst d m hd).resolve_left hne) hp hd hpm
  · obtain ⟨m, hne, ho, _⟩ := hi.ord s.meta hi.met.1
    exact ⟨m, ho, hne, hi.met.2.1⟩

/-- The class `Point3D`, its metaclass, and the metaclass of `Metaclass`, after the start and the loading of `Point3D`. -/
example : Ordinary sys0 Demo.loaded 39 38 ∧ (Demo.loaded.at 38).name = some "Point3D class".toList ∧ Ordinary sys0 Demo.loaded 1 0 :=
  have h := C54_hierarchy Demo.hist
  ⟨h.ordinary 39 38 (.answered _ (.head _)) (by decide +kernel) (by decide), by decide +kernel, h.ordinary 1 0 (.global "Metaclass".toList 1 (by decide +kernel)) (by decide +kernel) (by decide)⟩

/-- **C54**, for sends: the methods of `Object` can be found for every object, those of `Class` for every class. -/
theorem C54_reach {env : Env} {k : Nat} {s : Sys} {u : U} {L : List Cid} (h : Hist env k s u L) {c : Cid} (hc : Known u L c) :
    Inherits u c s.object ∧ ∃ m, (u.at c).cls = some m ∧ Inherits u m s.class_ := by
  obtain ⟨G, hi, hL⟩ := hist_inv h
  have hk := known_kn hi hL hc
  obtain ⟨m, hm, _, _, _, hb⟩ := hk.cls hi
  exact ⟨hk.object hi, m, hm, hb⟩

example : Inherits Demo.loaded 39 3 ∧ ∃ m, (Demo.loaded.at 39).cls = some m ∧ Inherits Demo.loaded m 7 := C54_reach Demo.hist (.answered _ (.head _))

/-! ## C55 -/

/-- **C55.** Loading a class of which there is no global yet: if a class is answered, it is that of the file — name, superclass, and the fields of the superclass followed by its own, on both
sides — it is new, its superclass is the class that the global for the name of the superclass has now, and the global for its name is set to it. -/
theorem C55_loaded_partial {«meta» : Cid} {env : Env} {k : Nat} {n : Name} {u u' : U} {c : Cid} (hn : (List.lookup n u.globals).getD .none = .none)
    (h : loadClass «meta» env k n u = (.ok (.cls c), u')) : ∃ t i cl s m sm, Loaded «meta» env n c u' t i cl s m sm ∧ u.classes.length ≤ m ∧ m < c := by
  cases k with
  | zero => cases h
  | succ k =>
    obtain ⟨t, name, sup, i, cl, s, sm, fs, cfs, u1, hs, hh, hr, hnm, hne, hl, hf, hsm, hcf, hc, hu⟩ := loadClass_ok hn h
    have hsup : t.super = some (sup.getD symObject) := by unfold Text.super; rw [hh]; exact if_neg hne
    have hlat := Later.loadClass «meta» env k (sup.getD symObject) u
    rw [hl] at hlat
    have hlen := hlat.classes.length_le
    have ltS := U.lt_of_cls hsm
    have old : ∀ {x y : Cls} {g}, ∀ d, d < u1.classes.length → U.at ⟨u1.classes ++ [x, y], g⟩ d = u1.at d := fun {x y g} d hd => U.at_app u1 [x, y] g d hd
    subst hc
    have hsn : sup.getD symObject ≠ n := by
      intro he
      have := loadClass_cycle «meta» env (fun m => m = n) u (fun m hm => by subst hm; exact ⟨hn, t, m, hs, by rw [hsup, he], rfl⟩) k n rfl
      rw [he, this] at hl
      cases hl
    have hlk : List.lookup (sup.getD symObject) u1.globals = some (.cls s) := by
      cases k with
      | zero => cases hl
      | succ k =>
        by_cases hq : (List.lookup (sup.getD symObject) u.globals).getD .none = .none
        · obtain ⟨_, _, _, _, _, _, _, _, _, u2, _, _, _, _, _, _, _, _, _, _, hu2⟩ := loadClass_ok hq hl
          rw [hu2]
          simp [List.lookup]
        · cases hg : List.lookup (sup.getD symObject) u.globals with
          | none => rw [hg] at hq; exact absurd rfl hq
          | some v =>
            rw [loadClass_set (fun h => hq (by rw [hg, h]; rfl)) hg] at hl
            cases hl
            exact hg
    have hb : ((sup.getD symObject) == n) = false := by simpa using hsn
    refine ⟨t, i, cl, s, u1.classes.length, sm, ⟨hs, hr, ?_, ⟨name, sup, hh, ?_, ?_, hnm⟩, ⟨_, hsup, ?_, ?_, ?_, ?_⟩, ⟨fs, ?_, ?_⟩, ⟨cfs, ?_, ?_⟩, ?_⟩, hlen, Nat.lt_succ_self _⟩ <;> rw [hu]
    · rw [at_snd, at_fst]; exact ⟨rfl, rfl⟩
    · rw [at_snd]; rfl
    · rw [at_fst]; rfl
    · simp only [List.lookup, hb]; exact hlk
    · rw [at_snd]; rfl
    · rw [old s ltS]; exact hsm
    · rw [at_fst]; rfl
    · rw [old s ltS]; exact hf
    · rw [at_snd]; rfl
    · rw [old sm (by
        rcases Nat.lt_or_ge sm u1.classes.length with h1 | h1
        · exact h1
        · rw [U.at_out u1 sm h1] at hcf; cases hcf)]
      exact hcf
    · rw [at_fst]; rfl
    · simp [List.lookup]

example : ∃ t i cl s m sm, Loaded 1 Demo.env "Point3D".toList 39 Demo.loaded t i cl s m sm ∧ Demo.started.classes.length ≤ m ∧ m < 39 :=
  C55_loaded_partial (by decide +kernel) Demo.loads
/-- … with the fields of `Point` before its own. -/
example : (Demo.loaded.at 39).fields = some ["x".toList, "y".toList, "z".toList] ∧ (Demo.loaded.at 39).sup = some 37 ∧ (Demo.loaded.at 37).name = some "Point".toList := by decide +kernel

/-- **C55.** A class never changes any more, whatever is loaded, entered or set: its name, class, superclass, fields and methods stay. -/
theorem C55_stays {«meta» : Cid} {env : Env} {P : Name → Prop} {u u' : U} (h : Goes «meta» env P u u') {c : Cid} (hc : c < u.classes.length) : u'.at c = u.at c := by
  have : u.classes <+: u'.classes := by
    induction h with
    | stay => exact List.prefix_refl _
    | load u' k n _ ih => exact ih.trans (Later.loadClass «meta» env k n u').classes
    | shell u' k t _ ih => exact ih.trans (Later.compile (Later.loadClass «meta» env k) «meta» t u').classes
    | put u' n v _ _ ih => exact ih
  obtain ⟨xs, hx⟩ := this
  obtain ⟨cl, gl⟩ := u'
  cases hx
  exact U.at_app u xs gl c hc

/-- **C55.** A name stands for the same class until the program itself sets the global: loading it again answers the class and changes nothing, whatever happened in between. -/
theorem C55_again {«meta» : Cid} {env : Env} {P : Name → Prop} {k k' : Nat} {n : Name} {u u' u'' : U} {v : Glob} (hv : v ≠ .none) (h : loadClass «meta» env k n u = (.ok v, u'))
    (hg : Goes «meta» env P u' u'') (hP : ¬ P n) : loadClass «meta» env (k' + 1) n u'' = (.ok v, u'') := by
  have hset : List.lookup n u'.globals = some v := by
    cases k with
    | zero => cases h
    | succ k =>
      by_cases hq : (List.lookup n u.globals).getD .none = .none
      · cases v with
        | none => exact absurd rfl hv
        | cls c =>
          obtain ⟨_, _, _, _, _, _, _, _, _, u2, _, _, _, _, _, _, _, _, _, _, hu2⟩ := loadClass_ok hq h
          rw [hu2]
          simp [List.lookup]
        | obj o =>
          rw [loadClass_unset hq] at h
          rcases hf : loadFile «meta» env (loadClass «meta» env k) n none env.classpath u with ⟨r, u2⟩
          rw [hf] at h
          cases r with
          | error e => cases h
          | ok r =>
            cases r with
            | none => cases h
            | some c =>
              obtain ⟨t, hs, ⟨name, sup, i, cl, s, sm, fs, cfs, u1, hh, hr, hne, hl, hff, hsm, hcf, rfl, rfl⟩, hx⟩ := loadFile_ok hf
              dsimp only at h
              rw [finish_eq] at h
              cases h
      · cases hw : List.lookup n u.globals with
        | none => rw [hw] at hq; exact absurd rfl hq
        | some w =>
          rw [loadClass_set (fun h => hq (by rw [hw, h]; rfl)) hw] at h
          cases h
          exact hw
  have : List.lookup n u''.globals = some v := by
    clear h
    induction hg with
    | stay => exact hset
    | load u' k n' _ ih => exact (Later.loadClass «meta» env k n' u').globals n v hv ih
    | shell u' k t _ ih => exact (Later.compile (Later.loadClass «meta» env k) «meta» t u').globals n v hv ih
    | put u' n' v' _ hn' ih =>
      have hb : (n == n') = false := by
        rw [beq_eq_false_iff_ne]
        intro he
        subst he
        exact hP hn'
      show List.lookup n ((n', v') :: u'.globals) = some v
      simp only [List.lookup, hb]
      exact ih
  exact loadClass_set hv this

/-- `Point3D` is not loaded again when `Point` or the unknown `Square` are loaded in between. -/
example : loadClass 1 Demo.env 1 "Point3D".toList (loadClass 1 Demo.env 5 "Square".toList Demo.loaded).2 = (.ok (.cls 39), (loadClass 1 Demo.env 5 "Square".toList Demo.loaded).2) :=
  C55_again (P := fun _ => False) (k' := 0) (by decide) Demo.loads (.load _ _ 5 _ (.stay _)) (fun h => h)
example : (loadClass 1 Demo.env 5 "Square".toList Demo.loaded).2.at 39 = Demo.loaded.at 39 :=
  C55_stays (P := fun _ => False) (.load _ _ 5 _ (.stay _)) (by decide +kernel)

/-- **C55.** Loading ends if the superclasses of the files on the class path have no cycle, whatever the state is: a recursion deeper than the chain of superclasses is never needed. -/
theorem C55_ends («meta» : Cid) (env : Env) (rank : Name → Nat) (hr : ∀ n t m, source env n = some t → t.super = some m → rank m < rank n) (n : Name) (k : Nat) (hk : rank n < k) (u : U) :
    (loadClass «meta» env k n u).1 ≠ .error .recursion := loadClass_ends «meta» env rank hr k n u hk

/-- **C55.** And once it ends, a larger bound on the recursion makes no difference. -/
theorem C55_bound («meta» : Cid) (env : Env) (n : Name) (k j : Nat) (u : U) (h : (loadClass «meta» env k n u).1 ≠ .error .recursion) :
    loadClass «meta» env (k + j) n u = loadClass «meta» env k n u := by
  induction j with
  | zero => rfl
  | succ j ih => rw [← ih]; exact loadClass_more «meta» env (k + j) n u (by unfold Ends; rw [ih]; exact h)

example (j : Nat) : loadClass 1 Demo.env (5 + j) "Point3D".toList Demo.started = (.ok (.cls 39), Demo.loaded) := by
  rw [C55_bound 1 Demo.env _ 5 j Demo.started (by have := Demo.loads; rw [show loadClass 1 = loadClass sys0.meta from rfl, this]; intro h; cases h)]
  exact Demo.loads

/-- **C55.** But a cycle of superclasses is not noticed: if every class of a set is not loaded yet and has a file whose superclass is in the set, loading any of them exceeds every bound on
the recursion. -/
theorem C55_violated_cycle («meta» : Cid) (env : Env) (S : Name → Prop) (u : U)
    (hS : ∀ n, S n → (List.lookup n u.globals).getD .none = .none ∧ ∃ t m, source env n = some t ∧ t.super = some m ∧ S m) (n : Name) (hn : S n) (k : Nat) :
    loadClass «meta» env k n u = (.error .recursion, u) := loadClass_cycle «meta» env S u hS k n hn

example (k : Nat) : loadClass 1 Demo.env k "Hen".toList Demo.started = (.error .recursion, Demo.started) :=
  C55_violated_cycle 1 Demo.env (fun n => n = "Hen".toList ∨ n = "Egg".toList) Demo.started (fun n hn => by
    rcases hn with rfl | rfl
    · exact ⟨by decide +kernel, Demo.file "Hen" (some "Egg") [] [], "Egg".toList, by decide +kernel, by decide +kernel, .inr rfl⟩
    · exact ⟨by decide +kernel, Demo.file "Egg" (some "Hen") [] [], "Hen".toList, by decide +kernel, by decide +kernel, .inl rfl⟩) _ (.inl rfl) k

/-- **C55.** A class with `nil` as superclass can be written but not loaded: an exception of the host language. -/
theorem C55_violated_root : Demo.raises (loadClass 1 Demo.env 5 "Root".toList Demo.started) .attribute = true := by decide +kernel

/-- … as is a file with another class in it: the system is left. -/
example : Demo.raises (loadClass 1 Demo.env 5 "Other".toList Demo.started) (.exit 1) = true := by decide +kernel

/-- The same system, but in the file for `Symbol` there is a class `Sign` with superclass `Integer`, and `Class` has a field. -/
def Demo.oddFiles (p : Nat) (n : Name) : Option Text :=
  if n = "Symbol".toList then some (file "Sign" (some "Integer") [] [])
  else if n = "Class".toList then some (file "Class" none ["secret"] [])
  else Demo.env.files p n
def Demo.oddEnv : Env := { Demo.env with files := Demo.oddFiles }

/-- **C55.** For the classes that the VM makes itself, name and superclass of the file are ignored. -/
theorem C55_violated_system : ∃ u, boot Demo.oddEnv 5 ⟨[], []⟩ = (.ok sys0, u) ∧ (u.at sys0.symbol).name = some "Symbol".toList ∧ (u.at sys0.symbol).sup = some sys0.string ∧
    sys0.string ≠ sys0.integer := ⟨_, Demo.gives_eq (by decide +kernel), by decide +kernel, by decide +kernel, by decide⟩

/-- **C55.** And the fields of `Class` are not fields of its subclass `Object class`: that has none. -/
theorem C55_violated_fields : ∃ u, boot Demo.oddEnv 5 ⟨[], []⟩ = (.ok sys0, u) ∧ (u.at sys0.class_).fields = some ["secret".toList] ∧ (u.at sys0.object).cls = some 2 ∧
    (u.at 2).sup = some sys0.class_ ∧ (u.at 2).fields = some [] := ⟨_, Demo.gives_eq (by decide +kernel), by decide +kernel, by decide +kernel, by decide +kernel, by decide +kernel⟩

/-! ## C56 -/

/-- **C56.** The methods of a loaded class, on both sides: for a selector for which the VM has a primitive of this class, the primitive, if the file declares any primitives; otherwise the
last method of that name in the file, with its body or empty; nothing else.  The methods know their class as holder. -/
theorem C56_methods {«meta» : Cid} {env : Env} {k : Nat} {n : Name} {u u' : U} {c : Cid} (hn : (List.lookup n u.globals).getD .none = .none)
    (h : loadClass «meta» env k n u = (.ok (.cls c), u')) {t : Text} {name : Name} {sup : Option Name} {i cl : Side} (ht : source env n = some t) (hh : t.head = some (name, sup))
    (hr : t.rest = some (i, cl)) (sel : Name) :
    let vm := if i.prims || cl.prims then (env.known name).getD ([], []) else ([], [])
    (u'.at c).method sel = (if sel ∈ vm.1 then some ⟨sel, .vm, c⟩ else (lastMeth i.meths sel).map fun b => ⟨sel, match b with | some b => .code b | none => .empty, c⟩) ∧
    ∃ m, (u'.at c).cls = some m ∧
      (u'.at m).method sel = (if sel ∈ vm.2 then some ⟨sel, .vm, m⟩ else (lastMeth cl.meths sel).map fun b => ⟨sel, match b with | some b => .code b | none => .empty, m⟩) := by
  cases k with
  | zero => cases h
  | succ k =>
    obtain ⟨t', name', sup', i', cl', s, sm, fs, cfs, u1, hs, hh', hr', _, _, _, _, _, _, hc, hu⟩ := loadClass_ok hn h
    cases Option.some.inj (hs.symm.trans ht)
    cases Option.some.inj (hh'.symm.trans hh)
    cases Option.some.inj (hr'.symm.trans hr)
    have hk : ∀ c, (fun b : Option Nat => (⟨sel, match b with | some b => .code b | none => .empty, c⟩ : Entry)) = fun b => ⟨sel, kindOf b, c⟩ := fun c => by funext b; cases b <;> rfl
    subst hc
    dsimp only
    rw [hu, hk]
    refine ⟨?_, u1.classes.length, ?_, ?_⟩
    · rw [at_snd]
      unfold Cls.method
      dsimp only
      rw [find_enter, find_table]
      rfl
    · rw [at_snd]; rfl
    · rw [at_fst, hk]
      unfold Cls.method
      dsimp only
      rw [find_enter, find_table]
      rfl

/-- In the example: the primitive `length` is that of the VM, `z` the method of the file, `what` is empty … -/
example : (Demo.loaded.at 39).method "length".toList = some ⟨"length".toList, .vm, 39⟩ ∧ (Demo.loaded.at 39).method "z".toList = some ⟨"z".toList, .code 4, 39⟩ ∧
    (Demo.loaded.at 39).method "what".toList = some ⟨"what".toList, .empty, 39⟩ := by decide +kernel
/-- … and in `Point`, the last `x` counts. -/
example : (Demo.loaded.at 37).method "x".toList = some ⟨"x".toList, .code 3, 37⟩ := by decide +kernel

/-- **C56.** The methods of a class that the VM makes itself, when its file is loaded: the same, but the primitives of the VM are entered even if the file declares none.  Name, class and
superclass stay as the VM has made them. -/
theorem C56_system {«meta» : Cid} {env : Env} {k : Nat} {c m : Cid} {n : Name} {u u' : U} (hx : env.avoidExit = false) (hn : (u.at c).name = some n) (hm : (u.at c).cls = some m)
    (hl : m < u.classes.length) (hne : m ≠ c) (ht : (u.at c).table = none) (ht' : (u.at m).table = none) (h : loadSystem «meta» env k c u = (.ok (), u')) :
    ∃ t i cl, source env n = some t ∧ t.rest = some (i, cl) ∧
      (∀ sel, (u'.at c).method sel =
        (if sel ∈ ((env.known n).getD ([], [])).1 then some ⟨sel, .vm, c⟩ else (lastMeth i.meths sel).map fun b => ⟨sel, match b with | some b => .code b | none => .empty, c⟩)) ∧
      (∀ sel, (u'.at m).method sel =
        (if sel ∈ ((env.known n).getD ([], [])).2 then some ⟨sel, .vm, m⟩ else (lastMeth cl.meths sel).map fun b => ⟨sel, match b with | some b => .code b | none => .empty, m⟩)) ∧
      (u'.at c).name = some n ∧ (u'.at c).cls = some m ∧ (u'.at c).sup = (u.at c).sup ∧ (u'.at m).sup = (u.at m).sup := by
  obtain ⟨t, name, sup, i, cl, u1, g, hs, hh, hr, _, _, _, _, o⟩ := loadSystem_ok hx hn hm hl hne ht ht' h
  have hk : ∀ sel c, (fun b : Option Nat => (⟨sel, match b with | some b => .code b | none => .empty, c⟩ : Entry)) = fun b => ⟨sel, kindOf b, c⟩ := fun sel c => by
    funext b; cases b <;> rfl
  refine ⟨t, i, cl, hs, hr, fun sel => ?_, fun sel => ?_, ?_, ?_, ?_, ?_⟩
  · rw [o.fst, hk]
    unfold Cls.method
    dsimp only
    rw [find_enter, find_table]
  · rw [o.snd, hk]
    unfold Cls.method
    dsimp only
    rw [find_enter, find_table]
  · rw [o.fst]; exact hn
  · rw [o.fst]; exact hm
  · rw [o.fst]
  · rw [o.snd]

/-- `Object` in the example. -/
example : ((loadSystem 1 Demo.env 5 3 u0).2.at 3).method "hashcode".toList = some ⟨"hashcode".toList, .vm, 3⟩ ∧ ((loadSystem 1 Demo.env 5 3 u0).2.at 3).method "==".toList = some ⟨"==".toList, .vm, 3⟩ ∧
    ((loadSystem 1 Demo.env 5 3 u0).2.at 3).method "asString".toList = some ⟨"asString".toList, .code 7, 3⟩ := by
  obtain ⟨t, i, cl, hs, hr, h1, _⟩ := C56_system («meta» := 1) (env := Demo.env) (k := 5) (c := 3) (m := 2) (n := symObject) (u := u0) rfl (by decide +kernel) (by decide +kernel) (by decide +kernel) (by decide)
    (by decide +kernel) (by decide +kernel) (Demo.gives_eq (by decide +kernel))
  have ht : source Demo.env symObject = some (Demo.file "Object" (some "nil") [] [("asString", some 7), ("hashcode", none)]) := by decide +kernel
  cases Option.some.inj (hs.symm.trans ht)
  cases hr
  exact ⟨(h1 _).trans (by decide +kernel), (h1 _).trans (by decide +kernel), (h1 _).trans (by decide +kernel)⟩

/-- **C56.** What should hold: a method with a body is executed if its selector is sent.  It does, if the VM has no primitive for the selector in this class. -/
theorem C56_body_partial {«meta» : Cid} {env : Env} {k : Nat} {n : Name} {u u' : U} {c : Cid} (hn : (List.lookup n u.globals).getD .none = .none)
    (h : loadClass «meta» env k n u = (.ok (.cls c), u')) {t : Text} {name : Name} {sup : Option Name} {i cl : Side} (ht : source env n = some t) (hh : t.head = some (name, sup))
    (hr : t.rest = some (i, cl)) (sel : Name) (b : Nat) (hb : lastMeth i.meths sel = some (some b)) (hv : sel ∉ ((env.known name).getD ([], [])).1) :
    (u'.at c).method sel = some ⟨sel, .code b, c⟩ := by
  have := (C56_methods hn h ht hh hr sel).1
  rw [this, hb, if_neg]
  · rfl
  · split
    · exact hv
    · exact (nomatch ·)

/-- **C56.** But if the class declares some primitive, the primitives of the VM replace methods that the file defines in SOM: here, `hash`. -/
theorem C56_violated : (lastMeth [("length".toList, none), ("z".toList, some 4), ("hash".toList, some 5), ("what".toList, none)] "hash".toList = some (some 5)) ∧
    (Demo.loaded.at 39).method "hash".toList = some ⟨"hash".toList, .vm, 39⟩ := by decide +kernel

end PySOM.Boot

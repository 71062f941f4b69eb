import Verif.Lemmas.UniverseSystem
import Verif.Spec.ClassFiles
/-!
# Classes are those that the files describe: the invariant of loading
-/
set_option autoImplicit false
namespace PySOM.Boot

/-- The classes that the VM makes. -/
def sysIds : List (Name × Cid) :=
  [("Object".toList, 3), ("Class".toList, 7), ("Metaclass".toList, 1), ("Nil".toList, 5), ("Array".toList, 9), ("Method".toList, 13), ("String".toList, 19), ("Symbol".toList, 11), ("Integer".toList, 15),
   ("Primitive".toList, 17), ("Double".toList, 21)]

/-- Which class it is: the name, and whether it is a metaclass. -/
structure Is (env : Env) (u : U) (d : Desc) (c : Cid) : Prop where
  name : (u.at c).name = some (if d.onClass then className d.name else d.name)
  cls : ∃ m, (u.at c).cls = some m ∧ (d.onClass = true ↔ m = 1)
  own : ∀ x ∈ sysIds, d.name = x.1 → c = if d.onClass then x.2 - 1 else x.2
  flds : NoFields env → ∃ fs, (u.at c).fields = some fs ∧ Fields env d fs

theorem className_inj {n n' : Name} (h : className n = className n') : n = n' := List.append_cancel_right h

theorem Is.eq {env : Env} {u : U} {d d' : Desc} {c : Cid} (h : Is env u d c) (h' : Is env u d' c) : d = d' := by
  obtain ⟨b, n⟩ := d
  obtain ⟨b', n'⟩ := d'
  obtain ⟨m, hm, hb⟩ := h.cls
  obtain ⟨m', hm', hb'⟩ := h'.cls
  cases Option.some.inj (hm.symm.trans hm')
  have hbb : b = b' := by
    have := hb.trans hb'.symm
    dsimp only at this
    cases b <;> cases b' <;> simp_all
  subst hbb
  have hn := Option.some.inj (h.name.symm.trans h'.name)
  cases b with
  | false => simpa using hn
  | true =>
    have : className n = className n' := by simpa using hn
    rw [className_inj this]

theorem Is.lt {env : Env} {u : U} {d : Desc} {c : Cid} (h : Is env u d c) : c < u.classes.length := by
  obtain ⟨m, hm, _⟩ := h.cls
  exact U.lt_of_cls hm

/-- The methods are these. -/
def Tab (f : Name → Option Kind) (u : U) (c : Cid) : Prop := ∀ sel, (u.at c).method sel = (f sel).map fun k => ⟨sel, k, c⟩

/-- During the start, the classes in `T`, which the VM has made, do not have their methods yet. -/
def Want (env : Env) (T : Name → Prop) (u : U) (d : Desc) (c : Cid) : Prop := ¬ T d.name → Tab (declares env d) u c ∧ Filed env d.name

inductive Part (env : Env) (T : Name → Prop) (u : U) : Desc → Cid → Prop where
  | top (d : Desc) (c : Cid) (hi : Is env u d c) (ht : Want env T u d c) (hs : (u.at c).sup = none) (ha : above env d = none) : Part env T u d c
  | sub (d d' : Desc) (c s : Cid) (hi : Is env u d c) (ht : Want env T u d c) (hs : (u.at c).sup = some s) (ha : above env d = some d') (h : Part env T u d' s) : Part env T u d c

theorem Part.is {env : Env} {T : Name → Prop} {u : U} {d : Desc} {c : Cid} (h : Part env T u d c) : Is env u d c := by cases h <;> assumption
theorem Part.want {env : Env} {T : Name → Prop} {u : U} {d : Desc} {c : Cid} (h : Part env T u d c) : Want env T u d c := by cases h <;> assumption

theorem Part.described {env : Env} {T : Name → Prop} {u : U} {d : Desc} {c : Cid} (hT : ∀ n, ¬ T n) (h : Part env T u d c) : Described env u d c := by
  induction h with
  | top d c hi ht hs ha => exact .top d c hi.name (ht (hT _)).2 (ht (hT _)).1 hi.flds hs ha
  | sub d d' c s hi ht hs ha _ ih => exact .sub d d' c s hi.name (ht (hT _)).2 (ht (hT _)).1 hi.flds hs ha ih

/-- The classes change in their tables only. -/
theorem Part.change {env : Env} {T T' : Name → Prop} {u u' : U} {d : Desc} {c : Cid} (h : Part env T u d c)
    (hc : ∀ x, x < u.classes.length → (u'.at x).name = (u.at x).name ∧ (u'.at x).cls = (u.at x).cls ∧ (u'.at x).sup = (u.at x).sup ∧ (NoFields env → (u'.at x).fields = (u.at x).fields)) (ht : ∀ d x, Is env u d x → Want env T u d x → Want env T' u' d x) :
    Part env T' u' d c := by
  have his : ∀ {d x}, Is env u d x → Is env u' d x := fun {d x} h => by
    obtain ⟨h1, h2, _, h3⟩ := hc x h.lt
    exact ⟨h1.trans h.name, by rw [h2]; exact h.cls, h.own, fun hn => by rw [h3 hn]; exact h.flds hn⟩
  induction h with
  | top d c hi hw hs ha => exact .top d c (his hi) (ht d c hi hw) ((hc c hi.lt).2.2.1.trans hs) ha
  | sub d d' c s hi hw hs ha _ ih => exact .sub d d' c s (his hi) (ht d c hi hw) ((hc c hi.lt).2.2.1.trans hs) ha ih

theorem Tab.same {f : Name → Option Kind} {u u' : U} {c : Cid} (h : Tab f u c) (he : (u'.at c).table = (u.at c).table) : Tab f u' c := fun sel => by
  unfold Cls.method
  rw [he]
  exact h sel

theorem Want.same {env : Env} {T : Name → Prop} {u u' : U} {d : Desc} {c : Cid} (h : Want env T u d c) (he : (u'.at c).table = (u.at c).table) : Want env T u' d c :=
  fun hT => ⟨(h hT).1.same he, (h hT).2⟩

theorem Part.same {env : Env} {T : Name → Prop} {u u' : U} {d : Desc} {c : Cid} (h : Part env T u d c) (hc : ∀ x, x < u.classes.length → u'.at x = u.at x) : Part env T u' d c :=
  h.change (fun x hx => by rw [hc x hx]; exact ⟨rfl, rfl, rfl, fun _ => rfl⟩) fun d x hi hw => hw.same (by rw [hc x hi.lt])

/-- The class and its metaclass. -/
def Both (env : Env) (T : Name → Prop) (u : U) (n : Name) (c : Cid) : Prop := Part env T u ⟨false, n⟩ c ∧ ∃ m, (u.at c).cls = some m ∧ Part env T u ⟨true, n⟩ m

theorem Both.same {env : Env} {T : Name → Prop} {u u' : U} {n : Name} {c : Cid} (h : Both env T u n c) (hc : ∀ x, x < u.classes.length → u'.at x = u.at x) : Both env T u' n c := by
  obtain ⟨h1, m, hm, h2⟩ := h
  exact ⟨h1.same hc, m, by rw [hc c h1.is.lt]; exact hm, h2.same hc⟩

theorem Both.change {env : Env} {T T' : Name → Prop} {u u' : U} {n : Name} {c : Cid} (h : Both env T u n c)
    (hc : ∀ x, x < u.classes.length → (u'.at x).name = (u.at x).name ∧ (u'.at x).cls = (u.at x).cls ∧ (u'.at x).sup = (u.at x).sup ∧ (NoFields env → (u'.at x).fields = (u.at x).fields)) (ht : ∀ d x, Is env u d x → Want env T u d x → Want env T' u' d x) :
    Both env T' u' n c := by
  obtain ⟨h1, m, hm, h2⟩ := h
  exact ⟨h1.change hc ht, m, (hc c h1.is.lt).2.1.trans hm, h2.change hc ht⟩

/-- It may be loaded: the special classes in `B` may not. -/
def May (B : Name → Prop) (n : Name) : Prop := n ∈ specials → ¬ B n

structure Files (env : Env) (P T B : Name → Prop) (u : U) : Prop where
  sys : ∀ x ∈ sysIds, Both env T u x.1 x.2
  bound : ∀ x ∈ sysIds, ¬ P x.1 → List.lookup x.1 u.globals = some (.cls x.2)
  glob : ∀ n c, List.lookup n u.globals = some (.cls c) → Clean env P n → Both env T u n c
  spec : ∀ n ∈ specials, ¬ B n → ¬ P n → ∃ c, List.lookup n u.globals = some (.cls c)
  free : ∀ n ∈ specials, B n → (List.lookup n u.globals).getD .none = .none

section
variable {env : Env} {P T B : Name → Prop}

theorem Files.app {u : U} (h : Files env P T B u) (xs : List Cls) : Files env P T B ⟨u.classes ++ xs, u.globals⟩ := by
  have hc : ∀ x, x < u.classes.length → U.at ⟨u.classes ++ xs, u.globals⟩ x = u.at x := fun x hx => U.at_app u xs u.globals x hx
  exact ⟨fun x hx => (h.sys x hx).same hc, h.bound, fun n c hn hp => (h.glob n c hn hp).same hc, h.spec, h.free⟩

theorem lookup_set (n m : Name) (v : Glob) (g : List (Name × Glob)) : List.lookup m ((n, v) :: g) = if m = n then some v else List.lookup m g := by
  by_cases h : m = n
  · subst h; simp [List.lookup]
  · have hb : (m == n) = false := by simpa using h
    simp only [List.lookup, hb, if_neg h]

/-- A global gets a value: a class as described, or something else if that is allowed. -/
theorem Files.set {u : U} (h : Files env P T B u) (n : Name) (v : Glob) (hv : ∀ c, v = .cls c → Clean env P n → Both env T u n c)
    (hs : (∃ c, v = .cls c ∧ ∀ x ∈ sysIds, x.1 = n → x.2 = c) ∨ P n ∨ ((∀ x ∈ sysIds, x.1 ≠ n) ∧ n ∉ specials))
    (hf : n ∈ specials → ¬ B n) : Files env P T B ⟨u.classes, (n, v) :: u.globals⟩ := by
  refine ⟨fun x hx => (h.sys x hx).same fun _ _ => rfl, fun x hx hp => ?_, fun m c hm hp => ?_, fun m hm hB hp => ?_, fun m hm hB => ?_⟩
  · dsimp only
    rw [lookup_set]
    split
    · rename_i he
      rcases hs with ⟨c, rfl, hs⟩ | hs | hs
      · rw [hs x hx he]
      · exact absurd (he ▸ hs) hp
      · exact absurd he (hs.1 x hx)
    · exact h.bound x hx hp
  · dsimp only at hm
    rw [lookup_set] at hm
    split at hm
    · rename_i he
      subst he
      exact (hv c (Option.some.inj hm) hp).same fun _ _ => rfl
    · exact (h.glob m c hm hp).same fun _ _ => rfl
  · dsimp only
    rw [lookup_set]
    split
    · rename_i he
      rcases hs with ⟨c, rfl, hs⟩ | hs | hs
      · exact ⟨c, rfl⟩
      · exact absurd (he ▸ hs) hp
      · exact absurd (he ▸ hm) hs.2
    · exact h.spec m hm hB hp
  · dsimp only
    rw [lookup_set, if_neg]
    · exact h.free m hm hB
    · rintro rfl
      exact hf hm hB

theorem own_sys : ∀ n, (List.lookup n ownClasses).isSome = true → ∃ x ∈ sysIds, x.1 = n := by
  intro n h
  have key : ∀ e ∈ ownClasses, ∃ x ∈ sysIds, x.1 = e.1 := by decide +kernel
  cases hl : List.lookup n ownClasses with
  | none => rw [hl] at h; cases h
  | some s =>
    have : (n, s) ∈ ownClasses := by
      have := List.lookup_eq_some_iff.1 hl
      obtain ⟨l1, l2, he, _⟩ := this
      rw [he]
      simp
    exact key _ this

theorem Clean.self {n : Name} (h : Clean env P n) : ¬ P n := h n (.refl n)
theorem Clean.super {n m : Name} (h : Clean env P n) (hs : superOf env n = some m) : Clean env P m := fun x hx => h x (.step n m x hs hx)

/-- Loading keeps the invariant, and what it answers is what the files describe. -/
def Keeps (env : Env) (P T B : Name → Prop) (load : Name → M Glob) : Prop := ∀ n u, May B n → Files env P T B u →
  Files env P T B (load n u).2 ∧ ∀ c u', load n u = (.ok (.cls c), u') → Clean env P n → Both env T u' n c

/-- Computations that keep the invariant. -/
def Keep {α : Type} (env : Env) (P T B : Name → Prop) (u : U) (r : Except Err α × U) : Prop := Files env P T B u → Files env P T B r.2

theorem Keep.bind {α β : Type} {m : M α} {k : α → M β} {u : U} (h : Keep env P T B u (m u)) (h' : ∀ a u', m u = (.ok a, u') → Keep env P T B u' (k a u')) :
    Keep env P T B u ((m >>= k) u) := by
  rw [bind_run]
  intro hi
  have h1 := h hi
  rcases hm : m u with ⟨r, u'⟩
  rw [hm] at h1
  cases r with
  | error e => exact h1
  | ok a => exact h' a u' hm h1

theorem Keep.same {α : Type} {u : U} {r : Except Err α × U} (h : r.2 = u) : Keep env P T B u r := fun hi => by rw [h]; exact hi

theorem Keep.fieldsOf (c : Cid) (u : U) : Keep env P T B u (fieldsOf c u) := by
  rw [fieldsOf_eq]; split <;> exact .same rfl

theorem Keep.classOf (c : Cid) (u : U) : Keep env P T B u (classOf c u) := by
  rw [classOf_eq]; split <;> exact .same rfl

theorem Keep.classdef {load : Name → M Glob} (hl : Keeps env P T B load) {t : Text} (ht : ∀ m, t.super = some m → May B m) (u : U) : Keep env P T B u (classdef load t u) := by
  unfold Boot.classdef
  cases hh : t.head with
  | none => exact .same rfl
  | some p =>
    obtain ⟨name, sup⟩ := p
    refine Keep.bind ?_ fun a u' _ => ?_
    · split
      · exact .same rfl
      · rename_i hne
        have hm : May B (sup.getD symObject) := ht _ (by unfold Text.super; rw [hh]; exact if_neg hne)
        refine Keep.bind (fun hi => (hl _ _ hm hi).1) fun v u' _ => ?_
        cases v with
        | none => exact .same rfl
        | obj o => exact .same rfl
        | cls s => exact (Keep.fieldsOf _ _).bind fun _ _ _ => (Keep.classOf _ _).bind fun _ _ _ => (Keep.fieldsOf _ _).bind fun _ _ _ => .same rfl
    · obtain ⟨s, fs, cfs⟩ := a
      dsimp only
      cases t.rest <;> exact .same rfl

theorem Keep.assemble («meta» : Cid) (g : Cgc) (u : U) : Keep env P T B u (assemble «meta» g u) := by
  rw [assemble_eq]
  unfold assembled
  split
  · exact .same rfl
  · dsimp only
    split
    · exact fun h => h.app _
    · split
      · exact fun h => h.app _
      · exact fun h => h.app _

theorem Keep.compile {load : Name → M Glob} (hl : Keeps env P T B load) {t : Text} (ht : ∀ m, t.super = some m → May B m) («meta» : Cid) (u : U) :
    Keep env P T B u (compile «meta» load t none u) :=
  (Keep.classdef hl ht u).bind fun g u' _ => Keep.assemble «meta» g u'


theorem NoSpecial.may (h : NoSpecial env) {n : Name} {t : Text} (hs : source env n = some t) : ∀ m, t.super = some m → May B m := fun m hm hb => absurd hb (h n t m hs hm)

theorem Keep.loadFile (hB : NoSpecial env) {load : Name → M Glob} (hl : Keeps env P T B load) («meta» : Cid) (n : Name) (u : U) :
    Keep env P T B u (loadFile «meta» env load n none env.classpath u) := by
  rw [loadFile_eq]
  have hsrc : (env.classpath.findSome? fun p => env.files p n) = source env n := rfl
  rw [hsrc]
  cases hs : source env n with
  | none => exact .same rfl
  | some t =>
    refine (Keep.compile hl (hB.may hs) _ _).bind fun c u' _ => Keep.bind (.same rfl) fun a u'' _ => ?_
    split
    · exact .same rfl
    · refine Keep.bind ?_ fun _ _ _ => .same rfl
      unfold exit_
      split <;> exact .same rfl

/-- What a new class has. -/
theorem entry_tab {xs : List Name} {side : Side} {u : U} {c : Cid} (h : (u.at c).table = enter c xs (tableOf c side.meths)) : Tab (entryOf xs side) u c := fun sel => by
  unfold Cls.method entryOf
  rw [h, find_enter, find_table]
  split
  · rfl
  · cases lastMeth side.meths sel with
    | none => rfl
    | some b => cases b <;> rfl

theorem superOf_file {n : Name} {t : Text} (ho : List.lookup n ownClasses = none) (hs : source env n = some t) : superOf env n = t.super := by
  unfold superOf
  rw [ho, hs]; rfl

theorem above_some {n m : Name} (h : superOf env n = some m) (b : Bool) : above env ⟨b, n⟩ = some ⟨b, m⟩ := by
  unfold above
  dsimp only
  rw [h]

theorem no_sys {n : Name} {b : Bool} {c : Cid} (ho : List.lookup n ownClasses = none) : ∀ x ∈ sysIds, (Desc.mk b n).name = x.1 → c = if (Desc.mk b n).onClass then x.2 - 1 else x.2 := fun x hx hn => by
  have key : ∀ x ∈ sysIds, (List.lookup x.1 ownClasses).isSome = true := by decide +kernel
  have := key x hx
  rw [← show n = x.1 from hn, ho] at this
  cases this

/-- A class that was just made is as described, if its methods are. -/
theorem new_both {n : Name} {t : Text} {sup : Option Name} {i cl : Side} {s sm : Cid} {fs cfs : List Name} {u1 u' : U} {gl : List (Name × Glob)} {t1 t2 : Option (List Entry)} (hsrc : source env n = some t)
    (hh : t.head = some (n, sup)) (hne : sup.getD symObject ≠ symNil) (ho : List.lookup n ownClasses = none) (hb : Both env T u1 (sup.getD symObject) s)
    (hsm : (u1.at s).cls = some sm) (hr : t.rest = some (i, cl)) (hff : (u1.at s).fields = some fs) (hcf : (u1.at sm).fields = some cfs) (h2 : 1 < u1.classes.length)
    (hu : u' = ⟨u1.classes ++ [{ newMeta (u1.width 1) 1 sm u1.classes.length n cfs cl with table := t1 }, { newInst (cfs ++ cl.fields).length s u1.classes.length n fs i with table := t2 }], gl⟩)
    (hw1 : Want env T u' ⟨false, n⟩ (u1.classes.length + 1)) (hw2 : Want env T u' ⟨true, n⟩ u1.classes.length) : Both env T u' n (u1.classes.length + 1) := by
  have hsup : superOf env n = some (sup.getD symObject) := by
    rw [superOf_file ho hsrc]
    unfold Text.super
    rw [hh]
    exact if_neg hne
  obtain ⟨hb1, sm', hsm', hb2⟩ := hb
  cases Option.some.inj (hsm.symm.trans hsm')
  have hold : ∀ x, x < u1.classes.length → u'.at x = u1.at x := fun x hx => by rw [hu]; exact U.at_app u1 _ gl x hx
  have e1 : u'.at (u1.classes.length + 1) = { newInst (cfs ++ cl.fields).length s u1.classes.length n fs i with table := t2 } := by rw [hu, at_snd]
  have e2 : u'.at u1.classes.length = { newMeta (u1.width 1) 1 sm u1.classes.length n cfs cl with table := t1 } := by rw [hu, at_fst]
  have hrest : (source env n).bind Text.rest = some (i, cl) := by rw [hsrc]; exact hr
  have hf1 : NoFields env → ∃ fs, (u'.at (u1.classes.length + 1)).fields = some fs ∧ Fields env ⟨false, n⟩ fs := fun hn => by
    obtain ⟨fs', h1, h2⟩ := hb1.is.flds hn
    cases Option.some.inj (hff.symm.trans h1)
    exact ⟨_, by rw [e1]; rfl, .sub ⟨false, n⟩ _ _ _ ho hsup hrest h2⟩
  have hf2 : NoFields env → ∃ fs, (u'.at u1.classes.length).fields = some fs ∧ Fields env ⟨true, n⟩ fs := fun hn => by
    obtain ⟨fs', h1, h2⟩ := hb2.is.flds hn
    cases Option.some.inj (hcf.symm.trans h1)
    exact ⟨_, by rw [e2]; rfl, .sub ⟨true, n⟩ _ _ _ ho hsup hrest h2⟩
  exact ⟨.sub _ ⟨false, sup.getD symObject⟩ _ s
      ⟨by rw [e1]; rfl, ⟨u1.classes.length, by rw [e1]; rfl, Iff.intro (fun h => nomatch h) (fun h => absurd h (Nat.ne_of_gt h2))⟩, no_sys ho, hf1⟩ hw1 (by rw [e1]; rfl)
      (above_some hsup false) (hb1.same hold), u1.classes.length, by rw [e1]; rfl,
    .sub _ ⟨true, sup.getD symObject⟩ _ sm ⟨by rw [e2]; rfl, ⟨1, by rw [e2]; rfl, Iff.intro (fun _ => rfl) (fun _ => rfl)⟩, no_sys ho, hf2⟩ hw2 (by rw [e2]; rfl) (above_some hsup true) (hb2.same hold)⟩

theorem pick_mk {α : Type} (b : Bool) (x y : α) : pick b (x, y) = if b then y else x := rfl

theorem declares_eq {d : Desc} {t : Text} {p : Side × Side} (hs : source env d.name = some t) (hr : t.rest = some p) (sel : Name) :
    declares env d sel = entryOf (pick d.onClass (vmOf env d.name p.1 p.2)) (pick d.onClass p) sel := by
  unfold declares; rw [hs, Option.bind_some, hr]

theorem vmOf_plain {n : Name} {i cl : Side} (ho : List.lookup n ownClasses = none) (hs : n ∉ specials) : vmOf env n i cl = entered env n i cl := by
  have hs : n ≠ "True".toList ∧ n ≠ "False".toList ∧ n ≠ "Block1".toList ∧ n ≠ "Block2".toList ∧ n ≠ "Block3".toList := by
    refine ⟨?_, ?_, ?_, ?_, ?_⟩ <;> (intro h; exact hs (by rw [h]; decide))
  have e : ∀ m : Name, n ≠ m → (n == m) = false := fun m h => by simpa using h
  unfold vmOf entered
  have hb : List.lookup n blocks = none := by
    unfold blocks
    simp only [List.lookup, e _ hs.2.2.1, e _ hs.2.2.2.1, e _ hs.2.2.2.2]
  rw [hb, ho]
  simp only [e _ hs.1, e _ hs.2.1, Option.isSome_none, Bool.false_or]

theorem Files.lt {u : U} (h : Files env P T B u) : 1 < u.classes.length := by
  obtain ⟨h1, _⟩ := h.sys ("Object".toList, 3) (by decide)
  exact Nat.lt_trans (by decide) h1.is.lt

theorem keeps_loadClass (hx : env.avoidExit = false) (hB : NoSpecial env) (k : Nat) : Keeps env P T B (loadClass 1 env k) := by
  induction k with
  | zero => exact fun n u _ hi => ⟨hi, fun c u' h => nomatch h⟩
  | succ k ih =>
    intro n u hm hi
    by_cases hn : (List.lookup n u.globals).getD .none = .none
    · have hf := Keep.loadFile hB ih 1 n u hi
      have hspecial : P n ∨ ((∀ x ∈ sysIds, x.1 ≠ n) ∧ n ∉ specials) := by
        by_cases hp : P n
        · exact .inl hp
        · refine .inr ⟨fun x hx he => ?_, fun h => ?_⟩
          · rw [← he, hi.bound x hx (he ▸ hp)] at hn; cases hn
          · obtain ⟨c, h⟩ := hi.spec n h (hm h) hp
            rw [h] at hn
            cases hn
      cases hok : loadClass 1 env (k + 1) n u with
      | mk r u' =>
      rw [loadClass_unset hn] at hok
      rcases h : Boot.loadFile 1 env (Boot.loadClass 1 env k) n none env.classpath u with ⟨r1, u1⟩
      rw [h] at hf hok
      cases r1 with
      | error e =>
        cases hok
        exact ⟨hf, fun c u' h => nomatch h⟩
      | ok r1 =>
        cases r1 with
        | none =>
          cases hok
          refine ⟨?_, fun c u' h => nomatch h⟩
          exact hf.set n .none (fun c h => nomatch h) (.inr hspecial) hm
        | some c =>
          obtain ⟨t, hs, ⟨name, sup, i, cl, s, sm, fs, cfs, u2, hh, hr, hne, hl, hff, hsm, hcf, rfl, rfl⟩, hx'⟩ := loadFile_ok h
          have hname : name = n := by
            have := hx' hx
            rw [at_snd] at this
            exact Option.some.inj this
          subst hname
          dsimp only at hok
          rw [finish_eq] at hok
          obtain ⟨hi2, hb2⟩ := ih (sup.getD symObject) u (hB.may hs _ (by unfold Text.super; rw [hh]; exact if_neg hne)) hi
          rw [hl] at hi2
          have hnew : ∀ gl, Clean env P name → Both env T ⟨u2.classes ++ [{ newMeta (u2.width 1) 1 sm u2.classes.length name cfs cl with
              table := enter u2.classes.length (entered env name i cl).2 (tableOf u2.classes.length cl.meths) },
              { newInst (cfs ++ cl.fields).length s u2.classes.length name fs i with table := enter (u2.classes.length + 1) (entered env name i cl).1 (tableOf (u2.classes.length + 1) i.meths) }], gl⟩ name
              (u2.classes.length + 1) := by
            intro gl hc
            obtain ⟨hsys, hsp⟩ := hspecial.resolve_left hc.self
            have ho : List.lookup name ownClasses = none := by
              cases ho : List.lookup name ownClasses with
              | none => rfl
              | some s =>
                obtain ⟨x, hx, he⟩ := own_sys name (by rw [ho]; rfl)
                exact absurd he (hsys x hx)
            have hsup : superOf env name = some (sup.getD symObject) := by
              rw [superOf_file ho hs]
              unfold Text.super
              rw [hh]
              exact if_neg hne
            have hfl : Filed env name := ⟨(i, cl), by rw [hs]; exact hr⟩
            refine new_both hs hh hne ho (hb2 s u2 hl (hc.super hsup)) hsm hr hff hcf hi2.lt rfl (fun _ => ⟨fun sel => ?_, hfl⟩) (fun _ => ⟨fun sel => ?_, hfl⟩)
            · rw [declares_eq (d := ⟨false, name⟩) hs hr, vmOf_plain ho hsp]
              exact entry_tab (by rw [at_snd]; rfl) sel
            · rw [declares_eq (d := ⟨true, name⟩) hs hr, vmOf_plain ho hsp]
              exact entry_tab (by rw [at_fst]; rfl) sel
          cases hok
          refine ⟨(hi2.app _).set name _ (fun c hc hcl => ?_) (.inr hspecial) hm, fun c u' h hc => ?_⟩
          · cases hc
            exact hnew _ hcl
          · cases h
            exact hnew _ hc
    · cases hg : List.lookup n u.globals with
      | none => rw [hg] at hn; exact absurd rfl hn
      | some v =>
        rw [loadClass_set (fun h => hn (by rw [hg, h]; rfl)) hg]
        refine ⟨hi, fun c u' h hc => ?_⟩
        cases h
        exact hi.glob n c hg hc
end
end PySOM.Boot

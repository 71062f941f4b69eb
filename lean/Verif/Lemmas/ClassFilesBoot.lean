import Verif.Lemmas.ClassFiles
/-!
# Classes are those that the files describe: the start
-/
set_option autoImplicit false
namespace PySOM.Boot

section
variable {env : Env} {P T B : Name → Prop}

/-- Tables change, and other classes have got theirs. -/
theorem Files.change {T' : Name → Prop} {u u' : U} (h : Files env P T B u) (hg : u'.globals = u.globals)
    (hc : ∀ x, x < u.classes.length → (u'.at x).name = (u.at x).name ∧ (u'.at x).cls = (u.at x).cls ∧ (u'.at x).sup = (u.at x).sup ∧ (NoFields env → (u'.at x).fields = (u.at x).fields))
    (ht : ∀ d x, Is env u d x → Want env T u d x → Want env T' u' d x) : Files env P T' B u' := by
  refine ⟨fun x hx => (h.sys x hx).change hc ht, ?_, fun n c hn hp => ?_, ?_, ?_⟩
  · rw [hg]; exact h.bound
  · rw [hg] at hn
    exact (h.glob n c hn hp).change hc ht
  · rw [hg]; exact h.spec
  · rw [hg]; exact h.free

/-- The classes of the VM. -/
theorem sys_facts : ∀ x ∈ sysIds, x.2 - 1 ≠ 1 ∧ x.2 - 1 ≠ x.2 ∧ (List.lookup x.1 ownClasses).isSome = true ∧ List.lookup x.1 blocks = none ∧ x.1 ≠ "True".toList ∧ x.1 ≠ "False".toList := by decide +kernel

theorem sys_apart : ∀ x ∈ sysIds, ∀ y ∈ sysIds, x ≠ y → x.1 ≠ y.1 ∧ x.2 ≠ y.2 ∧ x.2 - 1 ≠ y.2 ∧ x.2 ≠ y.2 - 1 ∧ x.2 - 1 ≠ y.2 - 1 := by decide +kernel

/-- What is still to be loaded has no table. -/
def Bare (u : U) (c : Cid) : Prop := c < u.classes.length ∧ (u.at c).cls = some (c - 1) ∧ c - 1 < u.classes.length ∧ (u.at c).table = none ∧ (u.at (c - 1)).table = none

theorem Bare.later {u u' : U} {c : Cid} (h : Bare u c) (hl : Later u u') : Bare u' c := by
  obtain ⟨h1, h2, h3, h4, h5⟩ := h
  exact ⟨Nat.lt_of_lt_of_le h1 hl.classes.length_le, by rw [hl.at h1]; exact h2, Nat.lt_of_lt_of_le h3 hl.classes.length_le, by rw [hl.at h1]; exact h4, by rw [hl.at h3]; exact h5⟩

theorem vmOf_sys {x : Name × Cid} (hx : x ∈ sysIds) (i cl : Side) : vmOf env x.1 i cl = (env.known x.1).getD ([], []) := by
  obtain ⟨_, _, h3, h4, _⟩ := sys_facts x hx
  unfold vmOf
  rw [h4, h3]
  rfl

theorem Files.loadSystem (hx : env.avoidExit = false) (hB : NoSpecial env) (hP : ∀ n, ¬ P n) {k : Nat} {u u' : U} (h : Files env P T B u) {x : Name × Cid} (hm : x ∈ sysIds) (hb : Bare u x.2)
    (hl : loadSystem 1 env k x.2 u = (.ok (), u')) :
    Files env P (fun n => T n ∧ n ≠ x.1) B u' ∧ ∀ y ∈ sysIds, x ≠ y → Bare u y.2 → Bare u' y.2 := by
  obtain ⟨f1, f2, f3, f4, f5, f6⟩ := sys_facts x hm
  obtain ⟨b1, b2, b3, b4, b5⟩ := hb
  have his := (h.sys x hm).1.is
  have his2 : Is env u ⟨true, x.1⟩ (x.2 - 1) := by
    obtain ⟨_, m, hm', hp⟩ := h.sys x hm
    cases Option.some.inj (hm'.symm.trans b2)
    exact hp.is
  obtain ⟨t, name, sup, i, cl, u1, g, hs, hh, hr, hc, _, _, hlat, o⟩ := loadSystem_ok hx his.name b2 b3 f2 b4 b5 hl
  have h1 : Files env P T B u1 := by
    have := Keep.classdef (keeps_loadClass hx hB k) (hB.may hs) u h
    rw [hc] at this
    exact this
  have hat : ∀ y, y < u.classes.length → u1.at y = u.at y := fun y hy => hlat.at hy
  have his' : Is env u1 ⟨false, x.1⟩ x.2 := (h1.sys x hm).1.is
  have his2' : Is env u1 ⟨true, x.1⟩ (x.2 - 1) := ⟨by rw [hat _ b3]; exact his2.name, by rw [hat _ b3]; exact his2.cls, his2.own, by rw [hat _ b3]; exact his2.flds⟩
  have own_nil : ∀ {d : Desc} {fs : List Name}, (List.lookup d.name ownClasses).isSome = true → Fields env d fs → fs = [] := fun {d fs} ho h => by
    cases h with
    | own => rfl
    | sub _ n p fs hn => rw [hn] at ho; cases ho
  have hfl1 : NoFields env → (u.at x.2).fields = some [] := fun hn => by
    obtain ⟨fs, e, hfs⟩ := his.flds hn
    rw [e, own_nil f3 hfs]
  have hfl2 : NoFields env → (u.at (x.2 - 1)).fields = some [] := fun hn => by
    obtain ⟨fs, e, hfs⟩ := his2.flds hn
    rw [e, own_nil f3 hfs]
  have hflds : NoFields env → g.inst.fields = [] ∧ g.cls.fields = [] := fun hn => by
    obtain ⟨so, hso⟩ := Option.isSome_iff_exists.1 f3
    have hmem : (x.1, so) ∈ ownClasses := by
      obtain ⟨l1, l2, he, _⟩ := List.lookup_eq_some_iff.1 hso
      rw [he]
      simp
    obtain ⟨hsup, hno⟩ := hn _ hmem t hs
    obtain ⟨hno1, hno2⟩ := hno _ hr
    obtain ⟨name', sup', i', cl', hh', hr', _, _, _, hcase⟩ := classdef_ok hc
    cases Option.some.inj (hr.symm.trans hr')
    dsimp only at hno1 hno2 hsup
    rcases hcase with ⟨_, _, _, e1, e2⟩ | ⟨hne, s, sm, fs, cfs, hload, _, hf1, hsm, hf2, e1, e2⟩
    · exact ⟨e1.trans hno1, e2.trans hno2⟩
    · have hsn : t.super = some (sup'.getD symObject) := by unfold Text.super; rw [hh']; exact if_neg hne
      have hown : (List.lookup (sup'.getD symObject) ownClasses).isSome = true := by
        have key : ∀ e ∈ ownClasses, ∀ m, e.2 = some m → (List.lookup m ownClasses).isSome = true := by decide +kernel
        exact key _ hmem _ (hsup.symm.trans hsn)
      obtain ⟨hb1, m, hm1, hb2⟩ := (keeps_loadClass (P := P) (T := T) (B := B) hx hB k _ u (hB.may hs _ hsn) h).2 s u1 hload fun m _ => hP m
      cases Option.some.inj (hsm.symm.trans hm1)
      obtain ⟨fs', g1, g2⟩ := hb1.is.flds hn
      obtain ⟨cfs', g3, g4⟩ := hb2.is.flds hn
      cases Option.some.inj (hf1.symm.trans g1)
      cases Option.some.inj (hf2.symm.trans g3)
      rw [e1, e2, own_nil hown g2, own_nil hown g4, hno1, hno2]
      exact ⟨rfl, rfl⟩
  refine ⟨h1.change o.globals (fun y _ => ?_) (fun d y hi hw => ?_), fun y hy hne hby => ?_⟩
  · by_cases e1 : y = x.2
    · subst e1; rw [o.fst, hat _ b1]; exact ⟨rfl, rfl, rfl, fun hn => by rw [hfl1 hn, (hflds hn).1]⟩
    · by_cases e2 : y = x.2 - 1
      · subst e2; rw [o.snd, hat _ b3]; exact ⟨rfl, rfl, rfl, fun hn => by rw [hfl2 hn, (hflds hn).2]⟩
      · rw [o.other y e1 e2]; exact ⟨rfl, rfl, rfl, fun _ => rfl⟩
  · by_cases e1 : y = x.2
    · subst e1
      cases hi.eq his'
      refine fun _ => ⟨fun sel => ?_, ⟨_, (by rw [show source env x.1 = some t from hs]; exact hr)⟩⟩
      rw [declares_eq (d := ⟨false, x.1⟩) hs hr, vmOf_sys hm]
      exact entry_tab (by rw [o.fst]; rfl) sel
    · by_cases e2 : y = x.2 - 1
      · subst e2
        cases hi.eq his2'
        refine fun _ => ⟨fun sel => ?_, ⟨_, (by rw [show source env x.1 = some t from hs]; exact hr)⟩⟩
        rw [declares_eq (d := ⟨true, x.1⟩) hs hr, vmOf_sys hm]
        exact entry_tab (by rw [o.snd]; rfl) sel
      · have hsame : (u'.at y).table = (u1.at y).table := by rw [o.other y e1 e2]
        have hd : d.name ≠ x.1 := fun hd => by
          have := hi.own x hm hd
          split at this
          · exact e2 this
          · exact e1 this
        exact fun hT => ⟨(hw fun h => hT ⟨h, hd⟩).1.same hsame, (hw fun h => hT ⟨h, hd⟩).2⟩
  · obtain ⟨n1, n2, n3, n4, n5⟩ := sys_apart x hm y hy hne
    obtain ⟨c1, c2, c3, c4, c5⟩ := hby.later hlat
    refine ⟨by rw [o.len]; exact c1, ?_, by rw [o.len]; exact c3, ?_, ?_⟩
    · rw [o.other _ n2.symm n3.symm]; exact c2
    · rw [o.other _ n2.symm n3.symm]; exact c4
    · rw [o.other _ n4.symm n5.symm]; exact c5

theorem Files.weaken {T' : Name → Prop} {u : U} (h : Files env P T B u) (hT : ∀ n, T n → T' n) : Files env P T' B u :=
  h.change rfl (fun _ _ => ⟨rfl, rfl, rfl, fun _ => rfl⟩) fun _ _ _ hw hT' => hw fun h => hT' (hT _ h)

/-- All classes that the VM makes are loaded. -/
theorem Files.systems (hx : env.avoidExit = false) (hB : NoSpecial env) (hP : ∀ n, ¬ P n) {k : Nat} (l : List (Name × Cid)) : ∀ {T : Name → Prop} {u u' : U}, Files env P T B u → (∀ x ∈ l, x ∈ sysIds) → l.Nodup → (∀ x ∈ l, Bare u x.2) →
    forAll (Boot.loadSystem 1 env k) (l.map (·.2)) u = (.ok (), u') → Files env P (fun n => T n ∧ n ∉ l.map (·.1)) B u' := by
  induction l with
  | nil =>
    intro T u u' h _ _ _ hl
    cases hl
    exact h.weaken fun n hn => ⟨hn, fun h => nomatch h⟩
  | cons x l ih =>
    intro T u u' h hm hn hb hl
    obtain ⟨_, u1, h1, h2⟩ := bind_ok hl
    obtain ⟨hf, hbare⟩ := h.loadSystem hx hB hP (hm x (.head _)) (hb x (.head _)) h1
    have hn' := List.nodup_cons.1 hn
    refine (ih hf (fun y hy => hm y (.tail _ hy)) hn'.2 (fun y hy => hbare y (hm y (.tail _ hy)) (fun he => hn'.1 (he ▸ hy)) (hb y (.tail _ hy))) h2).weaken fun n hn => ?_
    refine ⟨hn.1.1, fun h => ?_⟩
    rcases List.mem_cons.1 h with h | h
    · exact hn.1.2 h
    · exact hn.2 h

/-! ## The first state -/

theorem is0 : ∀ x ∈ sysIds, Is env u0 ⟨false, x.1⟩ x.2 ∧ Is env u0 ⟨true, x.1⟩ (x.2 - 1) := by
  have h1 : ∀ x ∈ sysIds, (u0.at x.2).name = some x.1 ∧ (u0.at (x.2 - 1)).name = some (className x.1) ∧ (u0.at x.2).cls = some (x.2 - 1) ∧ x.2 - 1 ≠ 1 ∧ (u0.at (x.2 - 1)).cls = some 1 ∧ (u0.at x.2).fields = some [] ∧ (u0.at (x.2 - 1)).fields = some [] ∧
      (List.lookup x.1 ownClasses).isSome = true := by decide +kernel
  have h2 : ∀ x ∈ sysIds, ∀ y ∈ sysIds, x.1 = y.1 → x.2 = y.2 := by decide +kernel
  intro x hx
  obtain ⟨a1, a2, a3, a4, a5, a6, a7, a8⟩ := h1 x hx
  exact ⟨⟨a1, ⟨_, a3, Iff.intro (fun h => nomatch h) (fun h => absurd h a4)⟩, fun y hy he => h2 x hx y hy he, fun _ => ⟨[], a6, .own _ a8⟩⟩,
    ⟨a2, ⟨_, a5, Iff.intro (fun _ => rfl) (fun _ => rfl)⟩, fun y hy he => (by rw [h2 x hx y hy he]; rfl), fun _ => ⟨[], a7, .own _ a8⟩⟩⟩

theorem superOf_own {n : Name} {s : Option Name} (h : List.lookup n ownClasses = some s) : superOf env n = s := by
  unfold superOf
  rw [h]

/-- Not loaded yet. -/
def isSys (n : Name) : Prop := n ∈ sysIds.map (·.1)

theorem want0 {x : Name × Cid} (hx : x ∈ sysIds) (b : Bool) (u : U) (c : Cid) : Want env isSys u ⟨b, x.1⟩ c := fun h => absurd (List.mem_map_of_mem hx) h

theorem both0 {x y : Name × Cid} (hx : x ∈ sysIds) (hp : List.lookup x.1 ownClasses = some (some y.1)) (hs : (u0.at x.2).sup = some y.2) (hs' : (u0.at (x.2 - 1)).sup = some (y.2 - 1))
    (hb : Part env isSys u0 ⟨false, y.1⟩ y.2) (hb' : Part env isSys u0 ⟨true, y.1⟩ (y.2 - 1)) : Part env isSys u0 ⟨false, x.1⟩ x.2 ∧ Part env isSys u0 ⟨true, x.1⟩ (x.2 - 1) :=
  ⟨.sub _ _ _ _ (is0 x hx).1 (want0 hx _ _ _) hs (above_some (superOf_own hp) false) hb, .sub _ _ _ _ (is0 x hx).2 (want0 hx _ _ _) hs' (above_some (superOf_own hp) true) hb'⟩

theorem files0 : Files env P isSys (fun _ => True) u0 := by
  have ho : superOf env "Object".toList = none := superOf_own (by decide +kernel)
  have obj : Part env isSys u0 ⟨false, "Object".toList⟩ 3 :=
    .top _ _ (is0 ("Object".toList, 3) (by decide +kernel)).1 (want0 (x := ("Object".toList, 3)) (by decide +kernel) _ _ _) (by decide +kernel) (by unfold above; dsimp only; rw [ho]; rfl)
  have cls : Part env isSys u0 ⟨false, "Class".toList⟩ 7 :=
    .sub _ ⟨false, "Object".toList⟩ _ 3 (is0 ("Class".toList, 7) (by decide +kernel)).1 (want0 (x := ("Class".toList, 7)) (by decide +kernel) _ _ _) (by decide +kernel)
      (above_some (superOf_own (by decide +kernel)) false) obj
  have objC : Part env isSys u0 ⟨true, "Object".toList⟩ 2 :=
    .sub _ ⟨false, "Class".toList⟩ _ 7 (is0 ("Object".toList, 3) (by decide +kernel)).2 (want0 (x := ("Object".toList, 3)) (by decide +kernel) _ _ _) (by decide +kernel)
      (by unfold above; dsimp only; rw [ho]; rfl) cls
  have clsC := (both0 (env := env) (x := ("Class".toList, 7)) (y := ("Object".toList, 3)) (by decide +kernel) (by decide +kernel) (by decide +kernel) (by decide +kernel) obj objC).2
  have str := both0 (env := env) (x := ("String".toList, 19)) (y := ("Object".toList, 3)) (by decide +kernel) (by decide +kernel) (by decide +kernel) (by decide +kernel) obj objC
  have all : ∀ x ∈ sysIds, Part env isSys u0 ⟨false, x.1⟩ x.2 ∧ Part env isSys u0 ⟨true, x.1⟩ (x.2 - 1) := by
    intro x hx
    have key : ∀ x ∈ sysIds, x = ("Object".toList, 3) ∨ ∃ y ∈ [("Object".toList, 3), ("Class".toList, 7), ("String".toList, 19)], List.lookup x.1 ownClasses = some (some y.1) ∧ (u0.at x.2).sup = some y.2 ∧
        (u0.at (x.2 - 1)).sup = some (y.2 - 1) := by decide +kernel
    rcases key x hx with rfl | ⟨y, hy, h1, h2, h3⟩
    · exact ⟨obj, objC⟩
    · simp only [List.mem_cons, List.not_mem_nil, or_false] at hy
      rcases hy with rfl | rfl | rfl
      · exact both0 hx h1 h2 h3 obj objC
      · exact both0 hx h1 h2 h3 cls clsC
      · exact both0 hx h1 h2 h3 str.1 str.2
  have both : ∀ x ∈ sysIds, Both env isSys u0 x.1 x.2 := fun x hx => ⟨(all x hx).1, x.2 - 1, by
    have key : ∀ x ∈ sysIds, (u0.at x.2).cls = some (x.2 - 1) := by decide +kernel
    exact key x hx, (all x hx).2⟩
  refine ⟨both, fun x hx _ => ?_, fun n c hn _ => ?_, fun n _ h => absurd trivial h, fun n hn _ => ?_⟩
  · have key : ∀ x ∈ sysIds, List.lookup x.1 u0.globals = some (.cls x.2) := by decide +kernel
    exact key x hx
  · have key : ∀ e ∈ u0.globals, ∃ x ∈ sysIds, e = (x.1, .cls x.2) := by decide +kernel
    obtain ⟨x, hx, he⟩ := key _ (mem_of_lookup' hn)
    cases he
    exact both x hx
  · have key : ∀ n ∈ specials, (List.lookup n u0.globals).getD .none = .none := by decide +kernel
    exact key n hn

theorem bare0 : ∀ x ∈ sysIds, Bare u0 x.2 := by
  unfold Bare
  decide +kernel

/-! ## `True`, `False` and the classes of blocks -/

theorem sys_special : ∀ x ∈ sysIds, x.1 ∉ specials := by decide +kernel

/-- A special class has been made. -/
theorem Files.setSpecial {u : U} {n : Name} {c : Cid} (h : Files env P T B u) (hn : n ∈ specials) (hb : Both env T u n c) :
    Files env P T (fun m => B m ∧ m ≠ n) ⟨u.classes, (n, .cls c) :: u.globals⟩ := by
  refine ⟨fun x hx => (h.sys x hx).same fun _ _ => rfl, fun x hx hp => ?_, fun m d hm hp => ?_, fun m hm hB hp => ?_, fun m hm hB => ?_⟩
  · dsimp only
    rw [lookup_set, if_neg fun he : x.1 = n => sys_special x hx (he ▸ hn)]
    exact h.bound x hx hp
  · dsimp only at hm
    rw [lookup_set] at hm
    split at hm
    · rename_i he
      subst he
      cases hm
      exact hb.same fun _ _ => rfl
    · exact (h.glob m d hm hp).same fun _ _ => rfl
  · dsimp only
    rw [lookup_set]
    split
    · exact ⟨c, rfl⟩
    · rename_i he
      exact h.spec m hm (fun hb => hB ⟨hb, he⟩) hp
  · dsimp only
    rw [lookup_set, if_neg hB.2]
    exact h.free m hm hB.1

theorem not_own {n : Name} (hn : n ∈ specials) : List.lookup n ownClasses = none := by
  have key : ∀ n ∈ specials, List.lookup n ownClasses = none := by decide +kernel
  exact key n hn

/-- What a class has into which primitives were entered twice. -/
theorem entry_tab2 {xs ys : List Name} {side : Side} {u : U} {c : Cid} (hsub : ∀ x ∈ ys, x ∈ xs) (h : (u.at c).table = enter c xs (enter c ys (tableOf c side.meths))) :
    Tab (entryOf xs side) u c := fun sel => by
  unfold Cls.method entryOf
  rw [h, find_enter, find_enter, find_table]
  split
  · rfl
  · rename_i hx
    rw [if_neg fun hy => hx (hsub _ hy)]
    cases lastMeth side.meths sel with
    | none => rfl
    | some b => cases b <;> rfl

theorem loadPrims_new (xs : List Cls) (x y : Cls) (gl : List (Name × Glob)) (n : Name) (hy : y.cls = some xs.length) (hn : y.name = some n) :
    loadPrims env.known (xs.length + 1) ⟨xs ++ [x, y], gl⟩ = (.ok (), ⟨xs ++ [{ x with table := enter xs.length ((env.known n).getD ([], [])).2 x.table },
      { y with table := enter (xs.length + 1) ((env.known n).getD ([], [])).1 y.table }], gl⟩) := by
  obtain ⟨yc, ys, yn, yf, yt, yp⟩ := y
  dsimp only at hy hn
  subst hy hn
  unfold loadPrims
  rw [run_bind (m := get) rfl, at_snd]
  dsimp only
  cases env.known n with
  | none => rfl
  | some ks =>
    obtain ⟨is, cs⟩ := ks
    dsimp only
    rw [run_bind (enter_snd _ _ _ _ _)]
    exact enter_fst _ _ _ _ rfl _

/-- Loading a class keeps what is known of others. -/
theorem Both.load {k : Nat} {m : Name} {u u' : U} {r : Except Err Glob} (hl : loadClass 1 env k m u = (r, u')) {n : Name} {c : Cid} (h : Both env T u n c) : Both env T u' n c := by
  have hlat := Later.loadClass 1 env k m u
  rw [hl] at hlat
  exact h.same fun x hx => hlat.at hx

theorem Files.bool (hx : env.avoidExit = false) (hB : NoSpecial env) (hP : ∀ n, ¬ P n) {k : Nat} {n : Name} {c : Cid} {u u1 u2 : U} (h : Files env P T B u) (hn : n = "True".toList ∨ n = "False".toList) (hb : B n)
    (hl : loadClass 1 env k n u = (.ok (.cls c), u1)) (hp : loadPrims env.known c u1 = (.ok (), u2)) :
    Files env P T (fun m => B m ∧ m ≠ n) u2 ∧ Both env T u2 n c ∧ ∀ m d, Both env T u m d → Both env T u2 m d := by
  have hsp : n ∈ specials := by rcases hn with rfl | rfl <;> decide +kernel
  cases k with
  | zero => cases hl
  | succ k =>
  have hun := h.free n hsp hb
  obtain ⟨t, name, sup, i, cl, s, sm, fs, cfs, u3, hs, hh, hr, hnm, hne, hl3, hff, hsm, hcf, rfl, rfl⟩ := loadClass_ok hun hl
  have hname := hnm hx
  subst hname
  obtain ⟨h3, hb3⟩ := keeps_loadClass (P := P) (T := T) (B := B) hx hB k (sup.getD symObject) u (hB.may hs _ (by unfold Text.super; rw [hh]; exact if_neg hne)) h
  rw [hl3] at h3
  rw [loadPrims_new _ _ _ _ name rfl rfl] at hp
  have hvm : vmOf env name i cl = (env.known name).getD ([], []) := by
    unfold vmOf
    rcases hn with rfl | rfl <;> rfl
  have hent : ∀ b, ∀ x ∈ pick b (entered env name i cl), x ∈ pick b ((env.known name).getD ([], [])) := fun b x hxx => by
    unfold entered at hxx
    split at hxx
    · exact hxx
    · cases b <;> cases hxx
  have hu2 := (Prod.mk.inj hp).2
  have hboth : ∀ u' : U, u'.classes = u2.classes → Both env T u' name (u3.classes.length + 1) := by
    rintro ⟨cs, gl⟩ rfl
    refine new_both (gl := gl) hs hh hne (not_own hsp) (hb3 s u3 hl3 fun m _ => hP m) hsm hr hff hcf h3.lt (by rw [← hu2]) (fun _ => ⟨fun sel => ?_, ⟨_, (by rw [hs]; exact hr)⟩⟩) (fun _ => ⟨fun sel => ?_, ⟨_, (by rw [hs]; exact hr)⟩⟩)
    · rw [declares_eq (d := ⟨false, name⟩) hs hr, hvm]
      exact entry_tab2 (hent false) (by rw [← hu2, at_snd]; rfl) sel
    · rw [declares_eq (d := ⟨true, name⟩) hs hr, hvm]
      exact entry_tab2 (hent true) (by rw [← hu2, at_fst]; rfl) sel
  refine ⟨?_, hboth u2 rfl, fun m d hd => ?_⟩
  · have hc := h3.app (u2.classes.drop u3.classes.length)
    have hcl : u3.classes ++ u2.classes.drop u3.classes.length = u2.classes := by rw [← hu2]; dsimp only; rw [List.drop_left]
    rw [hcl] at hc
    have := hc.setSpecial hsp (hboth _ rfl)
    rw [← hu2] at this ⊢
    exact this
  · have h4 := Both.load hl3 hd
    exact h4.same fun x hx => by rw [← hu2]; exact U.at_app u3 _ _ x hx

theorem Files.block (hx : env.avoidExit = false) (hB : NoSpecial env) (hP : ∀ n, ¬ P n) {k i : Nat} {u u' : U} (h : Files env P T B u) (hi : i = 1 ∨ i = 2 ∨ i = 3)
    (hl : makeBlock 1 env k i u = (.ok (), u')) : Files env P T (fun m => B m ∧ m ≠ "Block".toList ++ (Nat.repr i).toList) u' := by
  have hsp : "Block".toList ++ (Nat.repr i).toList ∈ specials := by rcases hi with rfl | rfl | rfl <;> decide +kernel
  have hvm : ∀ a b, vmOf env ("Block".toList ++ (Nat.repr i).toList) a b = ([evaluation i], []) := fun a b => by
    have h : List.lookup ("Block".toList ++ (Nat.repr i).toList) blocks = some (evaluation i) := by rcases hi with rfl | rfl | rfl <;> decide +kernel
    unfold vmOf
    rw [h]
  unfold makeBlock at hl
  generalize "Block".toList ++ (Nat.repr i).toList = n at *
  obtain ⟨r, u1, h1, h2⟩ := bind_ok hl
  cases r with
  | none => cases h2
  | some c =>
  obtain ⟨t, hs, ⟨name, sup, a, cl, s, sm, fs, cfs, u3, hh, hr, hne, hl3, hff, hsm, hcf, rfl, rfl⟩, hx'⟩ := loadFile_ok h1
  have hname : name = n := by
    have := hx' hx
    rw [at_snd] at this
    exact Option.some.inj this
  subst hname
  obtain ⟨h3, hb3⟩ := keeps_loadClass (P := P) (T := T) (B := B) hx hB k (sup.getD symObject) u (hB.may hs _ (by unfold Text.super; rw [hh]; exact if_neg hne)) h
  rw [hl3] at h3
  have hadd := enter_snd u3.classes (newMeta (u3.width 1) 1 sm u3.classes.length name cfs cl) (newInst (cfs ++ cl.fields).length s u3.classes.length name fs a) u3.globals [evaluation i]
  have hadd' : addPrimitive (u3.classes.length + 1) (evaluation i) ⟨u3.classes ++ [newMeta (u3.width 1) 1 sm u3.classes.length name cfs cl, newInst (cfs ++ cl.fields).length s u3.classes.length name fs a], u3.globals⟩ =
      (.ok (), ⟨u3.classes ++ [newMeta (u3.width 1) 1 sm u3.classes.length name cfs cl, { newInst (cfs ++ cl.fields).length s u3.classes.length name fs a with
        table := enter (u3.classes.length + 1) [evaluation i] (newInst (cfs ++ cl.fields).length s u3.classes.length name fs a).table }], u3.globals⟩) := hadd
  dsimp only at h2
  rw [run_bind hadd'] at h2
  cases h2
  refine (h3.app _).setSpecial hsp ?_
  refine new_both (t1 := (newMeta (u3.width 1) 1 sm u3.classes.length name cfs cl).table) hs hh hne (not_own hsp) (hb3 s u3 hl3 fun m _ => hP m) hsm hr hff hcf h3.lt rfl (fun _ => ⟨fun sel => ?_, ⟨_, (by rw [hs]; exact hr)⟩⟩) (fun _ => ⟨fun sel => ?_, ⟨_, (by rw [hs]; exact hr)⟩⟩)
  · rw [declares_eq (d := ⟨false, name⟩) hs hr, hvm]
    exact entry_tab (by rw [at_snd]; rfl) sel
  · rw [declares_eq (d := ⟨true, name⟩) hs hr, hvm]
    exact entry_tab (xs := []) (by rw [at_fst]; rfl) sel

/-- A global that is no class of the VM gets something that is no class. -/
theorem Files.put {u : U} (h : Files env P T B u) (n : Name) (v : Glob) (hv : ∀ c, v = .cls c → Clean env P n → Both env T u n c) (hs : ∀ x ∈ sysIds, x.1 ≠ n) (hn : n ∉ specials) :
    Files env P T B ⟨u.classes, (n, v) :: u.globals⟩ := h.set n v hv (.inr (.inr ⟨hs, hn⟩)) fun h => absurd h hn

theorem must_ok {v : Glob} {c : Cid} {u u' : U} (h : must v u = (.ok c, u')) : v = .cls c ∧ u' = u := by
  cases v with
  | cls d => cases h; exact ⟨rfl, rfl⟩
  | _ => cases h

/-- After the start, the classes are as described. -/
theorem files_boot (hx : env.avoidExit = false) (hB : NoSpecial env) {k : Nat} {s : Sys} {u : U} (h : boot env k ⟨[], []⟩ = (.ok s, u)) : s = sys0 ∧ Files env (fun _ => False) (fun _ => False) (fun _ => False) u := by
  have hs := (boot_inv h).1
  subst hs
  refine ⟨rfl, ?_⟩
  have hP : ∀ n : Name, ¬ False := fun _ h => h
  unfold boot at h
  rw [run_bind initClasses_eq] at h
  unfold bootRest at h
  obtain ⟨_, u1, h1, g1⟩ := bind_ok h
  have f1 := (files0 (env := env) (P := fun _ => False)).systems hx hB hP sysIds (fun x hx => hx) (by decide +kernel) bare0 h1
  have f1 : Files env (fun _ => False) (fun _ => False) (fun _ => True) u1 := f1.weaken fun n hn => hn.2 hn.1
  obtain ⟨block, u2, h2, g2⟩ := bind_ok g1
  obtain ⟨f2, b2⟩ := keeps_loadClass (P := fun _ => False) (T := fun _ => False) (B := fun _ => True) hx hB k "Block".toList u1 (fun h => absurd h (by decide +kernel)) f1
  rw [show loadClass 1 env k "Block".toList u1 = (.ok block, u2) from h2] at f2
  obtain ⟨tv, u3, h3, g3⟩ := bind_ok g2
  obtain ⟨true_, u4, h4, g4⟩ := bind_ok g3
  obtain ⟨e4, e4'⟩ := must_ok h4
  subst e4 e4'
  obtain ⟨_, u5, h5, g5⟩ := bind_ok g4
  obtain ⟨f5, bt5, m5⟩ := f2.bool hx hB hP (.inl rfl) trivial h3 h5
  obtain ⟨fv, u6, h6, g6⟩ := bind_ok g5
  obtain ⟨false_, u7, h7, g7⟩ := bind_ok g6
  obtain ⟨e7, e7'⟩ := must_ok h7
  subst e7 e7'
  obtain ⟨_, u8, h8, g8⟩ := bind_ok g7
  obtain ⟨f8, bf8, m8⟩ := f5.bool hx hB hP (.inr rfl) ⟨trivial, by decide +kernel⟩ h6 h8
  obtain ⟨sv, u9, h9, g9⟩ := bind_ok g8
  obtain ⟨system, u10, h10, g10⟩ := bind_ok g9
  obtain ⟨e10, e10'⟩ := must_ok h10
  subst e10 e10'
  obtain ⟨f9, b9⟩ := keeps_loadClass (P := fun _ => False) (T := fun _ => False) (B := fun m => (True ∧ m ≠ "True".toList) ∧ m ≠ "False".toList) hx hB k "System".toList u8
    (fun h => absurd h (by decide +kernel)) f8
  have h9' : loadClass 1 env k "System".toList u8 = (.ok (.cls system), u10) := h9
  rw [h9'] at f9
  have bs := b9 system u10 h9' fun m _ => hP m
  have hbl : ∀ c, block = .cls c → Both env (fun _ => False) u10 "Block".toList c := fun c hc => Both.load h9' (m8 _ _ (m5 _ _ (b2 c u2 (hc ▸ h2) fun m _ => hP m)))
  have a1 := f9.put symNil nilObject (fun c h => nomatch h) (by decide +kernel) (by decide +kernel)
  have a2 := a1.put "true".toList trueObject (fun c h => nomatch h) (by decide +kernel) (by decide +kernel)
  have a3 := a2.put "false".toList falseObject (fun c h => nomatch h) (by decide +kernel) (by decide +kernel)
  have a4 := a3.put "system".toList systemObject (fun c h => nomatch h) (by decide +kernel) (by decide +kernel)
  have a5 := a4.put "System".toList (.cls system) (fun c h _ => by cases h; exact bs.same fun _ _ => rfl) (by decide +kernel) (by decide +kernel)
  have a6 := a5.put "Block".toList block (fun c h _ => (hbl c h).same fun _ _ => rfl) (by decide +kernel) (by decide +kernel)
  have a7 := a6.set "Nil".toList (.cls 5) (fun c h _ => by cases h; exact a6.sys ("Nil".toList, 5) (by decide +kernel)) (.inl ⟨5, rfl, by decide +kernel⟩) (fun h => absurd h (by decide +kernel))
  have a8 := a7.set "True".toList (.cls true_) (fun c h _ => by cases h; exact (Both.load h9' (m8 _ _ bt5)).same fun _ _ => rfl)
    (.inl ⟨true_, rfl, fun x hx he => absurd he ((by decide +kernel : ∀ x ∈ sysIds, x.1 ≠ "True".toList) x hx)⟩) (fun _ h => h.1.2 rfl)
  have a9 := a8.set "False".toList (.cls false_) (fun c h _ => by cases h; exact (Both.load h9' bf8).same fun _ _ => rfl)
    (.inl ⟨false_, rfl, fun x hx he => absurd he ((by decide +kernel : ∀ x ∈ sysIds, x.1 ≠ "False".toList) x hx)⟩) (fun _ h => h.2 rfl)
  obtain ⟨_, v1, k1, l1⟩ := bind_ok g10
  cases k1
  obtain ⟨_, v2, k2, l2⟩ := bind_ok l1
  cases k2
  obtain ⟨_, v3, k3, l3⟩ := bind_ok l2
  cases k3
  obtain ⟨_, v4, k4, l4⟩ := bind_ok l3
  cases k4
  obtain ⟨_, v5, k5, l5⟩ := bind_ok l4
  cases k5
  obtain ⟨_, v6, k6, l6⟩ := bind_ok l5
  cases k6
  obtain ⟨_, v7, k7, l7⟩ := bind_ok l6
  cases k7
  obtain ⟨_, v8, k8, l8⟩ := bind_ok l7
  cases k8
  obtain ⟨_, v9, k9, l9⟩ := bind_ok l8
  cases k9
  obtain ⟨_, v10, k10, l10⟩ := bind_ok l9
  cases l10
  obtain ⟨_, w1, p1, q1⟩ := bind_ok k10
  obtain ⟨_, w2, p2, q2⟩ := bind_ok q1
  obtain ⟨_, w3, p3, q3⟩ := bind_ok q2
  cases q3
  have z := ((a9.block hx hB hP (.inl rfl) p1).block hx hB hP (.inr (.inl rfl)) p2).block hx hB hP (.inr (.inr rfl)) p3
  refine ⟨z.sys, z.bound, z.glob, fun n hn _ hp => z.spec n hn (fun hb => ?_) hp, fun n hn h => h.elim⟩
  have key : ∀ n ∈ specials, n = "True".toList ∨ n = "False".toList ∨ n = "Block".toList ++ (Nat.repr 1).toList ∨ n = "Block".toList ++ (Nat.repr 2).toList ∨ n = "Block".toList ++ (Nat.repr 3).toList := by
    decide +kernel
  rcases key n hn with h | h | h | h | h
  · exact hb.1.1.1.1.2 h
  · exact hb.1.1.1.2 h
  · exact hb.1.1.2 h
  · exact hb.1.2 h
  · exact hb.2 h
end
end PySOM.Boot

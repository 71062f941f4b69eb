import Verif.Lemmas.UniverseOrder
/-!
# Loading the classes that the VM makes itself
-/
set_option autoImplicit false
namespace PySOM.Boot

theorem U.at_self (u : U) (c : Cid) (f : Cls → Cls) (h : c < u.classes.length) : (u.upd c f).at c = f (u.at c) := by
  rw [U.at_upd _ _ _ (fun _ _ _ => .inr trivial), if_pos ⟨rfl, h⟩]

theorem U.at_ne (u : U) (c d : Cid) (f : Cls → Cls) (h : d ≠ c) : (u.upd c f).at d = u.at d := by
  rw [U.at_upd _ _ _ (fun _ _ _ => .inr trivial), if_neg (fun hh => h hh.1.symm)]

theorem U.len_upd (u : U) (c : Cid) (f : Cls → Cls) : (u.upd c f).classes.length = u.classes.length := by
  unfold U.upd; exact List.length_modify ..

/-- Only one class changes. -/
structure Only (c : Cid) (u u' : U) (x : Cls) : Prop where
  len : u'.classes.length = u.classes.length
  globals : u'.globals = u.globals
  other : ∀ d, d ≠ c → u'.at d = u.at d
  self : u'.at c = x

theorem Only.upd (u : U) (c : Cid) (f : Cls → Cls) (h : c < u.classes.length) : Only c u (u.upd c f) (f (u.at c)) :=
  ⟨U.len_upd .., rfl, fun d hd => U.at_ne u c d f hd, U.at_self u c f h⟩

theorem Only.trans {c : Cid} {u u' u'' : U} {x y : Cls} (h : Only c u u' x) (h' : Only c u' u'' y) : Only c u u'' y :=
  ⟨h'.len.trans h.len, h'.globals.trans h.globals, fun d hd => (h'.other d hd).trans (h.other d hd), h'.self⟩

theorem setInvokables_run (c : Cid) (v : List (Name × Kind)) (p : Bool) (u : U) (hc : c < u.classes.length) (ht : (u.at c).table = none) :
    ∃ u', setInvokables c v p u = (.ok (), u') ∧ Only c u u' { u.at c with prims := p, table := if v.isEmpty then none else some (v.map fun e => ⟨e.1, e.2, c⟩) } := by
  unfold setInvokables
  rw [run_bind (m := modify _) rfl]
  have h1 := Only.upd u c (fun x => { x with prims := p }) hc
  split
  · refine ⟨u.upd c fun x => { x with prims := p }, ?_, ?_⟩
    · rw [run_bind (m := get) rfl, h1.self]
      dsimp only
      rw [ht]
      rfl
    · have : ({ u.at c with prims := p, table := none } : Cls) = { u.at c with prims := p } := by rw [← ht]
      rw [this]
      exact h1
  · refine ⟨_, rfl, ?_⟩
    have h2 := Only.upd (u.upd c fun x => { x with prims := p }) c (fun x => { x with table := some (v.map fun e => ⟨e.1, e.2, c⟩) }) (by rw [U.len_upd]; exact hc)
    rw [h1.self] at h2
    exact h1.trans h2

theorem setFields_run (c : Cid) (fs : List Name) (u : U) (hc : c < u.classes.length) : ∃ u', setFields c fs u = (.ok (), u') ∧ Only c u u' { u.at c with fields := some fs } :=
  ⟨_, rfl, Only.upd u c _ hc⟩

theorem forAll_add (c : Cid) (sels : List Name) (u : U) (hc : c < u.classes.length) : ∃ u', forAll (addPrimitive c) sels u = (.ok (), u') ∧
    Only c u u' { u.at c with table := enter c sels (u.at c).table } := by
  induction sels generalizing u with
  | nil => exact ⟨u, rfl, rfl, rfl, fun _ _ => rfl, rfl⟩
  | cons s sels ih =>
    have h1 := Only.upd u c (fun x => { x with table := some (put (x.table.getD []) ⟨s, .vm, c⟩) }) hc
    obtain ⟨u', h2, h3⟩ := ih (u.upd c (fun x => { x with table := some (put (x.table.getD []) ⟨s, .vm, c⟩) })) (by rw [U.len_upd]; exact hc)
    refine ⟨u', ?_, ?_⟩
    · unfold forAll
      rw [run_bind (m := addPrimitive c s) rfl]
      exact h2
    · rw [h1.self] at h3
      exact h1.trans h3

theorem forAll_addClass (c m : Cid) (sels : List Name) (u : U) (hm : (u.at c).cls = some m) (hl : m < u.classes.length) (hne : m ≠ c) :
    ∃ u', forAll (fun s => do addPrimitive (← classOf c) s) sels u = (.ok (), u') ∧ Only m u u' { u.at m with table := enter m sels (u.at m).table } := by
  induction sels generalizing u with
  | nil => exact ⟨u, rfl, rfl, rfl, fun _ _ => rfl, rfl⟩
  | cons s sels ih =>
    have h1 := Only.upd u m (fun x => { x with table := some (put (x.table.getD []) ⟨s, .vm, m⟩) }) hl
    obtain ⟨u', h2, h3⟩ := ih (u.upd m (fun x => { x with table := some (put (x.table.getD []) ⟨s, .vm, m⟩) })) (by rw [h1.other c (fun h => hne h.symm)]; exact hm) (by rw [U.len_upd]; exact hl)
    refine ⟨u', ?_, ?_⟩
    · unfold forAll
      rw [run_bind (a := ()) (u' := u.upd m (fun x => { x with table := some (put (x.table.getD []) ⟨s, .vm, m⟩) })) (by rw [run_bind (a := m) (u' := u) (by rw [classOf_eq, hm])]; rfl)]
      exact h2
    · rw [h1.self] at h3
      exact h1.trans h3

/-- Two classes change. -/
structure Two (c m : Cid) (u u' : U) (x y : Cls) : Prop where
  len : u'.classes.length = u.classes.length
  globals : u'.globals = u.globals
  other : ∀ d, d ≠ c → d ≠ m → u'.at d = u.at d
  fst : u'.at c = x
  snd : u'.at m = y

theorem loadPrims_run (known : Name → Option (List Name × List Name)) (c m : Cid) (n : Name) (u : U) (hn : (u.at c).name = some n) (hm : (u.at c).cls = some m) (hl : m < u.classes.length) (hne : m ≠ c) :
    ∃ u', loadPrims known c u = (.ok (), u') ∧ Two c m u u' { u.at c with table := enter c ((known n).getD ([], [])).1 (u.at c).table }
      { u.at m with table := enter m ((known n).getD ([], [])).2 (u.at m).table } := by
  unfold loadPrims
  rw [run_bind (m := get) rfl, hn]
  dsimp only
  cases known n with
  | none => exact ⟨u, rfl, rfl, rfl, fun _ _ _ => rfl, rfl, rfl⟩
  | some ks =>
    obtain ⟨is, cs⟩ := ks
    dsimp only
    obtain ⟨u1, h1, o1⟩ := forAll_add c is u (U.lt_of_cls hm)
    obtain ⟨u2, h2, o2⟩ := forAll_addClass c m cs u1 (by rw [o1.self]; exact hm) (by rw [o1.len]; exact hl) hne
    refine ⟨u2, ?_, o2.len.trans o1.len, o2.globals.trans o1.globals, fun d h h' => (o2.other d h').trans (o1.other d h), ?_, ?_⟩
    · rw [run_bind h1]; exact h2
    · rw [o2.other c (fun h => hne h.symm), o1.self]; rfl
    · rw [o2.self, o1.other m hne]; rfl

theorem assembleSystem_run (c m : Cid) (g : Cgc) (u : U) (hm : (u.at c).cls = some m) (hl : m < u.classes.length) (hne : m ≠ c) (ht : (u.at c).table = none) (ht' : (u.at m).table = none) :
    ∃ u', assembleSystem c g u = (.ok (), u') ∧ Two c m u u' { u.at c with prims := g.inst.prims, table := tableOf c g.inst.meths, fields := some g.inst.fields }
      { u.at m with prims := g.cls.prims, table := tableOf m g.cls.meths, fields := some g.cls.fields } := by
  have hc := U.lt_of_cls hm
  obtain ⟨u1, h1, o1⟩ := setInvokables_run c (dict g.inst.meths) g.inst.prims u hc ht
  obtain ⟨u2, h2, o2⟩ := setFields_run c g.inst.fields u1 (by rw [o1.len]; exact hc)
  have o12 := o1.trans o2
  obtain ⟨u3, h3, o3⟩ := setInvokables_run m (dict g.cls.meths) g.cls.prims u2 (by rw [o12.len]; exact hl) (by rw [o12.other m hne]; exact ht')
  obtain ⟨u4, h4, o4⟩ := setFields_run m g.cls.fields u3 (by rw [o3.len, o12.len]; exact hl)
  have o34 := o3.trans o4
  refine ⟨u4, ?_, o34.len.trans o12.len, o34.globals.trans o12.globals, fun d h h' => (o34.other d h').trans (o12.other d h), ?_, ?_⟩
  · unfold assembleSystem
    rw [run_bind h1, run_bind h2, run_bind (a := m) (u' := u2) (by rw [classOf_eq, o12.self, o1.self]; dsimp only; rw [hm]), run_bind h3]
    exact h4
  · rw [o34.other c (fun h => hne h.symm), o12.self, o1.self]; rfl
  · rw [o34.self, o3.self, o12.other m hne]; rfl

/-- Loading a system class that has no methods yet. -/
theorem loadSystem_ok {«meta» : Cid} {env : Env} {k : Nat} {c m : Cid} {n : Name} {u u' : U} (hx : env.avoidExit = false) (hn : (u.at c).name = some n) (hm : (u.at c).cls = some m)
    (hl : m < u.classes.length) (hne : m ≠ c) (ht : (u.at c).table = none) (ht' : (u.at m).table = none) (h : loadSystem «meta» env k c u = (.ok (), u')) :
    ∃ t name sup i cl u1 g, source env n = some t ∧ t.head = some (name, sup) ∧ t.rest = some (i, cl) ∧ classdef (loadClass «meta» env k) t u = (.ok g, u1) ∧
      g.inst.meths = i.meths ∧ g.cls.meths = cl.meths ∧ Later u u1 ∧
      Two c m u1 u' { u.at c with prims := g.inst.prims, fields := some g.inst.fields, table := enter c ((env.known n).getD ([], [])).1 (tableOf c i.meths) }
        { u.at m with prims := g.cls.prims, fields := some g.cls.fields, table := enter m ((env.known n).getD ([], [])).2 (tableOf m cl.meths) } := by
  unfold loadSystem at h
  rw [run_bind (m := get) rfl, hn] at h
  dsimp only at h
  obtain ⟨r, u2, h1, h2⟩ := bind_ok h
  rw [loadFile_eq] at h1
  have hsrc : (env.classpath.findSome? fun p => env.files p n) = source env n := rfl
  rw [hsrc] at h1
  cases hs : source env n with
  | none =>
    rw [hs] at h1
    cases h1
    unfold exit_ at h2
    rw [hx] at h2
    cases h2
  | some t =>
    rw [hs] at h1
    dsimp only at h1
    obtain ⟨c', u3, h3, h4⟩ := bind_ok h1
    obtain ⟨g, u1, h5, h6⟩ := bind_ok h3
    have hlat : Later u u1 := by
      have := Later.classdef (Later.loadClass «meta» env k) t u
      rw [h5] at this
      exact this
    have hc := U.lt_of_cls hm
    obtain ⟨u4, h7, o7⟩ := assembleSystem_run c m g u1 (by rw [hlat.at hc]; exact hm) (Nat.lt_of_lt_of_le hl hlat.classes.length_le) hne (by rw [hlat.at hc]; exact ht) (by rw [hlat.at hl]; exact ht')
    have h6 : (do assembleSystem c g; pure c : M Cid) u1 = (.ok c', u3) := h6
    rw [run_bind h7] at h6
    have h6 : (Except.ok c, u4) = (Except.ok c', u3) := h6
    cases h6
    have hn4 : (u3.at c).name = some n := by rw [o7.fst, hlat.at hc]; exact hn
    have h4 : (if (u3.at c).name = some n then pure (some c) else (do exit_ env 1; pure (some c)) : M (Option Cid)) u3 = (.ok r, u2) := h4
    rw [if_pos hn4] at h4
    have h4 : (Except.ok (some c), u3) = (Except.ok r, u2) := h4
    cases h4
    obtain ⟨u5, h8, o8⟩ := loadPrims_run env.known c m n u2 hn4 (by rw [o7.fst, hlat.at hc]; exact hm) (by rw [o7.len]; exact Nat.lt_of_lt_of_le hl hlat.classes.length_le) hne
    have h2 : loadPrims env.known c u2 = (.ok (), u') := h2
    rw [h8] at h2
    cases h2
    obtain ⟨name, sup, i, cl, hh, hr, _, hi, hcl, _⟩ := classdef_ok h5
    refine ⟨t, name, sup, i, cl, u1, g, rfl, hh, hr, h5, hi, hcl, hlat, o8.len.trans o7.len, o8.globals.trans o7.globals, fun d h h' => (o8.other d h h').trans (o7.other d h h'), ?_, ?_⟩
    · rw [o8.fst, o7.fst, hlat.at hc, hi]
    · rw [o8.snd, o7.snd, hlat.at hl, hcl]

end PySOM.Boot

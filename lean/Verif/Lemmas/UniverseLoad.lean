import Verif.Lemmas.Universe
/-!
# Loading a class: what changes
-/
set_option autoImplicit false
namespace PySOM.Boot

theorem bind_ok {α β : Type} {m : M α} {k : α → M β} {u u' : U} {b : β} (h : (m >>= k) u = (.ok b, u')) : ∃ a u1, m u = (.ok a, u1) ∧ k a u1 = (.ok b, u') := by
  have hb : (m >>= k) u = (match m u with | (.ok a, u') => k a u' | (.error e, u') => (.error e, u')) := rfl
  rw [hb] at h
  rcases hm : m u with ⟨r, u1⟩
  rw [hm] at h
  cases r with
  | error e => cases h
  | ok a => exact ⟨a, u1, rfl, h⟩

theorem bind_run {α β : Type} (m : M α) (k : α → M β) (u : U) : (m >>= k) u = (match m u with | (.ok a, u') => k a u' | (.error e, u') => (.error e, u')) := rfl

theorem loadFile_eq («meta» : Cid) (env : Env) (load : Name → M Glob) (n : Name) (sys : Option Cid) (ps : List Nat) (u : U) : loadFile «meta» env load n sys ps u =
    (match ps.findSome? (fun p => env.files p n) with
     | none => pure none
     | some t => do
       let c ← compile «meta» load t sys
       if ((← get).at c).name = some n then pure (some c)
       else do exit_ env 1; pure (some c) : M (Option Cid)) u := by
  induction ps with
  | nil => rfl
  | cons p ps ih =>
    unfold loadFile
    rw [List.findSome?_cons]
    cases env.files p n with
    | none => exact ih
    | some t => rfl

/-- What `classdef` answers. -/
theorem classdef_ok {load : Name → M Glob} {t : Text} {g : Cgc} {u u' : U} (h : classdef load t u = (.ok g, u')) :
    ∃ name sup i c, t.head = some (name, sup) ∧ t.rest = some (i, c) ∧ g.name = name ∧ g.inst.meths = i.meths ∧ g.cls.meths = c.meths ∧
      ((sup.getD symObject = symNil ∧ g.sup = none ∧ u' = u ∧ g.inst.fields = i.fields ∧ g.cls.fields = c.fields) ∨
       (sup.getD symObject ≠ symNil ∧ ∃ s sm fs cfs, load (sup.getD symObject) u = (.ok (.cls s), u') ∧ g.sup = some s ∧ (u'.at s).fields = some fs ∧ (u'.at s).cls = some sm ∧
        (u'.at sm).fields = some cfs ∧ g.inst.fields = fs ++ i.fields ∧ g.cls.fields = cfs ++ c.fields)) := by
  unfold classdef at h
  cases hh : t.head with
  | none => rw [hh] at h; cases h
  | some p =>
  obtain ⟨name, sup⟩ := p
  rw [hh] at h
  dsimp only at h
  obtain ⟨⟨s, fs, cfs⟩, u1, h1, h2⟩ := bind_ok h
  dsimp only at h2
  cases hr : t.rest with
  | none => rw [hr] at h2; cases h2
  | some ic =>
    obtain ⟨i, c⟩ := ic
    rw [hr] at h2
    have h2 : (Except.ok _, u1) = (Except.ok g, u') := h2
    cases h2
    refine ⟨name, sup, i, c, rfl, rfl, rfl, rfl, rfl, ?_⟩
    split at h1
    · rename_i hn
      have h1 : (Except.ok _, u) = (Except.ok _, _) := h1
      cases h1
      exact .inl ⟨hn, rfl, rfl, rfl, rfl⟩
    · rename_i hn
      refine .inr ⟨hn, ?_⟩
      obtain ⟨v, u2, h3, h4⟩ := bind_ok h1
      cases v with
      | none => cases h4
      | obj o => cases h4
      | cls s' =>
        obtain ⟨fs', u3, h5, h6⟩ := bind_ok h4
        obtain ⟨m', u4, h7, h8⟩ := bind_ok h6
        obtain ⟨cfs', u5, h9, h10⟩ := bind_ok h8
        rw [fieldsOf_eq] at h5
        split at h5 <;> cases h5
        rw [classOf_eq] at h7
        split at h7 <;> cases h7
        rw [fieldsOf_eq] at h9
        split at h9 <;> cases h9
        have h10 : (Except.ok _, u2) = (Except.ok _, _) := h10
        cases h10
        exact ⟨_, _, _, _, h3, rfl, ‹_›, ‹_›, ‹_›, rfl, rfl⟩

/-- A table before the primitives of the VM are entered. -/
def tableOf (c : Cid) (ms : List (Name × Option Nat)) : Option (List Entry) := if (dict ms).isEmpty then none else some ((dict ms).map fun e => ⟨e.1, e.2, c⟩)

/-- The metaclass and the class that are made for a file, as they are before primitives are entered. -/
def newMeta (w : Nat) («meta» sm : Cid) (c : Cid) (name : Name) (cfs : List Name) (cl : Side) : Cls :=
  { cls := some «meta», sup := some sm, name := some (className name), fields := some (cfs ++ cl.fields), table := tableOf c cl.meths, prims := cl.prims, size := w }
def newInst (w : Nat) (s : Cid) (c : Cid) (name : Name) (fs : List Name) (i : Side) : Cls :=
  { cls := some c, sup := some s, name := some name, fields := some (fs ++ i.fields), table := tableOf (c + 1) i.meths, prims := i.prims, size := w }

/-- What a class that was made for a file is. -/
structure Made («meta» : Cid) (load : Name → M Glob) (t : Text) (u : U) (c : Cid) (u' : U) : Prop where
  out : ∃ name sup i cl s sm fs cfs u1, t.head = some (name, sup) ∧ t.rest = some (i, cl) ∧ sup.getD symObject ≠ symNil ∧ load (sup.getD symObject) u = (.ok (.cls s), u1) ∧
    (u1.at s).fields = some fs ∧ (u1.at s).cls = some sm ∧ (u1.at sm).fields = some cfs ∧ c = u1.classes.length + 1 ∧
    u' = ⟨u1.classes ++ [newMeta (u1.width «meta») «meta» sm u1.classes.length name cfs cl, newInst (cfs ++ cl.fields).length s u1.classes.length name fs i], u1.globals⟩

theorem compile_ok {«meta» : Cid} {load : Name → M Glob} {t : Text} {u u' : U} {c : Cid} (h : compile «meta» load t none u = (.ok c, u')) : Made «meta» load t u c u' := by
  obtain ⟨g, u1, h1, h2⟩ := bind_ok h
  obtain ⟨name, sup, i, cl, hh, hr, hn, hi, hc, h3⟩ := classdef_ok h1
  have h2 : assemble «meta» g u1 = (.ok c, u') := h2
  rw [assemble_eq] at h2
  unfold assembled at h2
  rcases h3 with ⟨_, hs, _⟩ | ⟨hne, s, sm, fs, cfs, hl, hs, hf, hsm, hcf, hif, hcf'⟩
  · rw [hs] at h2
    split at h2 <;> cases h2
  · rw [hs] at h2
    split at h2
    · cases h2
    · dsimp only at h2
      rw [U.at_app u1 _ u1.globals s (U.lt_of_cls hsm), hsm] at h2
      dsimp only at h2
      cases h2
      refine ⟨name, sup, i, cl, s, sm, fs, cfs, u1, hh, hr, hne, hl, hf, hsm, hcf, rfl, ?_⟩
      unfold newMeta newInst tableOf Side.prims
      rw [hn, hi, hc, hif, hcf']

theorem loadFile_ok {«meta» : Cid} {env : Env} {load : Name → M Glob} {n : Name} {u u' : U} {c : Cid} (h : loadFile «meta» env load n none env.classpath u = (.ok (some c), u')) :
    ∃ t, source env n = some t ∧ Made «meta» load t u c u' ∧ (env.avoidExit = false → (u'.at c).name = some n) := by
  rw [loadFile_eq] at h
  have hsrc : (env.classpath.findSome? fun p => env.files p n) = source env n := rfl
  rw [hsrc] at h
  cases hs : source env n with
  | none => rw [hs] at h; cases h
  | some t =>
    rw [hs] at h
    obtain ⟨c', u1, h1, h2⟩ := bind_ok h
    have h2 : (if (u1.at c').name = some n then pure (some c') else (do exit_ env 1; pure (some c')) : M (Option Cid)) u1 = (.ok (some c), u') := h2
    refine ⟨t, rfl, ?_⟩
    split at h2
    · rename_i hn
      have h2 : (Except.ok _, u1) = (Except.ok _, u') := h2
      cases h2
      exact ⟨compile_ok h1, fun _ => hn⟩
    · obtain ⟨_, u2, h3, h4⟩ := bind_ok h2
      unfold exit_ at h3
      split at h3
      · have h3 : (Except.ok _, u1) = (Except.ok _, u2) := h3
        cases h3
        have h4 : (Except.ok _, u1) = (Except.ok _, u') := h4
        cases h4
        exact ⟨compile_ok h1, fun h => by simp_all⟩
      · cases h3

/-! ## Entering the primitives -/

/-- The primitives of the VM are entered. -/
def enter (c : Cid) (sels : List Name) (t : Option (List Entry)) : Option (List Entry) := sels.foldl (fun t sel => some (put (t.getD []) ⟨sel, .vm, c⟩)) t

theorem modify_fst {α : Type} (xs : List α) (x y : α) (f : α → α) : (xs ++ [x, y]).modify xs.length f = xs ++ [f x, y] := by
  induction xs with
  | nil => rfl
  | cons y ys ih => simpa using ih

theorem modify_snd {α : Type} (xs : List α) (x y : α) (f : α → α) : (xs ++ [x, y]).modify (xs.length + 1) f = xs ++ [x, f y] := by
  induction xs with
  | nil => rfl
  | cons y ys ih => simpa using ih

theorem at_fst (xs : List Cls) (x y : Cls) (gl : List (Name × Glob)) : U.at ⟨xs ++ [x, y], gl⟩ xs.length = x := by unfold U.at; simp
theorem at_snd (xs : List Cls) (x y : Cls) (gl : List (Name × Glob)) : U.at ⟨xs ++ [x, y], gl⟩ (xs.length + 1) = y := by unfold U.at; simp

theorem enter_snd (xs : List Cls) (x y : Cls) (gl : List (Name × Glob)) (sels : List Name) : forAll (addPrimitive (xs.length + 1)) sels ⟨xs ++ [x, y], gl⟩ =
    (.ok (), ⟨xs ++ [x, { y with table := enter (xs.length + 1) sels y.table }], gl⟩) := by
  induction sels generalizing y with
  | nil => rfl
  | cons s sels ih =>
    unfold forAll
    rw [run_bind (a := ()) (u' := ⟨xs ++ [x, { y with table := some (put (y.table.getD []) ⟨s, .vm, xs.length + 1⟩) }], gl⟩)
      (by unfold addPrimitive modify U.upd; dsimp only; rw [modify_snd])]
    exact ih _

theorem enter_fst (xs : List Cls) (x y : Cls) (gl : List (Name × Glob)) (hy : y.cls = some xs.length) (sels : List Name) :
    forAll (fun s => do addPrimitive (← classOf (xs.length + 1)) s) sels ⟨xs ++ [x, y], gl⟩ = (.ok (), ⟨xs ++ [{ x with table := enter xs.length sels x.table }, y], gl⟩) := by
  induction sels generalizing x with
  | nil => rfl
  | cons s sels ih =>
    unfold forAll
    have h1 : (do addPrimitive (← classOf (xs.length + 1)) s : M Unit) ⟨xs ++ [x, y], gl⟩ = (.ok (), ⟨xs ++ [{ x with table := some (put (x.table.getD []) ⟨s, .vm, xs.length⟩) }, y], gl⟩) := by
      rw [run_bind (a := xs.length) (u' := ⟨xs ++ [x, y], gl⟩) (by rw [classOf_eq, at_snd, hy])]
      unfold addPrimitive modify U.upd
      dsimp only
      rw [modify_fst]
    rw [run_bind h1]
    exact ih _

/-- The primitives that the VM has for a class, if the file asks for any. -/
def entered (env : Env) (name : Name) (i cl : Side) : List Name × List Name := if i.prims || cl.prims then (env.known name).getD ([], []) else ([], [])

/-- The end of `load_class`, when the class has been made. -/
def finish (env : Env) (n : Name) (c : Cid) : M Glob := do
  if ← needsPrims c then loadPrims env.known c
  setGlobal n (.cls c)
  pure (.cls c)

theorem finish_eq (w : Nat) («meta» : Cid) (env : Env) (n name : Name) (s sm : Cid) (fs cfs : List Name) (i cl : Side) (xs : List Cls) (gl : List (Name × Glob)) :
    finish env n (xs.length + 1) ⟨xs ++ [newMeta w «meta» sm xs.length name cfs cl, newInst (cfs ++ cl.fields).length s xs.length name fs i], gl⟩ =
      (.ok (.cls (xs.length + 1)), ⟨xs ++ [{ newMeta w «meta» sm xs.length name cfs cl with table := enter xs.length (entered env name i cl).2 (tableOf xs.length cl.meths) },
        { newInst (cfs ++ cl.fields).length s xs.length name fs i with table := enter (xs.length + 1) (entered env name i cl).1 (tableOf (xs.length + 1) i.meths) }], (n, .cls (xs.length + 1)) :: gl⟩) := by
  unfold finish
  rw [run_bind (a := i.prims || cl.prims) (u' := ⟨xs ++ [newMeta w «meta» sm xs.length name cfs cl, newInst (cfs ++ cl.fields).length s xs.length name fs i], gl⟩)
    (by unfold needsPrims; rw [run_bind (m := get) rfl, at_snd]
        have hm : (newInst (cfs ++ cl.fields).length s xs.length name fs i).cls = some xs.length := rfl
        rw [hm]
        dsimp only
        rw [at_fst]; rfl)]
  cases hb : (i.prims || cl.prims) with
  | false =>
    have he : entered env name i cl = ([], []) := by unfold entered; rw [hb]; rfl
    rw [he]
    rfl
  | true =>
    have he : entered env name i cl = (env.known name).getD ([], []) := by unfold entered; rw [hb]; rfl
    have h6 : loadPrims env.known (xs.length + 1) ⟨xs ++ [newMeta w «meta» sm xs.length name cfs cl, newInst (cfs ++ cl.fields).length s xs.length name fs i], gl⟩ =
        (.ok (), ⟨xs ++ [{ newMeta w «meta» sm xs.length name cfs cl with table := enter xs.length (entered env name i cl).2 (tableOf xs.length cl.meths) },
          { newInst (cfs ++ cl.fields).length s xs.length name fs i with table := enter (xs.length + 1) (entered env name i cl).1 (tableOf (xs.length + 1) i.meths) }], gl⟩) := by
      unfold loadPrims
      rw [run_bind (m := get) rfl, at_snd]
      have hnm' : (newInst (cfs ++ cl.fields).length s xs.length name fs i).name = some name := rfl
      rw [hnm', he]
      dsimp only
      cases env.known name with
      | none => rfl
      | some ks =>
        obtain ⟨is, cs⟩ := ks
        dsimp only
        rw [run_bind (enter_snd _ _ _ _ _)]
        exact enter_fst _ _ _ _ rfl _
    show (do loadPrims env.known (xs.length + 1); setGlobal n (.cls (xs.length + 1)); pure (.cls (xs.length + 1)) : M Glob) _ = _
    rw [run_bind h6]
    rfl

/-- `load_class` for a name without value. -/
theorem loadClass_unset {«meta» : Cid} {env : Env} {k : Nat} {n : Name} {u : U} (hn : (List.lookup n u.globals).getD .none = .none) :
    loadClass «meta» env (k + 1) n u =
      (match loadFile «meta» env (loadClass «meta» env k) n none env.classpath u with
       | (.error e, u1) => (.error e, u1)
       | (.ok none, u1) => (.ok .none, { u1 with globals := (n, .none) :: u1.globals })
       | (.ok (some c), u1) => finish env n c u1) := by
  conv => lhs; unfold loadClass
  rw [run_bind (a := .none) (u' := u) (by unfold getGlobal; rw [run_bind (m := get) rfl, hn]; rfl)]
  dsimp only
  rw [bind_run]
  rcases loadFile «meta» env (loadClass «meta» env k) n none env.classpath u with ⟨r, u1⟩
  cases r with
  | error e => rfl
  | ok r => cases r <;> rfl

/-- `load_class` for a name with a value. -/
theorem loadClass_set {«meta» : Cid} {env : Env} {k : Nat} {n : Name} {u : U} {v : Glob} (hv : v ≠ .none) (hn : List.lookup n u.globals = some v) :
    loadClass «meta» env (k + 1) n u = (.ok v, u) := by
  unfold loadClass
  rw [run_bind (a := v) (u' := u) (by unfold getGlobal; rw [run_bind (m := get) rfl, hn]; rfl)]
  cases v with
  | none => exact absurd rfl hv
  | _ => rfl

/-- Loading a class of which there is no global yet. -/
theorem loadClass_ok {«meta» : Cid} {env : Env} {k : Nat} {n : Name} {u u' : U} {c : Cid} (hn : (List.lookup n u.globals).getD .none = .none)
    (h : loadClass «meta» env (k + 1) n u = (.ok (.cls c), u')) :
    ∃ t name sup i cl s sm fs cfs u1, source env n = some t ∧ t.head = some (name, sup) ∧ t.rest = some (i, cl) ∧ (env.avoidExit = false → name = n) ∧ sup.getD symObject ≠ symNil ∧
      loadClass «meta» env k (sup.getD symObject) u = (.ok (.cls s), u1) ∧ (u1.at s).fields = some fs ∧ (u1.at s).cls = some sm ∧ (u1.at sm).fields = some cfs ∧
      c = u1.classes.length + 1 ∧
      u' = ⟨u1.classes ++ [{ newMeta (u1.width «meta») «meta» sm u1.classes.length name cfs cl with table := enter u1.classes.length (entered env name i cl).2 (tableOf u1.classes.length cl.meths) },
        { newInst (cfs ++ cl.fields).length s u1.classes.length name fs i with table := enter (u1.classes.length + 1) (entered env name i cl).1 (tableOf (u1.classes.length + 1) i.meths) }],
        (n, .cls c) :: u1.globals⟩ := by
  rw [loadClass_unset hn] at h
  rcases hf : loadFile «meta» env (loadClass «meta» env k) n none env.classpath u with ⟨r, u2⟩
  rw [hf] at h
  cases r with
  | error e => cases h
  | ok r =>
    cases r with
    | none => cases h
    | some c' =>
      obtain ⟨t, hs, ⟨name, sup, i, cl, s, sm, fs, cfs, u1, hh, hr, hne, hl, hff, hsm, hcf, rfl, rfl⟩, hx⟩ := loadFile_ok hf
      dsimp only at h
      rw [finish_eq] at h
      have hnm : env.avoidExit = false → name = n := fun he => by
        have := hx he
        rw [at_snd] at this
        exact Option.some.inj this
      cases h
      exact ⟨t, name, sup, i, cl, s, sm, fs, cfs, u1, hs, hh, hr, hnm, hne, hl, hff, hsm, hcf, rfl, rfl⟩

end PySOM.Boot

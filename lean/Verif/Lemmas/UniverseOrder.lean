import Verif.Lemmas.UniverseLoad
/-!
# Loading classes: tables, order, termination
-/
set_option autoImplicit false
namespace PySOM.Boot

/-! ## Method tables -/

theorem find_put (t : List Entry) (e : Entry) (s : Name) : (put t e).find? (fun x => x.sel == s) = if e.sel = s then some e else t.find? fun x => x.sel == s := by
  unfold put
  split
  · rename_i h
    rw [List.find?_map]
    have hp : ((fun x : Entry => x.sel == s) ∘ fun x => if x.sel == e.sel then e else x) = fun x => x.sel == s := by
      funext x
      simp only [Function.comp]
      split
      · rename_i hx; rw [beq_iff_eq] at hx; rw [hx]
      · rfl
    rw [hp]
    cases hf : t.find? fun x => x.sel == s with
    | none =>
      split
      · rename_i hs
        subst hs
        rw [List.find?_eq_none] at hf
        rw [List.any_eq_true] at h
        obtain ⟨x, hx, hx'⟩ := h
        exact absurd hx' (hf x hx)
      · rfl
    | some x =>
      have hx := List.find?_some hf
      simp only [beq_iff_eq] at hx
      simp only [Option.map_some, beq_iff_eq, hx]
      by_cases hs : e.sel = s
      · simp [hs]
      · rw [if_neg (fun h => hs h.symm), if_neg hs]
  · rename_i h
    rw [List.find?_append]
    by_cases hs : e.sel = s
    · have : (t.find? fun x => x.sel == s) = none := by
        rw [List.find?_eq_none]
        intro x hx hx'
        exact h (List.any_eq_true.mpr ⟨x, hx, by rw [hs]; exact hx'⟩)
      rw [this]
      simp [hs]
    · simp [hs]

theorem find_enter (c : Cid) (sels : List Name) (t : Option (List Entry)) (s : Name) :
    ((enter c sels t).getD []).find? (fun x => x.sel == s) = if s ∈ sels then some ⟨s, .vm, c⟩ else (t.getD []).find? fun x => x.sel == s := by
  induction sels generalizing t with
  | nil => rfl
  | cons a sels ih =>
    have : enter c (a :: sels) t = enter c sels (some (put (t.getD []) ⟨a, .vm, c⟩)) := rfl
    rw [this, ih]
    simp only [Option.getD_some, find_put, List.mem_cons]
    by_cases h1 : s ∈ sels
    · simp [h1]
    · by_cases h2 : a = s
      · subst h2; simp [h1]
      · have h3 : ¬ s = a := fun h => h2 h.symm
        simp [h1, h2, h3]

/-- What a method of a file is in the table. -/
def kindOf : Option Nat → Kind
  | some b => .code b
  | none => .empty

theorem find_fold (ms : List (Name × Option Nat)) (t : List Entry) (s : Name) :
    (ms.foldl (fun t m => put t ⟨m.1, match m.2 with | some b => .code b | none => .empty, 0⟩) t).find? (fun x => x.sel == s) =
      match lastMeth ms s with | some b => some ⟨s, kindOf b, 0⟩ | none => t.find? fun x => x.sel == s := by
  induction ms generalizing t with
  | nil => rfl
  | cons m ms ih =>
    rw [List.foldl_cons, ih]
    unfold lastMeth
    rw [List.reverse_cons, List.find?_append]
    cases ms.reverse.find? fun m => m.1 == s with
    | some x => rfl
    | none =>
      simp only [Option.map_none, Option.none_or, List.find?_singleton, find_put]
      by_cases h : m.1 = s
      · subst h
        simp only [beq_self_eq_true, if_true, Option.map_some]
        cases m.2 <;> rfl
      · simp [h]

theorem find_table (c : Cid) (ms : List (Name × Option Nat)) (s : Name) : ((tableOf c ms).getD []).find? (fun x => x.sel == s) = (lastMeth ms s).map fun b => ⟨s, kindOf b, c⟩ := by
  have h1 : (tableOf c ms).getD [] = (dict ms).map fun e => ⟨e.1, e.2, c⟩ := by
    unfold tableOf
    split
    · rename_i h
      rw [List.isEmpty_iff] at h
      rw [h]; rfl
    · rfl
  rw [h1]
  unfold dict
  rw [List.map_map, List.find?_map]
  have h2 := find_fold ms [] s
  generalize List.foldl _ [] ms = t at h2
  have : ((fun x : Entry => x.sel == s) ∘ ((fun e : Name × Kind => (⟨e.1, e.2, c⟩ : Entry)) ∘ fun e : Entry => (e.sel, e.kind))) = fun x => x.sel == s := rfl
  rw [this, h2]
  cases lastMeth ms s <;> rfl

/-! ## Nothing is lost -/

/-- Classes stay as they are, and globals with a value keep it. -/
structure Later (u u' : U) : Prop where
  classes : u.classes <+: u'.classes
  globals : ∀ n v, v ≠ Glob.none → List.lookup n u.globals = some v → List.lookup n u'.globals = some v

theorem Later.refl (u : U) : Later u u := ⟨List.prefix_refl _, fun _ _ _ h => h⟩
theorem Later.trans {u v w : U} (h : Later u v) (h' : Later v w) : Later u w := ⟨h.classes.trans h'.classes, fun n v hv hn => h'.globals n v hv (h.globals n v hv hn)⟩

theorem Later.bind {α β : Type} {m : M α} {k : α → M β} {u : U} (h : Later u (m u).2) (h' : ∀ a u', m u = (.ok a, u') → Later u' (k a u').2) : Later u ((m >>= k) u).2 := by
  rw [bind_run]
  rcases hm : m u with ⟨r, u'⟩
  rw [hm] at h
  cases r with
  | error e => exact h
  | ok a => exact h.trans (h' a u' hm)

theorem Later.fieldsOf (c : Cid) (u : U) : Later u (fieldsOf c u).2 := by
  rw [fieldsOf_eq]; split <;> exact .refl _

theorem Later.classOf (c : Cid) (u : U) : Later u (classOf c u).2 := by
  rw [classOf_eq]; split <;> exact .refl _

theorem Later.classdef {load : Name → M Glob} (hl : ∀ n u, Later u (load n u).2) (t : Text) (u : U) : Later u (classdef load t u).2 := by
  unfold Boot.classdef
  cases t.head with
  | none => exact .refl _
  | some p =>
    obtain ⟨name, sup⟩ := p
    refine Later.bind ?_ fun a u' _ => ?_
    · split
      · exact .refl _
      · refine Later.bind (hl _ _) fun v u' _ => ?_
        cases v with
        | none => exact .refl _
        | obj o => exact .refl _
        | cls s => exact (Later.fieldsOf _ _).bind fun _ _ _ => (Later.classOf _ _).bind fun _ _ _ => (Later.fieldsOf _ _).bind fun _ _ _ => .refl _
    · obtain ⟨s, fs, cfs⟩ := a
      dsimp only
      cases t.rest <;> exact .refl _

theorem Later.assemble («meta» : Cid) (g : Cgc) (u : U) : Later u (assemble «meta» g u).2 := by
  rw [assemble_eq]
  unfold assembled
  split
  · exact .refl _
  · dsimp only
    split
    · exact ⟨List.prefix_append _ _, fun _ _ _ h => h⟩
    · split
      · exact ⟨List.prefix_append _ _, fun _ _ _ h => h⟩
      · exact ⟨List.prefix_append _ _, fun _ _ _ h => h⟩

theorem Later.compile {load : Name → M Glob} (hl : ∀ n u, Later u (load n u).2) («meta» : Cid) (t : Text) (u : U) : Later u (compile «meta» load t none u).2 :=
  (Later.classdef hl t u).bind fun g u' _ => Later.assemble «meta» g u'

theorem Later.loadFile {load : Name → M Glob} (hl : ∀ n u, Later u (load n u).2) («meta» : Cid) (env : Env) (n : Name) (ps : List Nat) (u : U) :
    Later u (loadFile «meta» env load n none ps u).2 := by
  rw [loadFile_eq]
  cases ps.findSome? fun p => env.files p n with
  | none => exact .refl _
  | some t =>
    refine (Later.compile hl _ _ _).bind fun c u' _ => Later.bind (.refl _) fun a u'' _ => ?_
    split
    · exact .refl _
    · refine Later.bind ?_ fun _ _ _ => .refl _
      unfold exit_
      split <;> exact .refl _

theorem Later.set {u u1 : U} {n : Name} (h : Later u u1) (hn : (List.lookup n u.globals).getD .none = .none) {cs : List Cls} (hc : u1.classes <+: cs) (v : Glob) :
    Later u ⟨cs, (n, v) :: u1.globals⟩ := by
  refine ⟨h.classes.trans hc, fun m w hw hm => ?_⟩
  have hne : m ≠ n := by
    intro he
    subst he
    rw [hm] at hn
    exact hw hn
  have hb : (m == n) = false := by simpa using hne
  simp only [List.lookup, hb]
  exact h.globals m w hw hm

theorem Later.loadClass («meta» : Cid) (env : Env) (k : Nat) : ∀ (n : Name) (u : U), Later u (loadClass «meta» env k n u).2 := by
  induction k with
  | zero => exact fun n u => .refl _
  | succ k ih =>
    intro n u
    by_cases hn : (List.lookup n u.globals).getD .none = .none
    · have hf := Later.loadFile ih «meta» env n env.classpath u
      rw [loadClass_unset hn]
      rcases h : Boot.loadFile «meta» env (Boot.loadClass «meta» env k) n none env.classpath u with ⟨r, u1⟩
      rw [h] at hf
      cases r with
      | error e => exact hf
      | ok r =>
        cases r with
        | none => exact hf.set hn (List.prefix_refl _) _
        | some c =>
          obtain ⟨t, hs, ⟨name, sup, i, cl, s, sm, fs, cfs, u2, hh, hr, hne, hl, hff, hsm, hcf, rfl, rfl⟩, hx⟩ := loadFile_ok h
          dsimp only
          rw [finish_eq]
          have h2 := ih (sup.getD symObject) u
          rw [hl] at h2
          exact h2.set hn (List.prefix_append _ _) _
    · cases hg : List.lookup n u.globals with
      | none => rw [hg] at hn; exact absurd rfl hn
      | some v =>
        rw [loadClass_set (fun h => hn (by rw [hg, h]; rfl)) hg]
        exact .refl _

theorem Later.at {u u' : U} (h : Later u u') {c : Cid} (hc : c < u.classes.length) : u'.at c = u.at c := by
  obtain ⟨xs, hx⟩ := h.classes
  obtain ⟨cl, gl⟩ := u'
  cases hx
  exact U.at_app u xs gl c hc

/-! ## Recursion -/

/-- Not the exception for too deep recursion. -/
def Ends {α : Type} (r : Except Err α × U) : Prop := r.1 ≠ .error .recursion

theorem Ends.bind {α β : Type} {m : M α} {k : α → M β} {u : U} (h : Ends (m u)) (h' : ∀ a u', m u = (.ok a, u') → Ends (k a u')) : Ends ((m >>= k) u) := by
  rw [bind_run]
  rcases hm : m u with ⟨r, u'⟩
  rw [hm] at h
  cases r with
  | error e => exact fun he => h (by cases he; rfl)
  | ok a => exact h' a u' hm

theorem Ends.ok {α : Type} (a : α) (u : U) : Ends ((Except.ok a, u) : Except Err α × U) := fun h => by cases h

theorem Ends.fieldsOf (c : Cid) (u : U) : Ends (fieldsOf c u) := by
  rw [fieldsOf_eq]; split <;> (intro h; cases h)

theorem Ends.classOf (c : Cid) (u : U) : Ends (classOf c u) := by
  rw [classOf_eq]; split <;> (intro h; cases h)

theorem Ends.classdef {load : Name → M Glob} {t : Text} (hl : ∀ m u, t.super = some m → Ends (load m u)) (u : U) : Ends (classdef load t u) := by
  unfold Boot.classdef
  cases hh : t.head with
  | none => intro h; cases h
  | some p =>
    obtain ⟨name, sup⟩ := p
    refine Ends.bind ?_ fun a u' _ => ?_
    · split
      · exact Ends.ok _ _
      · rename_i hne
        refine Ends.bind (hl _ _ (by unfold Text.super; rw [hh]; exact if_neg hne)) fun v u' _ => ?_
        cases v with
        | none => intro h; cases h
        | obj o => intro h; cases h
        | cls s => exact (Ends.fieldsOf _ _).bind fun _ _ _ => (Ends.classOf _ _).bind fun _ _ _ => (Ends.fieldsOf _ _).bind fun _ _ _ => Ends.ok _ _
    · obtain ⟨s, fs, cfs⟩ := a
      dsimp only
      cases t.rest with
      | none => intro h; cases h
      | some ic => exact Ends.ok _ _

theorem Ends.assemble («meta» : Cid) (g : Cgc) (u : U) : Ends (assemble «meta» g u) := by
  rw [assemble_eq]
  unfold assembled
  split
  · intro h; cases h
  · dsimp only
    split
    · intro h; cases h
    · split <;> (intro h; cases h)

theorem Ends.loadFile {env : Env} {load : Name → M Glob} {n : Name} (hl : ∀ t m u, source env n = some t → t.super = some m → Ends (load m u)) («meta» : Cid) (u : U) :
    Ends (loadFile «meta» env load n none env.classpath u) := by
  rw [loadFile_eq]
  have hsrc : (env.classpath.findSome? fun p => env.files p n) = source env n := rfl
  rw [hsrc]
  cases hs : source env n with
  | none => exact Ends.ok _ _
  | some t =>
    refine Ends.bind ((Ends.classdef (fun m u => hl t m u hs) u).bind fun g u' _ => Ends.assemble «meta» g u') fun c u' _ => Ends.bind (Ends.ok _ _) fun a u'' _ => ?_
    split
    · exact Ends.ok _ _
    · refine Ends.bind ?_ fun _ _ _ => Ends.ok _ _
      unfold exit_
      split
      · exact Ends.ok _ _
      · intro h; cases h

theorem loadClass_ends («meta» : Cid) (env : Env) (r : Name → Nat) (hr : ∀ n t m, source env n = some t → t.super = some m → r m < r n) (k : Nat) :
    ∀ (n : Name) (u : U), r n < k → Ends (loadClass «meta» env k n u) := by
  induction k with
  | zero => intro n u h; cases h
  | succ k ih =>
    intro n u h
    by_cases hn : (List.lookup n u.globals).getD .none = .none
    · have hf := Ends.loadFile (env := env) (n := n) (load := loadClass «meta» env k) (fun t m u hs hm => ih m u (by have := hr n t m hs hm; omega)) «meta» u
      rw [loadClass_unset hn]
      rcases hq : Boot.loadFile «meta» env (Boot.loadClass «meta» env k) n none env.classpath u with ⟨r, u1⟩
      rw [hq] at hf
      cases r with
      | error e => exact fun he => hf (by cases he; rfl)
      | ok r =>
        cases r with
        | none => exact Ends.ok _ _
        | some c =>
          obtain ⟨t, hs, ⟨name, sup, i, cl, s, sm, fs, cfs, u2, hh, hr, hne, hl, hff, hsm, hcf, rfl, rfl⟩, hx⟩ := loadFile_ok hq
          dsimp only
          rw [finish_eq]
          exact Ends.ok _ _
    · cases hg : List.lookup n u.globals with
      | none => rw [hg] at hn; exact absurd rfl hn
      | some v =>
        rw [loadClass_set (fun h => hn (by rw [hg, h]; rfl)) hg]
        exact Ends.ok _ _

theorem classdef_recursion {load : Name → M Glob} {t : Text} {m : Name} {u u' : U} {e : Err} (hm : t.super = some m) (h : load m u = (.error e, u')) : classdef load t u = (.error e, u') := by
  unfold Text.super at hm
  unfold classdef
  cases hh : t.head with
  | none => rw [hh] at hm; cases hm
  | some p =>
    obtain ⟨name, sup⟩ := p
    rw [hh] at hm
    dsimp only at hm
    split at hm
    · cases hm
    · rename_i hne
      have hm := Option.some.inj hm
      dsimp only
      rw [if_neg hne, hm]
      exact run_bind_error (run_bind_error h)

theorem loadClass_cycle («meta» : Cid) (env : Env) (S : Name → Prop) (u : U) (hS : ∀ n, S n → (List.lookup n u.globals).getD .none = .none ∧ ∃ t m, source env n = some t ∧ t.super = some m ∧ S m)
    (k : Nat) : ∀ n, S n → loadClass «meta» env k n u = (.error .recursion, u) := by
  induction k with
  | zero => exact fun n _ => rfl
  | succ k ih =>
    intro n hn
    obtain ⟨hu, t, m, ht, hm, hSm⟩ := hS n hn
    rw [loadClass_unset hu]
    have : loadFile «meta» env (loadClass «meta» env k) n none env.classpath u = (.error .recursion, u) := by
      rw [loadFile_eq]
      have hsrc : (env.classpath.findSome? fun p => env.files p n) = some t := ht
      rw [hsrc]
      exact run_bind_error (run_bind_error (classdef_recursion hm (ih m hSm)))
    rw [this]

/-! ## The bound of the recursion -/

theorem bind_more {α β : Type} {m m' : M α} {k : α → M β} {u : U} (hm : Ends (m u) → m' u = m u) (h : Ends ((m >>= k) u)) : (m' >>= k) u = (m >>= k) u := by
  rw [bind_run] at h
  rw [bind_run, bind_run, hm]
  intro he
  apply h
  rcases hq : m u with ⟨r, u'⟩
  rw [hq] at he
  cases r with
  | ok a => cases he
  | error e => cases he; rfl

theorem loadClass_more («meta» : Cid) (env : Env) (k : Nat) : ∀ (n : Name) (u : U), Ends (loadClass «meta» env k n u) → loadClass «meta» env (k + 1) n u = loadClass «meta» env k n u := by
  induction k with
  | zero => exact fun n u h => absurd rfl h
  | succ k ih =>
    intro n u h
    by_cases hn : (List.lookup n u.globals).getD .none = .none
    · have key : Ends (loadFile «meta» env (loadClass «meta» env k) n none env.classpath u) →
          loadFile «meta» env (loadClass «meta» env (k + 1)) n none env.classpath u = loadFile «meta» env (loadClass «meta» env k) n none env.classpath u := by
        rw [loadFile_eq, loadFile_eq]
        intro he
        cases hs : env.classpath.findSome? fun p => env.files p n with
        | none => rfl
        | some t =>
          rw [hs] at he
          refine bind_more (fun he => bind_more (fun he => ?_) he) he
          unfold classdef at he ⊢
          cases hh : t.head with
          | none => rfl
          | some p =>
            obtain ⟨name, sup⟩ := p
            rw [hh] at he
            dsimp only at he ⊢
            refine bind_more (fun he => ?_) he
            split
            · rfl
            · rename_i hne
              rw [if_neg hne] at he
              exact bind_more (fun he => ih _ _ he) he
      rw [loadClass_unset hn] at h ⊢
      rw [loadClass_unset hn, key]
      intro he
      apply h
      rcases hq : loadFile «meta» env (loadClass «meta» env k) n none env.classpath u with ⟨r, u1⟩
      rw [hq] at he
      cases r with
      | ok a => cases he
      | error e => cases he; rfl
    · cases hg : List.lookup n u.globals with
      | none => rw [hg] at hn; exact absurd rfl hn
      | some v =>
        rw [loadClass_set (fun h => hn (by rw [hg, h]; rfl)) hg, loadClass_set (fun h => hn (by rw [hg, h]; rfl)) hg]

end PySOM.Boot

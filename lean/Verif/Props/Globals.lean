import Verif.Model.Globals
/-!
# Property C23: globals behave like a map
-/
set_option autoImplicit false
namespace PySOM.Glob

namespace Spec

/-- The specification state: a partial map of globals, and the names of the compiled occurrences. -/
structure S where
  map : Name → Option Val
  occ : List Name

def S.init : S := ⟨fun _ => none, []⟩

/-- A read of a map. -/
def readOf : Option Val → Read
  | some v => .value v
  | none => .unknown

/-- The intended behaviour of each operation: caching does not exist, a failed load changes nothing. -/
def step (nil : Val) (s : S) : Op → Ans × S
  | .put n v => (.obj v, { s with map := fun m => if m = n then some v else s.map m })
  | .get n => (.obj ((s.map n).getD nil), s)
  | .has n => (.bool (s.map n).isSome, s)
  | .load n found => match s.map n with
    | some v => (.obj v, s)
    | none => (.obj (found.getD nil), { s with map := fun m => if m = n then found else s.map m })
  | .compile n => (.nothing, { s with occ := s.occ ++ [n] })
  | .read k => match s.occ[k]? with
    | some n => (.read (readOf (s.map n)), s)
    | none => (.nothing, s)
  | .push n => (.read (readOf (s.map n)), s)

def run (nil : Val) (s : S) : List Op → List Ans × S
  | [] => ([], s)
  | op :: ops => let r := step nil s op; let r' := run nil r.2 ops; (r.1 :: r'.1, r'.2)

end Spec

/-- Representation: the dictionary is injective into the associations, cached associations belong to the site's name. -/
structure Rep (g : State) (s : Spec.S) : Prop where
  valid : ∀ (n : Name) (a : Nat), List.lookup n g.dict = some a → a < g.assocs.length
  inj : ∀ (n m : Name) (a : Nat), List.lookup n g.dict = some a → List.lookup m g.dict = some a → n = m
  map : ∀ n, s.map n = getGlobal g n
  occ : s.occ = g.sites.map (·.1)
  cached : ∀ (k : Nat) (n : Name) (a : Nat), g.sites[k]? = some (n, some a) → List.lookup n g.dict = some a

/-- No association holds Python's `None`. -/
def NoNone (g : State) : Prop := ∀ (n : Name) (a : Nat), List.lookup n g.dict = some a → assocValue g a ≠ none

theorem Rep.init : Rep State.init Spec.S.init := by
  constructor <;> simp [State.init, Spec.S.init, getGlobal, assocOrNone]

theorem NoNone.init : NoNone State.init := by intro n a h; simp [State.init] at h

/-- Facts about `getAssoc`. -/
theorem getAssoc_spec (nil : Val) (g : State) (n : Name)
    (hv : ∀ (n : Name) (a : Nat), List.lookup n g.dict = some a → a < g.assocs.length)
    (hi : ∀ (n m : Name) (a : Nat), List.lookup n g.dict = some a → List.lookup m g.dict = some a → n = m) :
    List.lookup n (getAssoc nil g n).2.dict = some (getAssoc nil g n).1 ∧
    (∀ m, m ≠ n → List.lookup m (getAssoc nil g n).2.dict = List.lookup m g.dict) ∧
    (getAssoc nil g n).2.sites = g.sites ∧
    (∀ a, List.lookup n g.dict = some a → (getAssoc nil g n) = (a, g)) ∧
    (∀ a, a < g.assocs.length → (getAssoc nil g n).2.assocs[a]? = g.assocs[a]?) ∧
    (getAssoc nil g n).1 < (getAssoc nil g n).2.assocs.length ∧
    g.assocs.length ≤ (getAssoc nil g n).2.assocs.length ∧
    (∀ m, m ≠ n → List.lookup m g.dict ≠ some (getAssoc nil g n).1) := by
  unfold getAssoc
  cases hl : List.lookup n g.dict with
  | some a =>
    refine ⟨hl, fun _ _ => rfl, rfl, ?_, fun _ _ => rfl, hv n a hl, Nat.le_refl _, ?_⟩
    · intro b hb; cases hb; rfl
    · intro m hm hma; exact hm (hi m n a hma hl)
  | none =>
    refine ⟨by simp [List.lookup], ?_, rfl, by simp, ?_, by simp, by simp, ?_⟩
    · intro m hm
      have : (m == n) = false := by simpa using hm
      simp [List.lookup, this]
    · intro a ha; simp [List.getElem?_append_left ha]
    · intro m hm hma
      have := hv m _ hma
      simp at this

theorem setGlobal_rep (nil : Val) (g : State) (s : Spec.S) (h : Rep g s) (n : Name) (v : Option Val) :
    Rep (setGlobal nil g n v) { s with map := fun m => if m = n then v else s.map m } := by
  obtain ⟨p1, p2, p3, p4, p5, p6, p7, p8⟩ := getAssoc_spec nil g n h.valid h.inj
  have hlen : ∀ (m : Name) (a : Nat), List.lookup m (setGlobal nil g n v).dict = some a → a < (setGlobal nil g n v).assocs.length := by
    intro m a hma
    simp only [setGlobal, List.length_set] at hma ⊢
    by_cases hm : m = n
    · subst hm; rw [p1] at hma; cases hma; exact p6
    · rw [p2 m hm] at hma; exact Nat.lt_of_lt_of_le (h.valid m a hma) p7
  constructor
  · exact hlen
  · intro m m' a h1 h2
    simp only [setGlobal] at h1 h2
    by_cases hm : m = n <;> by_cases hm' : m' = n
    · rw [hm, hm']
    · subst hm; rw [p1] at h1; cases h1
      rw [p2 m' hm'] at h2; exact absurd h2 (p8 m' hm')
    · subst hm'; rw [p1] at h2; cases h2
      rw [p2 m hm] at h1; exact absurd h1 (p8 m hm)
    · rw [p2 m hm] at h1; rw [p2 m' hm'] at h2; exact h.inj m m' a h1 h2
  · intro m
    simp only [getGlobal, assocOrNone, setGlobal, assocValue]
    by_cases hm : m = n
    · subst hm; simp [p1, List.getElem?_set, p6]
    · simp only [hm, if_false, p2 m hm, h.map m, getGlobal, assocOrNone, assocValue]
      cases hl : List.lookup m g.dict with
      | none => rfl
      | some a =>
        have hne : (getAssoc nil g n).1 ≠ a := fun he => p8 m hm (he ▸ hl)
        simp [List.getElem?_set, hne, p5 a (h.valid m a hl)]
  · simp only [setGlobal, p3]; exact h.occ
  · intro k m a hk
    simp only [setGlobal, p3] at hk ⊢
    have h1 := h.cached k m a hk
    by_cases hm : m = n
    · subst hm; rw [p4 a h1]; exact h1
    · rw [p2 m hm]; exact h1

theorem setGlobal_noNone (nil : Val) (g : State) (s : Spec.S) (h : Rep g s) (hn : NoNone g) (n : Name) (v : Val) :
    NoNone (setGlobal nil g n (some v)) := by
  intro m a hma
  have hr := setGlobal_rep nil g s h n (some v)
  have hmap := hr.map m
  have h0 := h.map m
  simp only [getGlobal, assocOrNone, hma] at hmap
  rw [← hmap]
  by_cases hm : m = n
  · simp [hm]
  · simp only [hm, if_false, h0]
    obtain ⟨_, p2, _⟩ := getAssoc_spec nil g n h.valid h.inj
    have : List.lookup m g.dict = some a := by
      rw [← p2 m hm]; exact hma
    simp only [getGlobal, assocOrNone, this]
    exact hn m a this

/-- The answers that a failed load may spoil: `hasGlobal:` and reads through AST nodes or trivial methods. -/
def sensitive : Op → Bool
  | .has _ => true
  | .read _ => true
  | _ => false

/-- The load finds nothing. -/
def failingLoad : Op → Bool
  | .load _ none => true
  | _ => false

theorem readSite_rep (nil : Val) (g : State) (s : Spec.S) (h : Rep g s) (k : Nat) : Rep (readSite nil g k).2 s := by
  unfold readSite
  cases hk : g.sites[k]? with
  | none => exact h
  | some p =>
    obtain ⟨n, c⟩ := p
    cases c with
    | some a => exact h
    | none =>
      simp only
      split
      · rename_i hhas
        obtain ⟨a, ha⟩ := Option.isSome_iff_exists.1 hhas
        obtain ⟨_, _, _, p4, _⟩ := getAssoc_spec nil g n h.valid h.inj
        rw [p4 a ha]
        refine ⟨h.valid, h.inj, h.map, ?_, ?_⟩
        · rw [h.occ]
          apply List.ext_getElem?
          intro i
          simp only [List.getElem?_map, List.getElem?_set]
          by_cases hik : k = i
          · subst hik
            have : k < g.sites.length := by
              by_cases hc : k < g.sites.length
              · exact hc
              · rw [List.getElem?_eq_none (by omega)] at hk; cases hk
            simp only [hk, Option.map_some, if_true, this]
          · simp [hik]
        · intro i m b hi
          simp only [List.getElem?_set] at hi
          by_cases hik : k = i
          · subst hik
            simp only [if_true] at hi
            split at hi
            · cases hi; exact ha
            · cases hi
          · simp only [hik, if_false] at hi
            exact h.cached i m b hi
      · exact h

theorem readSite_noNone (nil : Val) (g : State) (s : Spec.S) (h : Rep g s) (hn : NoNone g) (k : Nat) :
    NoNone (readSite nil g k).2 := by
  unfold readSite
  cases hk : g.sites[k]? with
  | none => exact hn
  | some p =>
    obtain ⟨n, c⟩ := p
    cases c with
    | some a => exact hn
    | none =>
      simp only
      split
      · rename_i hhas
        obtain ⟨a, ha⟩ := Option.isSome_iff_exists.1 hhas
        obtain ⟨_, _, _, p4, _⟩ := getAssoc_spec nil g n h.valid h.inj
        rw [p4 a ha]
        exact hn
      · exact hn

theorem readSite_ans (nil : Val) (g : State) (s : Spec.S) (h : Rep g s) (hn : NoNone g) (k : Nat) (n : Name) (c : Option Nat)
    (hk : g.sites[k]? = some (n, c)) : (readSite nil g k).1 = some (Spec.readOf (s.map n)) := by
  have key : ∀ a, List.lookup n g.dict = some a → readAssoc g a = Spec.readOf (s.map n) := by
    intro a ha
    rw [h.map n]
    simp only [getGlobal, assocOrNone, ha, readAssoc]
    cases hv : assocValue g a with
    | none => exact absurd hv (hn n a ha)
    | some v => rfl
  unfold readSite
  rw [hk]
  cases c with
  | some a => simp only [key a (h.cached k n a hk)]
  | none =>
    simp only
    split
    · rename_i hhas
      obtain ⟨a, ha⟩ := Option.isSome_iff_exists.1 hhas
      obtain ⟨_, _, _, p4, _⟩ := getAssoc_spec nil g n h.valid h.inj
      rw [p4 a ha]
      simp only [key a ha]
    · rename_i hhas
      have : assocOrNone g n = none := by simpa [hasGlobal] using hhas
      rw [h.map n]
      simp [getGlobal, this, Spec.readOf]

theorem has_ans (g : State) (s : Spec.S) (h : Rep g s) (hn : NoNone g) (n : Name) : hasGlobal g n = (s.map n).isSome := by
  rw [h.map n]
  simp only [hasGlobal, getGlobal, assocOrNone]
  cases hl : List.lookup n g.dict with
  | none => rfl
  | some a =>
    simp only [Option.isSome_some]
    cases hv : assocValue g a with
    | none => exact absurd hv (hn n a hl)
    | some v => rfl

/-- One step keeps the representation; the answer is right unless it is a sensitive one after a failed load. -/
theorem step_rep (nil : Val) (g : State) (s : Spec.S) (h : Rep g s) (op : Op) :
    Rep (step nil g op).2 (Spec.step nil s op).2 ∧
    (sensitive op = false ∨ NoNone g → (step nil g op).1 = (Spec.step nil s op).1) ∧
    (NoNone g → failingLoad op = false → NoNone (step nil g op).2) := by
  cases op with
  | put n v => exact ⟨setGlobal_rep nil g s h n (some v), fun _ => rfl, fun hn _ => setGlobal_noNone nil g s h hn n v⟩
  | get n => exact ⟨h, fun _ => by simp [step, Spec.step, h.map n], fun hn _ => hn⟩
  | has n =>
    refine ⟨h, ?_, fun hn _ => hn⟩
    intro hs
    rcases hs with hs | hs
    · cases hs
    · simp [step, Spec.step, has_ans g s h hs n]
  | load n found =>
    have hm := h.map n
    cases hg : getGlobal g n with
    | some v =>
      rw [hg] at hm
      simp only [step, loadClass, hg, Spec.step, hm]
      exact ⟨h, fun _ => rfl, fun hn _ => hn⟩
    | none =>
      rw [hg] at hm
      simp only [step, loadClass, hg, Spec.step, hm]
      refine ⟨setGlobal_rep nil g s h n found, by simp, ?_⟩
      intro hn hf
      cases found with
      | none => cases hf
      | some v => exact setGlobal_noNone nil g s h hn n v
  | compile n =>
    refine ⟨⟨h.valid, h.inj, h.map, ?_, ?_⟩, fun _ => rfl, fun hn _ => hn⟩
    · simp [Spec.step, step, newSite, h.occ]
    · intro k m a hk
      simp only [step, newSite, List.getElem?_append] at hk
      split at hk
      · exact h.cached k m a hk
      · rename_i hlt
        cases hz : (k - g.sites.length) with
        | zero =>
          simp only [hz, List.getElem?_cons_zero, Option.some.injEq, Prod.mk.injEq] at hk
          obtain ⟨rfl, hk⟩ := hk; exact hk
        | succ j => simp [hz] at hk
  | read k =>
    have hocc : s.occ[k]? = (g.sites[k]?).map (·.1) := by rw [h.occ, List.getElem?_map]
    refine ⟨?_, ?_, fun hn _ => readSite_noNone nil g s h hn k⟩
    · have := readSite_rep nil g s h k
      simp only [step, Spec.step]
      cases s.occ[k]? <;> exact this
    · intro hs
      rcases hs with hs | hs
      · cases hs
      · cases hk : g.sites[k]? with
        | none =>
          rw [hk] at hocc
          simp [step, Spec.step, hocc, readSite, hk]
        | some p =>
          obtain ⟨n, c⟩ := p
          rw [hk] at hocc
          simp [step, Spec.step, hocc, readSite_ans nil g s h hs k n c hk]
  | push n =>
    refine ⟨h, fun _ => ?_, fun hn _ => hn⟩
    simp only [step, Spec.step, h.map n, pushGlobal]
    cases getGlobal g n <;> rfl

theorem run_rep (nil : Val) (ops : List Op) : ∀ g s, Rep g s →
    ∀ (i : Nat) (op : Op), ops[i]? = some op → sensitive op = false →
      (run nil g ops).1[i]? = (Spec.run nil s ops).1[i]? := by
  induction ops with
  | nil => intro g s _ i op hi; simp at hi
  | cons op ops ih =>
    intro g s h i op' hi hs
    obtain ⟨h1, h2, h3⟩ := step_rep nil g s h op
    cases i with
    | zero =>
      simp only [List.getElem?_cons_zero, Option.some.injEq] at hi; subst hi
      simp [run, Spec.run, h2 (.inl hs)]
    | succ i => simpa [run, Spec.run] using ih _ _ h1 i op' (by simpa using hi) hs

/-- **C23** (partial).  Full statement: for every history `(run nil State.init ops).1 = (Spec.run nil Spec.S.init ops).1`.
Proved under the condition that no `load:` of a missing class occurs: every store, every later read — by primitive, by
bytecode, or through associations cached in AST nodes and trivial methods before or after the store — and every
`hasGlobal:` behaves as on a plain map. -/
theorem C23_globals_map_partial (nil : Val) (ops : List Op) (hload : ∀ op ∈ ops, failingLoad op = false) :
    (run nil State.init ops).1 = (Spec.run nil Spec.S.init ops).1 := by
  have gen : ∀ (ops : List Op) g s, Rep g s → NoNone g → (∀ op ∈ ops, failingLoad op = false) →
      (run nil g ops).1 = (Spec.run nil s ops).1 := by
    intro ops
    induction ops with
    | nil => intros; rfl
    | cons op ops ih =>
      intro g s h hn hl
      obtain ⟨h1, h2, h3⟩ := step_rep nil g s h op
      have := ih _ _ h1 (h3 hn (hl op List.mem_cons_self)) (fun o ho => hl o (List.mem_cons_of_mem _ ho))
      simp [run, Spec.run, h2 (.inr hn), this]
  exact gen ops _ _ Rep.init NoNone.init hload

example : (run 0 State.init [.compile 7, .read 0, .put 7 42, .read 0, .compile 7, .put 7 43, .read 0, .read 1, .push 7, .get 8, .has 7]).1 =
    [.nothing, .read .unknown, .obj 42, .read (.value 42), .nothing, .obj 43, .read (.value 43), .read (.value 43),
     .read (.value 43), .obj 0, .bool true] := by decide

/-- **C23**: even after failed loads, stores, `global:`, `load:` and the bytecode `push_global` behave as on a plain
map, at every position of every history. -/
theorem C23_robust_reads (nil : Val) (ops : List Op) (i : Nat) (op : Op) (hi : ops[i]? = some op) (hs : sensitive op = false) :
    (run nil State.init ops).1[i]? = (Spec.run nil Spec.S.init ops).1[i]? :=
  run_rep nil ops _ _ Rep.init i op hi hs

example : (run 0 State.init [.load 7 none, .push 7, .get 7, .put 7 5, .push 7]).1 =
    [.obj 0, .read .unknown, .obj 0, .obj 5, .read (.value 5)] := by decide

/-- **C23 violated**: after a failed `system load: #X` the name counts as a global and an AST read of it yields Python's
`None` instead of sending `unknownGlobal:`. -/
theorem C23_violated : ∃ ops : List Op,
    (run 0 State.init ops).1 = [.obj 0, .bool true, .nothing, .read .pyNone] ∧
    (Spec.run 0 Spec.S.init ops).1 = [.obj 0, .bool false, .nothing, .read .unknown] :=
  ⟨[.load 7 none, .has 7, .compile 7, .read 0], by decide, by decide⟩

end PySOM.Glob

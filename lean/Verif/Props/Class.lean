import Verif.Model.Class
/-!
# Properties C17, C18, C19
-/
set_option autoImplicit false
namespace PySOM.Cls

namespace Spec

/-- `Nearest H D c s r`: walking up from `c`, the first class whose *declared* methods `D` include `s` declares `r`
(`none` if no class on the chain does). -/
inductive Nearest (H : Hier) (D : Cid → Sel → Option Meth) : Cid → Sel → Option Meth → Prop
  | own {c s m} : D c s = some m → Nearest H D c s (some m)
  | up {c d s r} : D c s = none → H.sup c = some d → Nearest H D d s r → Nearest H D c s r
  | top {c s} : D c s = none → H.sup c = none → Nearest H D c s none

/-- There is at most one nearest definition. -/
theorem Nearest.unique {H : Hier} {D : Cid → Sel → Option Meth} {c : Cid} {s : Sel} {r r' : Option Meth}
    (h : Nearest H D c s r) (h' : Nearest H D c s r') : r = r' := by
  induction h generalizing r' with
  | own h1 => cases h' with
    | own h2 => exact h1.symm.trans h2
    | up h2 _ _ => rw [h1] at h2; cases h2
    | top h2 _ => rw [h1] at h2; cases h2
  | up h1 h2 _ ih => cases h' with
    | own h3 => rw [h1] at h3; cases h3
    | up _ h4 h5 => rw [h2] at h4; cases h4; exact ih h5
    | top _ h4 => rw [h2] at h4; cases h4
  | top h1 h2 => cases h' with
    | own h3 => rw [h1] at h3; cases h3
    | up _ h4 _ => rw [h2] at h4; cases h4
    | top _ _ => rfl

end Spec
open Spec

/-! ## Lemmas -/

theorem lookup_append_none {t : Table} {s : Sel} (h : List.lookup s t = none) (u : Table) :
    List.lookup s (t ++ u) = List.lookup s u := by
  induction t with
  | nil => rfl
  | cons e t ih =>
    obtain ⟨k, v⟩ := e
    simp only [List.lookup] at h ⊢
    by_cases hk : (s == k) = true
    · simp [hk] at h
    · simp only [Bool.not_eq_true] at hk
      simp only [hk, List.cons_append, List.lookup] at h ⊢
      exact ih h

theorem lookup_append_some {t : Table} {s : Sel} {m : Meth} (h : List.lookup s t = some m) (u : Table) :
    List.lookup s (t ++ u) = some m := by
  induction t with
  | nil => cases h
  | cons e t ih =>
    obtain ⟨k, v⟩ := e
    simp only [List.lookup] at h ⊢
    by_cases hk : (s == k) = true
    · simp only [hk] at h; simp [List.lookup, hk, h]
    · simp only [Bool.not_eq_true] at hk
      simp only [hk, List.cons_append, List.lookup] at h ⊢
      exact ih h

theorem any_false_of_lookup {t : Table} {s : Sel} (h : List.lookup s t = none) : t.any (fun e => e.1 == s) = false := by
  induction t with
  | nil => rfl
  | cons e t ih =>
    obtain ⟨k, v⟩ := e
    simp only [List.lookup] at h
    by_cases hk : (s == k) = true
    · simp [hk] at h
    · simp only [Bool.not_eq_true] at hk
      simp only [hk] at h
      have : (k == s) = false := by
        simp only [beq_eq_false_iff_ne] at hk ⊢; exact fun h => hk h.symm
      simp only [List.any_cons, this, Bool.false_or]
      exact ih h

theorem put_new {t : Table} {s : Sel} (h : t.get s = none) (m : Meth) : t.put s m = t ++ [(s, m)] := by
  simp only [Table.put, any_false_of_lookup h, Bool.false_eq_true, if_false]

/-- Tables reachable from the declared ones by lookups: every class's table starts with its declarations, followed by
memoised methods, each of which is the nearest definition of its selector and is inherited. -/
def Memo (H : Hier) (D T : Tables) : Prop :=
  ∀ c, ∃ ms : Table, T c = D c ++ ms ∧ ∀ e ∈ ms, (D c).get e.1 = none ∧ Nearest H (fun c s => (D c).get s) c e.1 (some e.2)

theorem Memo.init (H : Hier) (D : Tables) : Memo H D D := fun c => ⟨[], by simp, by simp⟩

theorem lookup_mem {t : Table} {s : Sel} {m : Meth} (h : List.lookup s t = some m) : (s, m) ∈ t := by
  induction t with
  | nil => cases h
  | cons e t ih =>
    obtain ⟨k, v⟩ := e
    simp only [List.lookup] at h
    by_cases hk : (s == k) = true
    · simp only [hk, Option.some.injEq] at h; subst h
      simp only [beq_iff_eq] at hk; subst hk; exact List.mem_cons_self
    · simp only [Bool.not_eq_true] at hk
      simp only [hk] at h
      exact List.mem_cons_of_mem _ (ih h)

/-- Tables of a class only grow, and only classes at or above `c` are touched. -/
theorem lookup_spec (H : Hier) (D : Tables) (T : Tables) (c : Cid) (s : Sel) (hm : Memo H D T) :
    Nearest H (fun c s => (D c).get s) c s (lookupInvokable H T c s).1 ∧ Memo H D (lookupInvokable H T c s).2 ∧
    (∀ d, H.rank c < H.rank d → (lookupInvokable H T c s).2 d = T d) := by
  fun_induction lookupInvokable H T c s with
  | case1 c m hget =>
    refine ⟨?_, hm, fun _ _ => rfl⟩
    obtain ⟨ms, hT, hms⟩ := hm c
    cases hD : (D c).get s with
    | some m' =>
      have : (T c).get s = some m' := by rw [hT]; exact lookup_append_some hD ms
      rw [this] at hget; cases hget
      exact .own hD
    | none =>
      have : List.lookup s ms = some m := by
        have h2 := lookup_append_none hD ms
        rw [← hT] at h2
        exact h2.symm.trans hget
      exact (hms _ (lookup_mem this)).2
  | case2 c hget d hd m T' heq ih =>
    obtain ⟨i1, i2, i3⟩ := ih
    rw [heq] at i1 i2 i3
    have hDn : (D c).get s = none := by
      obtain ⟨ms, hT, _⟩ := hm c
      cases hD : (D c).get s with
      | none => rfl
      | some m' =>
        have : (T c).get s = some m' := by rw [hT]; exact lookup_append_some hD ms
        rw [this] at hget; cases hget
    have hnear : Nearest H (fun c s => (D c).get s) c s (some m) := .up hDn hd i1
    have hTc : T' c = T c := i3 c (H.dec c d hd)
    refine ⟨hnear, ?_, ?_⟩
    · intro e
      by_cases he : e = c
      · subst he
        obtain ⟨ms, hT, hms⟩ := hm e
        refine ⟨ms ++ [(s, m)], ?_, ?_⟩
        · simp only [Tables.set, if_true]
          rw [hTc, put_new hget, hT, List.append_assoc]
        · intro x hx
          rcases List.mem_append.1 hx with hx | hx
          · exact hms x hx
          · simp only [List.mem_singleton] at hx; subst hx; exact ⟨hDn, hnear⟩
      · simp only [Tables.set, he, if_false]; exact i2 e
    · intro e he
      have hne : e ≠ c := by rintro rfl; exact Nat.lt_irrefl _ he
      simp only [Tables.set, hne, if_false]
      exact i3 e (Nat.lt_trans (H.dec c d hd) he)
  | case3 c hget d hd T' heq ih =>
    obtain ⟨i1, i2, i3⟩ := ih
    rw [heq] at i1 i2 i3
    have hDn : (D c).get s = none := by
      obtain ⟨ms, hT, _⟩ := hm c
      cases hD : (D c).get s with
      | none => rfl
      | some m' =>
        have : (T c).get s = some m' := by rw [hT]; exact lookup_append_some hD ms
        rw [this] at hget; cases hget
    exact ⟨.up hDn hd i1, i2, fun e he => i3 e (Nat.lt_trans (H.dec c d hd) he)⟩
  | case4 c hget hd =>
    have hDn : (D c).get s = none := by
      obtain ⟨ms, hT, _⟩ := hm c
      cases hD : (D c).get s with
      | none => rfl
      | some m' =>
        have : (T c).get s = some m' := by rw [hT]; exact lookup_append_some hD ms
        rw [this] at hget; cases hget
    exact ⟨.top hDn hd, hm, fun _ _ => rfl⟩

theorem runLookups_memo (H : Hier) (D : Tables) (qs : List (Cid × Sel)) : ∀ T, Memo H D T → Memo H D (runLookups H T qs).2 := by
  induction qs with
  | nil => intro T h; exact h
  | cons q qs ih => intro T h; exact ih _ (lookup_spec H D T q.1 q.2 h).2.1

/-! ## C17 -/

/-- **C17**: for every hierarchy with declared methods `D` and every sequence of lookups (by any receivers' classes, of any
selectors, in any order), each lookup answers the nearest definition on the superclass chain — memoisation never changes
an answer. -/
theorem C17_lookup_nearest (H : Hier) (D : Tables) (qs : List (Cid × Sel)) :
    (runLookups H D qs).1.length = qs.length ∧
    ∀ (i : Nat) (c : Cid) (s : Sel), qs[i]? = some (c, s) →
      ∃ r, (runLookups H D qs).1[i]? = some r ∧ Nearest H (fun c s => (D c).get s) c s r := by
  have gen : ∀ (qs : List (Cid × Sel)) (T : Tables), Memo H D T →
      (runLookups H T qs).1.length = qs.length ∧
      ∀ (i : Nat) (c : Cid) (s : Sel), qs[i]? = some (c, s) →
        ∃ r, (runLookups H T qs).1[i]? = some r ∧ Nearest H (fun c s => (D c).get s) c s r := by
    intro qs
    induction qs with
    | nil => intro T _; exact ⟨rfl, by simp⟩
    | cons q qs ih =>
      intro T hT
      have h := lookup_spec H D T q.1 q.2 hT
      obtain ⟨h1, h2⟩ := ih _ h.2.1
      refine ⟨by simp [runLookups, h1], ?_⟩
      intro i c s hi
      cases i with
      | zero =>
        simp only [List.getElem?_cons_zero, Option.some.injEq] at hi; subst hi
        exact ⟨_, rfl, h.1⟩
      | succ i => exact h2 i c s (by simpa using hi)
  exact gen qs D (Memo.init H D)

/-- A three-level hierarchy. -/
def exHier : Hier where
  sup | 0 => none | c + 1 => some c
  rank c := c
  dec := by
    intro c d h
    cases c with
    | zero => cases h
    | succ c => cases h; exact Nat.lt_succ_self _

/-- Declared: class 0 has selectors 10 and 11, class 1 overrides 10, class 2 has 12. -/
def exTables : Tables := fun c => if c = 0 then [(10, 100), (11, 101)] else if c = 1 then [(10, 110)] else if c = 2 then [(12, 120)] else []

example : (runLookups exHier exTables [(2, 10), (2, 11), (2, 10), (1, 11), (0, 10), (2, 13)]).1 =
    [some 110, some 101, some 110, some 101, some 100, none] := by
  simp [runLookups, lookupInvokable, exHier, exTables, Table.get, Tables.set, Table.put, List.lookup]

/-- **C17**: repeating a lookup after any other lookups gives the same answer. -/
theorem C17_lookup_repeatable (H : Hier) (D : Tables) (qs : List (Cid × Sel)) (c : Cid) (s : Sel) :
    (lookupInvokable H (runLookups H D qs).2 c s).1 = (lookupInvokable H D c s).1 :=
  (lookup_spec H D _ c s (runLookups_memo H D qs D (Memo.init H D))).1.unique (lookup_spec H D D c s (Memo.init H D)).1

/-- Limits of C17: the memo is never invalidated, so installing a method in a superclass *after* a lookup through a
subclass is not seen by the subclass. (The VM installs primitives only when a class is loaded.) -/
theorem C17_limit_memo_goes_stale : ∃ (H : Hier) (D : Tables) (c d : Cid) (s : Sel) (m : Meth),
    H.sup c = some d ∧ (lookupInvokable H (addPrimitive (lookupInvokable H D c s).2 d s m) c s).1 ≠ some m ∧
    (lookupInvokable H (addPrimitive D d s m) c s).1 = some m := by
  refine ⟨exHier, exTables, 2, 1, 11, 500, rfl, ?_, ?_⟩ <;>
  simp [lookupInvokable, exHier, exTables, Table.get, Tables.set, Table.put, List.lookup, addPrimitive]

/-! ## C18 -/

/-- **C18** (partial).  Full statement: after any lookups `methods` answers exactly the declared methods,
`getInstanceInvokables (runLookups H D qs).2 c = (D c).map (·.2)`.  Proved: the answer always *starts with* exactly the
declared methods in order; the rest are inherited methods found by earlier sends. -/
theorem C18_methods_partial (H : Hier) (D : Tables) (qs : List (Cid × Sel)) (c : Cid) :
    ∃ inherited : Table, getInstanceInvokables (runLookups H D qs).2 c = (D c).map (·.2) ++ inherited.map (·.2) ∧
      ∀ e ∈ inherited, (D c).get e.1 = none ∧ Nearest H (fun c s => (D c).get s) c e.1 (some e.2) := by
  obtain ⟨ms, h1, h2⟩ := runLookups_memo H D qs D (Memo.init H D) c
  exact ⟨ms, by simp [getInstanceInvokables, h1], h2⟩

/-- **C18**: before any send the answer is exactly the declared methods. -/
theorem C18_methods_initially (D : Tables) (c : Cid) : getInstanceInvokables D c = (D c).map (·.2) := rfl

/-- **C18 violated**: a successful send of an inherited message makes `methods` answer more than the class defines. -/
theorem C18_violated : ∃ (H : Hier) (D : Tables) (qs : List (Cid × Sel)) (c : Cid),
    getInstanceInvokables (runLookups H D qs).2 c ≠ (D c).map (·.2) := by
  refine ⟨exHier, exTables, [(2, 11)], 2, ?_⟩
  simp [runLookups, lookupInvokable, exHier, exTables, Table.get, Tables.set, Table.put, List.lookup, getInstanceInvokables]

/-! ## C19 -/

theorem foldl_fieldsOf (chain : List (List Name)) (acc : List Name) : chain.foldl fieldsOf acc = acc ++ chain.flatten := by
  induction chain generalizing acc with
  | nil => simp
  | cons x xs ih => simp [ih, fieldsOf]

theorem allFields_eq (chain : List (List Name)) : allFields chain = chain.flatten := by
  cases chain with
  | nil => rfl
  | cons x xs => simp [allFields, foldl_fieldsOf, fieldsOf]

theorem getFieldIndex_ok {fields : List Name} {f : Name} {i : Nat} (h : getFieldIndex fields f = .ok i) :
    ∃ hi : i < fields.length, fields[i] = f ∧ ∀ j (hj : j < i), fields[j]'(by omega) ≠ f := by
  simp only [getFieldIndex] at h
  cases hf : fields.findIdx? (· == f) with
  | none => simp [hf] at h
  | some k =>
    simp only [hf, Except.ok.injEq] at h; subst h
    have := List.findIdx?_eq_some_iff_getElem.1 hf
    obtain ⟨h1, h2, h3⟩ := this
    refine ⟨h1, by simpa using h2, ?_⟩
    intro j hj
    simpa using h3 j hj

/-- **C19**: a name is usable exactly if it is declared in the class or inherited; its index is within the number of
fields and denotes a field of that name. -/
theorem C19_index_in_range (superFields declared : List Name) (f : Name) :
    (hasField (fieldsOf superFields declared) f = true ↔ f ∈ superFields ∨ f ∈ declared) ∧
    (hasField (fieldsOf superFields declared) f = true →
      ∃ i, getFieldIndex (fieldsOf superFields declared) f = .ok i ∧
        (fieldsOf superFields declared)[i]? = some f) := by
  constructor
  · simp [hasField, fieldsOf, List.mem_append]
  · intro h
    have hmem : f ∈ fieldsOf superFields declared := by simpa [hasField] using h
    cases hf : (fieldsOf superFields declared).findIdx? (· == f) with
    | none => exact absurd rfl ((by simpa using hf : ∀ x, x ∈ fieldsOf superFields declared → ¬x = f) f hmem)
    | some k =>
      have hk : getFieldIndex (fieldsOf superFields declared) f = .ok k := by simp [getFieldIndex, hf]
      obtain ⟨hi, hf2, _⟩ := getFieldIndex_ok hk
      exact ⟨k, hk, by rw [List.getElem?_eq_getElem hi, hf2]⟩

/-- **C19**: an inherited field keeps its superclass index, whatever the subclass declares. -/
theorem C19_inherited_index_kept (superFields declared : List Name) (f : Name) (h : f ∈ superFields) :
    getFieldIndex (fieldsOf superFields declared) f = getFieldIndex superFields f := by
  simp only [getFieldIndex, fieldsOf, List.findIdx?_append]
  cases hf : superFields.findIdx? (· == f) with
  | none => exact absurd rfl ((by simpa using hf : ∀ x, x ∈ superFields → ¬x = f) f h)
  | some k => rfl

/-- **C19**, along a whole chain of superclasses: methods compiled for any ancestor use the same index as methods compiled
for the class. -/
theorem C19_chain_index_kept (upper lower : List (List Name)) (f : Name) (h : f ∈ allFields upper) :
    getFieldIndex (allFields (upper ++ lower)) f = getFieldIndex (allFields upper) f := by
  rw [allFields_eq, allFields_eq, List.flatten_append]
  rw [allFields_eq] at h
  exact C19_inherited_index_kept upper.flatten lower.flatten f h

/-- **C19**: distinct names have distinct indices. -/
theorem C19_distinct (fields : List Name) (f g : Name) (i : Nat) (hf : getFieldIndex fields f = .ok i)
    (hg : getFieldIndex fields g = .ok i) : f = g := by
  obtain ⟨h1, h2, _⟩ := getFieldIndex_ok hf
  obtain ⟨_, h4, _⟩ := getFieldIndex_ok hg
  exact h2.symm.trans h4

example : 5 ∈ allFields [[3, 5], [7]] ∧ getFieldIndex (allFields [[3, 5], [7], [9, 8]]) 5 = .ok 1 ∧
    getFieldIndex (allFields [[3, 5], [7], [9, 8]]) 8 = .ok 4 ∧ hasField (fieldsOf [3, 5] [7]) 7 = true := by decide

end PySOM.Cls

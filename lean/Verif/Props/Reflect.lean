import Verif.Spec.Reflect
/-!
# C87: looking at classes does not change them

What does not hold: the array that `fields` answers is the one of the class itself, and a program that stores into it changes the class.
-/
set_option autoImplicit false
namespace PySOM.Reflect

theorem Shows.of_alloc {w : World} {v : View} (h : Shows w v) (es : List Elem) : Shows (w.alloc es).2 v := by
  refine ⟨h.count, fun c x hx => ?_, h.methods⟩
  obtain ⟨a, h1, h2⟩ := h.names c x hx
  refine ⟨a, h1, ?_⟩
  show (w.arrays ++ [es])[a]? = _
  rw [List.getElem?_append_left (List.getElem?_eq_some_iff.1 h2).1]
  exact h2

theorem Shows.names_eq {w : World} {v : View} (h : Shows w v) (sup : Option Nat) : w.inherited sup = (v.names sup).map Elem.sym := by
  cases sup with
  | none => rfl
  | some s =>
    show w.names s = ((v[s]?.map (·.1)).getD []).map Elem.sym
    unfold World.names
    cases hv : v[s]? with
    | none =>
      have : w.classes[s]? = none := List.getElem?_eq_none_iff.2 (by rw [h.count]; exact List.getElem?_eq_none_iff.1 hv)
      rw [this]
      rfl
    | some x =>
      obtain ⟨a, h1, h2⟩ := h.names s x hv
      unfold World.fields at h1
      cases hc : w.classes[s]? with
      | none => rw [hc] at h1; cases h1
      | some y =>
        rw [hc] at h1
        cases h1
        show w.arrays.getD y.fields [] = _
        rw [List.getD, h2]
        rfl

/-- The arrays of classes are there. -/
theorem Shows.bound {w : World} {v : View} (h : Shows w v) (d b : Nat) (hd : w.fields d = some b) : b < w.arrays.length := by
  cases hv : v[d]? with
  | none =>
    have : w.classes[d]? = none := List.getElem?_eq_none_iff.2 (by rw [h.count]; exact List.getElem?_eq_none_iff.1 hv)
    unfold World.fields at hd
    rw [this] at hd
    cases hd
  | some x =>
    obtain ⟨a, h1, h2⟩ := h.names d x hv
    rw [h1] at hd
    cases hd
    exact (List.getElem?_eq_some_iff.1 h2).1

/-- C87, partial: an operation that stores nothing into an array of `fields` leaves all classes as they are, but that loading adds one: with the fields of its superclass and its own, and with its own methods.  Missing: stores
into these arrays. -/
theorem C87_step_partial {w : World} {v : View} (h : Shows w v) (op : Op) (hh : Harmless w op) : Shows (step w op).2 (v.after op) := by
  cases op with
  | fields c => exact h
  | methods c =>
    show Shows (step w (.methods c)).2 v
    unfold step World.methods
    dsimp only
    cases w.classes[c]? with
    | none => exact h
    | some x => exact h.of_alloc _
  | new es => exact h.of_alloc es
  | put a i e =>
    refine ⟨h.count, fun c x hx => ?_, h.methods⟩
    obtain ⟨b, h1, h2⟩ := h.names c x hx
    refine ⟨b, h1, ?_⟩
    have hne : a ≠ b := fun e' => hh c (e' ▸ h1)
    show (w.arrays.modify a fun es => es.set i e)[b]? = _
    rw [List.getElem?_modify_ne _ _ hne]
    exact h2
  | load sup ds ms =>
    have ha := h.of_alloc ((v.names sup ++ ds).map Elem.sym)
    have hw : w.load sup ds ms = { arrays := w.arrays ++ [(v.names sup ++ ds).map Elem.sym], classes := w.classes ++ [⟨w.arrays.length, ms⟩] } := by
      unfold World.load World.alloc
      dsimp only
      rw [h.names_eq sup, ← List.map_append]
    show Shows (w.load sup ds ms) (v ++ [(v.names sup ++ ds, ms)])
    rw [hw]
    refine ⟨by simp [h.count], fun c x hx => ?_, fun c x hx => ?_⟩
    · rcases Nat.lt_or_ge c v.length with hc | hc
      · rw [List.getElem?_append_left hc] at hx
        obtain ⟨a, h1, h2⟩ := ha.names c x hx
        refine ⟨a, ?_, h2⟩
        show ((w.classes ++ [⟨w.arrays.length, ms⟩])[c]?).map (·.fields) = _
        rw [List.getElem?_append_left (by rw [h.count]; exact hc)]
        exact h1
      · have hl : c = v.length := by
          have := (List.getElem?_eq_some_iff.1 hx).1
          rw [List.length_append] at this
          exact Nat.le_antisymm (Nat.le_of_lt_succ this) hc
        subst hl
        rw [List.getElem?_append_right (Nat.le_refl _), Nat.sub_self] at hx
        cases hx
        refine ⟨w.arrays.length, ?_, ?_⟩
        · show ((w.classes ++ [⟨w.arrays.length, ms⟩])[v.length]?).map (·.fields) = _
          rw [← h.count, List.getElem?_append_right (Nat.le_refl _), Nat.sub_self]
          rfl
        · show (w.arrays ++ [_])[w.arrays.length]? = _
          rw [List.getElem?_append_right (Nat.le_refl _), Nat.sub_self]
          rfl
    · rcases Nat.lt_or_ge c v.length with hc | hc
      · rw [List.getElem?_append_left hc] at hx
        obtain ⟨y, h1, h2⟩ := h.methods c x hx
        refine ⟨y, ?_, h2⟩
        show (w.classes ++ [_])[c]? = _
        rw [List.getElem?_append_left (by rw [h.count]; exact hc)]
        exact h1
      · have hl : c = v.length := by
          have := (List.getElem?_eq_some_iff.1 hx).1
          rw [List.length_append] at this
          exact Nat.le_antisymm (Nat.le_of_lt_succ this) hc
        subst hl
        rw [List.getElem?_append_right (Nat.le_refl _), Nat.sub_self] at hx
        cases hx
        refine ⟨⟨w.arrays.length, ms⟩, ?_, rfl⟩
        show (w.classes ++ [_])[v.length]? = _
        rw [← h.count, List.getElem?_append_right (Nat.le_refl _), Nat.sub_self]
        rfl

/-- C87, partial: any number of such operations. -/
theorem C87_run_partial {w : World} {v : View} (h : Shows w v) (ops : List Op) (hh : AllHarmless w ops) : Shows (run w ops) (ops.foldl View.after v) := by
  induction ops generalizing w v with
  | nil => exact h
  | cons op ops ih => exact ih (C87_step_partial h op hh.1) hh.2

/-- C87: `fields` and `methods` answer arrays with the names of the fields and with the methods; that of `methods` is new, so that storing into it is harmless. -/
theorem C87_answers {w : World} {v : View} (h : Shows w v) {c : Nat} {x : List Name × List Nat} (hx : v[c]? = some x) :
    (∃ a, step w (.fields c) = (some a, w) ∧ w.elems a = x.1.map .sym) ∧
    ∃ a, (step w (.methods c)).1 = some a ∧ (step w (.methods c)).2.elems a = x.2.map .meth ∧ w.arrays[a]? = none ∧ ∀ i e, Harmless (step w (.methods c)).2 (.put a i e) := by
  obtain ⟨a, h1, h2⟩ := h.names c x hx
  obtain ⟨y, h3, h4⟩ := h.methods c x hx
  have hm : step w (.methods c) = (some w.arrays.length, { w with arrays := w.arrays ++ [x.2.map .meth] }) := by
    unfold step World.methods World.alloc
    dsimp only
    rw [h3, ← h4]
    rfl
  refine ⟨⟨a, ?_, ?_⟩, w.arrays.length, by rw [hm], ?_, List.getElem?_eq_none_iff.2 (Nat.le_refl _), fun i e d hd => ?_⟩
  · unfold step
    dsimp only
    rw [h1]
  · unfold World.elems
    rw [List.getD, h2]
    rfl
  · rw [hm]
    unfold World.elems
    rw [List.getD, List.getElem?_append_right (Nat.le_refl _), Nat.sub_self]
    rfl
  · rw [hm] at hd
    exact Nat.lt_irrefl _ (h.bound d _ hd)

/-- C87: a field is found by its name if and only if the class has it, and where it is; of several with the same name, the last one. -/
theorem C87_index {w : World} {v : View} (h : Shows w v) {c : Nat} {x : List Name × List Nat} (hx : v[c]? = some x) (n : Name) :
    (w.fieldIndex c n = none ↔ n ∉ x.1) ∧ ∀ i : Nat, w.fieldIndex c n = some i → x.1[i]? = some n ∧ ∀ j : Nat, i < j → x.1[j]? ≠ some n := by
  have hn : w.names c = x.1.map Elem.sym := by
    have := h.names_eq (some c)
    unfold View.names at this
    dsimp only at this
    rw [hx] at this
    exact this
  have he : ∀ i : Nat, ((w.names c)[i]? == some (Elem.sym n)) = true ↔ x.1[i]? = some n := by
    intro i
    rw [hn, List.getElem?_map, beq_iff_eq]
    cases x.1[i]? <;> simp
  have hlen : (w.names c).length = x.1.length := by rw [hn, List.length_map]
  unfold World.fieldIndex
  refine ⟨?_, fun i hi => ?_⟩
  · rw [List.find?_eq_none]
    constructor
    · intro ha hm
      obtain ⟨i, hi⟩ := List.mem_iff_getElem?.1 hm
      exact ha i (List.mem_reverse.2 (List.mem_range.2 (by rw [hlen]; exact (List.getElem?_eq_some_iff.1 hi).1))) ((he i).2 hi)
    · intro hm i _ hi
      exact hm (List.mem_iff_getElem?.2 ⟨i, (he i).1 hi⟩)
  · refine ⟨(he i).1 (by simpa using List.find?_some hi), fun j hj hjn => ?_⟩
    rw [List.find?_eq_some_iff_append] at hi
    obtain ⟨_, as, bs, hab, hall⟩ := hi
    have hjl : j < (w.names c).length := by rw [hlen]; exact (List.getElem?_eq_some_iff.1 hjn).1
    have hr : List.range (w.names c).length = bs.reverse ++ i :: as.reverse := by
      have := congrArg List.reverse hab
      simpa using this
    have hp : (bs.reverse ++ i :: as.reverse).Pairwise (· < ·) := hr ▸ List.pairwise_lt_range
    have hm : j ∈ bs.reverse ++ i :: as.reverse := hr ▸ List.mem_range.2 hjl
    rw [List.pairwise_append] at hp
    rcases List.mem_append.1 hm with hb | hb
    · exact Nat.lt_irrefl _ (Nat.lt_trans hj (hp.2.2 j hb i (List.mem_cons_self ..)))
    · rcases List.mem_cons.1 hb with rfl | hb
      · exact Nat.lt_irrefl _ hj
      · have := hall j (List.mem_reverse.1 hb)
        rw [(he j).2 hjn] at this
        cases this

/-- `Object`, `Point` with the fields `x` and `y`, and `Point3D` with `z`. -/
def demo : World := run ⟨[], []⟩ [.load none [] [1], .load (some 0) ["x".toList, "y".toList] [2, 3], .load (some 1) ["z".toList] []]

theorem shows_demo : Shows demo [([], [1]), (["x".toList, "y".toList], [2, 3]), (["x".toList, "y".toList, "z".toList], [])] :=
  C87_run_partial (w := ⟨[], []⟩) (v := []) ⟨rfl, fun _ _ h => (nomatch h), fun _ _ h => (nomatch h)⟩ _ ⟨trivial, trivial, trivial, trivial⟩

example : demo.fieldIndex 2 "z".toList = some 2 ∧ demo.fieldIndex 1 "z".toList = none ∧ (step demo (.methods 1)).1 = some 3 ∧ (step demo (.methods 1)).2.elems 3 = [.meth 2, .meth 3] := by decide +kernel

example : AllHarmless demo [.fields 1, .methods 1, .put 3 0 (.other 7), .load (some 2) [] [4]] :=
  ⟨trivial, trivial, fun c h => Nat.lt_irrefl 3 (shows_demo.bound c 3 h), trivial, trivial⟩

/-- C87 violated: `(Point fields) at: 1 put: #q` changes `Point`: it has no field `x` any more, and a class that is loaded now as a subclass of it inherits `q`; `Point3D`, which was loaded before, has its own array. -/
theorem C87_violated_fields : demo.fields 1 = some 1 ∧ demo.fieldIndex 1 "x".toList = some 0 ∧ (run demo [.fields 1, .put 1 0 (.sym "q".toList)]).fieldIndex 1 "x".toList = none ∧
    (run demo [.fields 1, .put 1 0 (.sym "q".toList), .load (some 1) [] []]).names 3 = [.sym "q".toList, .sym "y".toList] ∧
    (run demo [.fields 1, .put 1 0 (.sym "q".toList)]).fieldIndex 2 "x".toList = some 0 := by decide +kernel

end PySOM.Reflect

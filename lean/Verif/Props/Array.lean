import Verif.Lemmas.ArrayHeap
/-!
# Properties C08–C14 of arrays

The specification is `Verif/Spec/Array.lean`: a program sees a list of arrays, each a list of values.
-/
set_option autoImplicit false
namespace PySOM.Arr
open PySOM

/-- What is observable after running operations on the model: the content of every array, and all results. -/
def observe (r : Heap × List Res) : Spec.Arrays × List Res := (r.1.abs, r.2)

/-- **C08** (partial).  Full statement: for *every* sequence of valid operations the observable behaviour is that of
lists: `observe (Heap.run {} ops) = Spec.run [] ops`.  It is proved here for all sequences in which no store is one
that the code refuses (`Spec.Refused`: a non-Double into an all-Double array, a non-Boolean into an all-Boolean array,
or building an array from nil mixed with one primitive kind); see `C08_violated` for why the hypothesis is needed and
`C08_refused_store_changes_nothing` for what happens at these points. -/
theorem C08_arrays_refine_lists_partial (ops : List Op) (hv : ∀ op ∈ ops, Spec.Valid op) (hc : Spec.Compatible [] ops) :
    observe (Heap.run {} ops) = Spec.run [] ops := by
  have gen : ∀ (ops : List Op) (h : Heap), HInv h → (∀ op ∈ ops, Spec.Valid op) → Spec.Compatible h.abs ops →
      observe (h.run ops) = Spec.run h.abs ops := by
    intro ops
    induction ops with
    | nil => intro h _ _ _; rfl
    | cons op ops ih =>
      intro h hi hv hc
      obtain ⟨hnr, hc'⟩ := hc
      have hmix : ∀ vs, op = .values vs → ¬ Spec.NilMixed vs := by
        rintro vs rfl hm; exact hnr hm
      have hstep := step_spec hi (hv op List.mem_cons_self) hmix
      rcases hstep.2 with he | ⟨hr, _⟩
      · simp only [Heap.run, Spec.run, observe]
        have h1 : (h.step op).1.abs = (Spec.step h.abs op).1 := congrArg Prod.fst he
        have h2 : (h.step op).2 = (Spec.step h.abs op).2 := congrArg Prod.snd he
        have := ih (h.step op).1 hstep.1 (fun o ho => hv o (List.mem_cons_of_mem _ ho)) (by rw [h1]; exact hc')
        simp only [observe] at this
        rw [h1] at this
        rw [← this, h2]
      · exact absurd hr hnr
  exact gen ops {} HInv.init hv hc

/-- Concrete non-trivial history meeting the hypotheses: fill an array of 3 with mixed kinds, overwrite, copy, read. -/
example : let ops : List Op := [.new 3, .put 0 1 (.int 7), .put 0 2 (.dbl 5), .copy 0, .put 1 3 (.bool true), .at 0 3, .at 1 2,
      .range 4 6, .put 2 2 (.obj 9), .at 2 3]
    (∀ op ∈ ops, Spec.Valid op) ∧ Spec.Compatible [] ops ∧
      (Spec.run [] ops).2 = [.array 0, .unit, .unit, .array 1, .unit, .value .nil, .value (.dbl 5), .array 2, .unit, .value (.int 6)] := by
  refine ⟨by simp [Spec.Valid, Val.isSom], ?_, by decide⟩
  simp [Spec.Compatible, Spec.Refused, Spec.step, Spec.RefusedStore, Spec.at?, Spec.interval, List.range_succ, Spec.isDbl, Spec.isBool]

/-- **C08 violated**: without the hypothesis the claim is false.  Fill an array of length 2 with Doubles, then store
nil: the code fails an assertion (`array.py:392`) instead of storing. -/
theorem C08_violated : ∃ ops : List Op, (∀ op ∈ ops, Spec.Valid op) ∧ observe (Heap.run {} ops) ≠ Spec.run [] ops := by
  refine ⟨[.new 1, .put 0 1 (.dbl 5), .put 0 1 .nil], by simp [Spec.Valid, Val.isSom], by decide⟩

/-- **C08**, what holds with no hypothesis on compatibility: in every reachable state each valid operation either does
exactly what the specification says, or it is one of the refused ones, fails with an assertion and changes nothing. -/
theorem C08_refused_store_changes_nothing (ops : List Op) (hv : ∀ op ∈ ops, Spec.Valid op) (op : Op) (ho : Spec.Valid op)
    (hmix : ∀ vs, op = .values vs → ¬ Spec.NilMixed vs) :
    let h := (Heap.run {} ops).1
    ((h.step op).1.abs, (h.step op).2) = Spec.step h.abs op ∨
      (Spec.Refused h.abs op ∧ (h.step op).1 = h ∧ (h.step op).2 = .error .assertion) :=
  (step_spec (run_inv HInv.init hv) ho hmix).2

example : let h := (Heap.run {} [.new 1, .put 0 1 (.dbl 5)]).1
    Spec.Valid (.put 0 1 .nil) ∧ Spec.Refused h.abs (.put 0 1 .nil) := by
  refine ⟨by simp [Spec.Valid, Val.isSom], [.dbl 5], by decide, Or.inl (by decide)⟩

/-- **C09**: after any valid history every array is well formed: its storage exists; the elements are proper SOM values;
a partially filled array never under-counts its nil slots, and if the count is exact then all the other slots have the
recorded type, so that switching to the typed storage when the count reaches zero loses nothing. -/
theorem C09_representation_invariant (ops : List Op) (hv : ∀ op ∈ ops, Spec.Valid op) (a : Nat) (p : Nat)
    (ha : (Heap.run {} ops).1.arrs[a]? = some p) :
    ∃ s, (Heap.run {} ops).1.stos[p]? = some s ∧ (∀ x ∈ asArguments s, x.isSom = true) ∧
      (∀ xs e t, s = .part xs e t → (xs.count .nil : Int) ≤ e ∧ 0 ≤ e ∧
        (e = (xs.count .nil : Int) → ∀ x ∈ xs, x = .nil ∨ (t = .long ∧ Spec.isInt x) ∨ (t = .double ∧ Spec.isDbl x) ∨
          (t = .bool ∧ Spec.isBool x))) := by
  obtain ⟨s, hs, hinv⟩ := (run_inv HInv.init hv).wf a p ha
  refine ⟨s, hs, ?_, ?_⟩
  · intro x hx
    cases s with
    | obj xs => exact hinv x hx
    | part xs e t => exact hinv.2.1 x hx
    | empty n => rw [(List.mem_replicate.1 hx).2]; rfl
    | long xs => simp [asArguments] at hx; obtain ⟨_, _, rfl⟩ := hx; rfl
    | bool xs => simp [asArguments, ofBool] at hx; rcases hx with ⟨_, rfl⟩ | ⟨_, rfl⟩ <;> rfl
    | double xs =>
      simp only [asArguments, List.mem_map] at hx; obtain ⟨c, hc, rfl⟩ := hx
      obtain ⟨d, rfl⟩ := hinv c hc; rfl
  · rintro xs e t rfl
    obtain ⟨_, _, _, hcnt⟩ := hinv
    unfold nils at hcnt
    refine ⟨by omega, by omega, ?_⟩
    intro he x hx
    rcases hcnt with ⟨_, hty⟩ | hgt
    · rcases hty x hx with h | h
      · exact Or.inl h
      · right
        cases t <;> simp_all
    · omega

example : ∃ p, (Heap.run {} [.new 3, .put 0 1 (.int 7)]).1.arrs[0]? = some p ∧
    (Heap.run {} [.new 3, .put 0 1 (.int 7)]).1.stos[p]? = some (.part [.int 7, .nil, .nil] 2 .long) := ⟨1, by decide, by decide⟩

/-- **C10a**: copying answers a new array with the same content and leaves all others unchanged (in every reachable
state, in every representation). -/
theorem C10_copy_same_content (ops : List Op) (hv : ∀ op ∈ ops, Spec.Valid op) (a : Nat) (xs : List Val)
    (ha : (Heap.run {} ops).1.abs[a]? = some xs) :
    let h := (Heap.run {} ops).1
    (h.step (.copy a)).1.abs = h.abs ++ [xs] ∧ (h.step (.copy a)).2 = .array h.abs.length := by
  intro h
  have := (step_spec (run_inv HInv.init hv) (op := .copy a) trivial (by intro vs h; cases h)).2
  rcases this with he | ⟨hr, _⟩
  · simp only [Spec.step, ha] at he
    exact ⟨congrArg Prod.fst he, congrArg Prod.snd he⟩
  · exact hr.elim

/-- **C10b**: no operation on other arrays is visible through array `b`; with `b` a copy or an original this says that
copies are independent in both directions. -/
theorem C10_no_aliasing (ops : List Op) (hv : ∀ op ∈ ops, Spec.Valid op) (b : Nat) (later : List Op)
    (hl : ∀ op ∈ later, Spec.Valid op) (hb : b < (Heap.run {} ops).1.abs.length)
    (hput : ∀ i v, .put b i v ∉ later) (hall : ∀ v, .putAll b v ∉ later) :
    ((Heap.run {} ops).1.run later).1.abs[b]? = (Heap.run {} ops).1.abs[b]? :=
  run_frame (run_inv HInv.init hv) hl (by rwa [abs_length] at hb)
    (fun op ho i v he => hput i v (he ▸ ho)) (fun op ho v he => hall v (he ▸ ho))

example : let h := (Heap.run {} [.new 2, .put 0 1 (.int 3), .copy 0]).1
    h.abs = [[.int 3, .nil], [.int 3, .nil]] ∧ (h.run [.put 0 1 (.int 4), .put 0 2 (.obj 1)]).1.abs[1]? = some [.int 3, .nil] := by
  decide

/-- **C11a**: `putAll: v` makes every slot hold `v` and keeps the length, in every reachable state. -/
theorem C11_putAll_value (ops : List Op) (hv : ∀ op ∈ ops, Spec.Valid op) (a : Nat) (xs : List Val) (v : Val)
    (hsom : v.isSom = true) (ha : (Heap.run {} ops).1.abs[a]? = some xs) :
    let h := (Heap.run {} ops).1
    (h.step (.putAll a v)).1.abs = h.abs.set a (List.replicate xs.length v) ∧ (h.step (.putAll a v)).2 = .unit := by
  intro h
  have := (step_spec (run_inv HInv.init hv) (op := .putAll a v) hsom (by intro vs h; cases h)).2
  rcases this with he | ⟨hr, _⟩
  · simp only [Spec.step, ha] at he
    exact ⟨congrArg Prod.fst he, congrArg Prod.snd he⟩
  · exact hr.elim

example : (Heap.run {} [.range 1 3, .putAll 0 (.dbl 2), .at 0 3]).2 = [.array 0, .unit, .value (.dbl 2)] := by decide

/-- The sequences of block results which `putAll: aBlock` stores faithfully. -/
def GoodResults : List Val → Prop
  | [] => True
  | .nil :: _ => True
  | .obj _ :: _ => True
  | .int _ :: rs => ∀ x ∈ rs, Spec.isInt x = true
  | .dbl _ :: rs => ∀ x ∈ rs, Spec.isDbl x = true
  | .bool _ :: _ => False
  | .pyNone :: _ => True

/-- **C11b** (partial).  Full statement: for every sequence `rs` of block results, the array afterwards holds exactly
`rs`.  This is false of the code; the theorem determines exactly when it holds: the first result is nil or a general
object, or all results are Integers, or all are Doubles. -/
theorem C11_putAll_block_partial (rs : List Val) :
    asArguments (setAllWithBlock rs) = rs ↔ GoodResults rs := by
  cases rs with
  | nil => simp [setAllWithBlock, asArguments, pyRep, GoodResults]
  | cons r rs =>
    cases r with
    | nil =>
      simp only [setAllWithBlock, GoodResults, iff_true]
      have := asNil_spec rs 1
      rw [List.length_cons, Nat.add_comm, this]; simp
    | int z =>
      simp only [setAllWithBlock, GoodResults]
      have := asLong_spec rs [z]
      simpa [List.replicate_succ, Nat.add_comm] using this
    | dbl d =>
      simp only [setAllWithBlock, GoodResults]
      have := asDouble_spec rs [.float d] (.float 0) (by intro r hr; cases r <;> simp_all [DCell.toVal, Spec.isDbl])
      simpa [List.replicate_succ, Nat.add_comm, DCell.toVal] using this
    | bool b =>
      simp only [setAllWithBlock, GoodResults, iff_false]
      intro h
      have hh := asDouble_head (rs.length + 1) rs 0 (.pyBool b) (List.replicate rs.length (.pyBool b))
      rw [List.length_cons, List.replicate_succ] at h
      rw [h] at hh
      simp [DCell.toVal] at hh
    | obj r =>
      simp only [setAllWithBlock, GoodResults, iff_true]
      have := asObj_spec rs [Val.obj r] (List.replicate rs.length .pyNone) (by simp)
      simp only [List.length_singleton, List.singleton_append] at this
      rw [List.length_cons, List.replicate_succ, List.set_cons_zero, this]; rfl
    | pyNone =>
      simp only [setAllWithBlock, GoodResults, iff_true]
      have := asObj_spec rs [Val.pyNone] (List.replicate rs.length .pyNone) (by simp)
      simp only [List.length_singleton, List.singleton_append] at this
      rw [List.length_cons, List.replicate_succ, List.set_cons_zero, this]; rfl

example : GoodResults [.nil, .int 1, .dbl 2] ∧ GoodResults [.int 3, .int 4] ∧ ¬ GoodResults [.int 3, .nil] := by
  simp [GoodResults, Spec.isInt]

/-- **C11 violated**: results 1, nil, 2 are stored as 1, 0, 2. -/
theorem C11_violated_lost_result : asArguments (setAllWithBlock [.int 1, .nil, .int 2]) = [.int 1, .int 0, .int 2] := by decide

/-- **C11 violated**: after `putAll:` with a block answering Booleans, reading any slot of a one-element array fails. -/
theorem C11_violated_boolean (b : Bool) : getIdx (setAllWithBlock [.bool b]) 0 = .error .assertion := by
  cases b <;> decide

/-- **C12** (partial).  Full statement: for every list of SOM values the constructed array has exactly these elements.
False of the code for nil mixed with exactly one of the kinds Integer, Double, Boolean; the theorem says that this is
exactly when it fails. -/
theorem C12_from_values_partial (vs : List Val) (hsom : ∀ x ∈ vs, x.isSom = true) :
    (∃ s, fromValues vs = .ok s ∧ asArguments s = vs) ↔ ¬ Spec.NilMixed vs := by
  constructor
  · rintro ⟨s, hs, habs⟩ ⟨⟨n, hn, rfl⟩, ⟨y, hy, hyn⟩, hk⟩
    have hall : vs.all (fun x => x == .nil || x == .pyNone) = false := by
      rw [List.all_eq_false]; exact ⟨y, hy, by have := hsom y hy; cases y <;> simp_all [Val.isSom]⟩
    have hw : ∀ (q : Val → Bool), (∀ x ∈ vs, x = .nil ∨ q x) →
        vs.all (fun x => x == .nil || x == .pyNone || q x) = true := by
      intro q hq
      rw [List.all_eq_true]
      intro x hx
      rcases hq x hx with h | h <;> simp [h]
    unfold fromValues at hs
    simp only [Flags_foldl_isEmpty, Flags_foldl_onlyDouble, Flags_foldl_onlyLong, Flags_foldl_onlyBool, Bool.true_and,
      hall, Bool.false_eq_true, if_false] at hs
    rw [← habs] at hn
    split at hs
    · unfold doubleWithValues at hs
      cases hm : vs.mapM embeddedDouble <;> rw [hm] at hs <;> cases hs
      simp only [asArguments, List.mem_map] at hn
      obtain ⟨c, _, hc⟩ := hn
      cases c <;> simp [DCell.toVal] at hc
    · split at hs
      · unfold longWithValues at hs
        cases hm : vs.mapM embeddedInt <;> rw [hm] at hs <;> cases hs
        simp [asArguments] at hn
      · split at hs
        · cases hs; simp [asArguments, boolWithValues, ofBool] at hn
        · rcases hk with h | h | h
          · exact absurd (hw _ h) (by assumption)
          · exact absurd (hw _ h) (by assumption)
          · exact absurd (hw _ h) (by assumption)
  · intro h
    obtain ⟨s, hs, _, habs⟩ := fromValues_spec hsom h
    exact ⟨s, hs, habs⟩

example : ¬ Spec.NilMixed [.int 1, .dbl 2, .nil] ∧ (∀ x ∈ [Val.int 1, .dbl 2, .nil], x.isSom = true) := by
  refine ⟨?_, by simp [Val.isSom]⟩
  rintro ⟨_, _, h⟩
  simp [Spec.isInt, Spec.isDbl, Spec.isBool] at h

/-- **C12 violated**: the arguments array for `x foo: nil bar: 3` cannot be built. -/
theorem C12_violated_nil_and_integer : fromValues [.nil, .int 3] = .error .attribute := by decide

/-- **C12 violated**: nil together with Booleans silently becomes false. -/
theorem C12_violated_nil_and_boolean :
    fromValues [.nil, .bool true] = .ok (.bool [false, true]) ∧ getIdx (.bool [false, true]) 0 = .ok (.bool false) := by decide

/-- **C13** (partial).  Full statement: extending answers a new array with the old elements followed by `v`.  Proved for
every reachable array except that an array of only Integers (Doubles, Booleans) can be extended by an Integer (Double,
Boolean) only; in the other cases the code fails an assertion, leaving everything unchanged
(`C08_refused_store_changes_nothing`). -/
theorem C13_extend_partial (ops : List Op) (hv : ∀ op ∈ ops, Spec.Valid op) (a : Nat) (xs : List Val) (v : Val)
    (hsom : v.isSom = true) (ha : (Heap.run {} ops).1.abs[a]? = some xs)
    (hi : xs.all Spec.isInt → Spec.isInt v) (hd : xs.all Spec.isDbl → Spec.isDbl v) (hb : xs.all Spec.isBool → Spec.isBool v) :
    let h := (Heap.run {} ops).1
    (h.step (.extend a v)).1.abs = h.abs ++ [xs ++ [v]] ∧ (h.step (.extend a v)).2 = .array h.abs.length := by
  intro h
  have := (step_spec (run_inv HInv.init hv) (op := .extend a v) hsom (by intro vs h; cases h)).2
  rcases this with he | ⟨⟨ys, hy, hr⟩, _⟩
  · simp only [Spec.step, ha] at he
    exact ⟨congrArg Prod.fst he, congrArg Prod.snd he⟩
  · have : ys = xs := Option.some.inj (hy.symm.trans ha)
    subst this
    rcases hr with (⟨h1, h2⟩ | ⟨h1, h2⟩) | ⟨h1, h2⟩
    · exact absurd (hd h1) h2
    · exact absurd (hb h1) h2
    · exact absurd (hi h1) h2

example : let ops : List Op := [.new 2, .put 0 1 (.int 3)]
    (Heap.run {} ops).1.abs[0]? = some [.int 3, .nil] ∧ ([Val.int 3, .nil].all Spec.isInt → Spec.isInt (.dbl 1)) ∧
    ((Heap.run {} ops).1.step (.extend 0 (.dbl 1))).1.abs[1]? = some [.int 3, .nil, .dbl 1] := by decide

/-- **C13 violated**: an Integer array cannot be extended by a string. -/
theorem C13_violated : extend (.long [1, 2]) (.obj 0) = .error .assertion := by decide

/-- **C14a**: in every reachable state, `at: i` with `1 ≤ i` answers the i-th element if there is one, and otherwise
fails with an index error; it never changes anything. -/
theorem C14_at_in_and_out_of_bounds (ops : List Op) (hv : ∀ op ∈ ops, Spec.Valid op) (a : Nat) (xs : List Val) (i : Int)
    (hi : 1 ≤ i) (ha : (Heap.run {} ops).1.abs[a]? = some xs) :
    let h := (Heap.run {} ops).1
    (h.step (.at a i)).1.abs = h.abs ∧
      (h.step (.at a i)).2 = (if _ : i ≤ xs.length then .value (xs[(i - 1).toNat]'(by omega)) else .error .index) := by
  intro h
  have := (step_spec (run_inv HInv.init hv) (op := .at a i) hi (by intro vs h; cases h)).2
  rcases this with he | ⟨hr, _⟩
  · simp only [Spec.step, ha, Spec.at?] at he
    by_cases hl : i ≤ xs.length
    · rw [if_pos ⟨hi, hl⟩, List.getElem?_eq_getElem (by omega)] at he
      rw [dif_pos hl]
      exact ⟨congrArg Prod.fst he, congrArg Prod.snd he⟩
    · rw [if_neg (fun h => hl h.2)] at he
      rw [dif_neg hl]
      exact ⟨congrArg Prod.fst he, congrArg Prod.snd he⟩
  · exact hr.elim

/-- **C14b**: a store with an index beyond the length always fails and changes nothing. -/
theorem C14_put_out_of_bounds (ops : List Op) (hv : ∀ op ∈ ops, Spec.Valid op) (a : Nat) (xs : List Val) (i : Int) (v : Val)
    (hsom : v.isSom = true) (hi : xs.length < i) (ha : (Heap.run {} ops).1.abs[a]? = some xs) :
    let h := (Heap.run {} ops).1
    (h.step (.put a i v)).1.abs = h.abs ∧ ∃ e, (h.step (.put a i v)).2 = .error e := by
  intro h
  have := (step_spec (run_inv HInv.init hv) (op := .put a i v) ⟨by omega, hsom⟩ (by intro vs h; cases h)).2
  rcases this with he | ⟨hr, h1, h2⟩
  · simp only [Spec.step, ha] at he
    rw [if_neg (fun h => by omega)] at he
    exact ⟨congrArg Prod.fst he, _, congrArg Prod.snd he⟩
  · exact ⟨congrArg Heap.abs h1, _, h2⟩

/-- **C14c**: every store into a zero-length array fails and changes nothing (whatever its representation). -/
theorem C14_put_on_zero_length_array (ops : List Op) (hv : ∀ op ∈ ops, Spec.Valid op) (a : Nat) (i : Int) (v : Val)
    (hsom : v.isSom = true) (hi : 1 ≤ i) (ha : (Heap.run {} ops).1.abs[a]? = some []) :
    let h := (Heap.run {} ops).1
    (h.step (.put a i v)).1.abs = h.abs ∧ ∃ e, (h.step (.put a i v)).2 = .error e :=
  C14_put_out_of_bounds ops hv a [] i v hsom (by simp; omega) ha

example : (Heap.run {} [.range 5 4]).1.abs[0]? = some [] ∧ (Heap.run {} [.range 1 2, .at 0 2, .at 0 3]).2 =
    [.array 0, .value (.int 2), .error .index] := by decide

/-- **C14 violated**: index 0 answers the last element of an Integer array, but fails for a fresh array of the same
length.  (Python's negative indices: `array_primitives.py:17` subtracts one and `array.py:303` indexes the list.) -/
theorem C14_violated_index_zero :
    (Heap.run {} [.range 1 2, .new 2, .at 0 0, .at 1 0]).2 = [.array 0, .array 1, .value (.int 2), .error .index] := by decide

/-- **C14**, exact behaviour of index 0 and negative indices for non-empty representations: they wrap around. -/
theorem C14_negative_index_wraps (xs : List Int) (i : Int) (hi : i ≤ 0) (hl : -(xs.length : Int) < i) :
    getIdx (.long xs) (i - 1) = .ok (.int (xs[(xs.length + (i - 1)).toNat]'(by omega))) := by
  have : pyIdx xs.length (i - 1) = some (xs.length + (i - 1)).toNat := by
    unfold pyIdx
    rw [if_neg (by omega), if_pos (by omega)]
  simp only [getIdx, listGet, this]
  rw [List.getElem?_eq_getElem (by omega)]
  rfl

example : getIdx (.long [4, 5, 6]) (-1 - 1) = .ok (.int 5) := by decide

end PySOM.Arr

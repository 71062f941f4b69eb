import Verif.Spec.Nodes
/-!
# Lemmas about trees that rewrite themselves
-/
set_option autoImplicit false
namespace PySOM.Nodes
variable {α : Type}

/-! ## Heaps -/

theorem adopt_get (h : Heap α) (p c i : Nat) :
    (adopt h p c)[i]? = (h[i]?).map fun n => if i = c then { n with parent := some p } else n := by
  unfold adopt
  rw [List.getElem?_modify]
  cases h[i]? with
  | none => rfl
  | some n =>
    by_cases hc : c = i
    · simp [hc]
    · have hc' : ¬ i = c := fun e => hc e.symm
      simp [hc, hc']

theorem adoptAll_get (p : Nat) (cs : List Nat) : ∀ (h : Heap α) (i : Nat),
    (adoptAll h p cs)[i]? = (h[i]?).map fun n => if i ∈ cs then { n with parent := some p } else n := by
  induction cs with
  | nil => intro h i; simp [adoptAll]
  | cons c cs ih =>
    intro h i
    show (adoptAll (adopt h p c) p cs)[i]? = _
    rw [ih, adopt_get]
    cases h[i]? with
    | none => rfl
    | some n =>
      by_cases h1 : i ∈ cs <;> by_cases h2 : i = c <;> simp [h1, h2]

theorem adopt_length (h : Heap α) (p c : Nat) : (adopt h p c).length = h.length := by simp [adopt]

theorem adoptAll_length (p : Nat) (cs : List Nat) : ∀ h : Heap α, (adoptAll h p cs).length = h.length := by
  induction cs with
  | nil => intro h; rfl
  | cons c cs ih =>
    intro h
    show (adoptAll (adopt h p c) p cs).length = _
    rw [ih, adopt_length]

theorem make_length (h : Heap α) (a : α) (f : Form) (ks : List Nat) : (make h a f ks).length = h.length + 1 := by
  unfold make
  split
  · simp
  · rw [adoptAll_length]; simp

/-- The parent of node `i` after node `m` has been made with children `ks`. -/
def taken (f : Form) (ks : List Nat) (m i : Nat) (p : Option Nat) : Option Nat := if f ≠ .write ∧ i ∈ ks then some m else p

theorem make_get (h : Heap α) (a : α) (f : Form) (ks : List Nat) (i : Nat) (hi : i < h.length) :
    (make h a f ks)[i]? = (h[i]?).map fun n => { n with parent := taken f ks h.length i n.parent } := by
  have happ : (h ++ [(⟨a, f, ks, none⟩ : Node α)])[i]? = h[i]? := List.getElem?_append_left hi
  unfold make taken
  by_cases hf : f = .write
  · rw [if_pos hf, happ]
    cases h[i]? <;> simp [hf]
  · rw [if_neg hf, adoptAll_get, happ]
    cases h[i]? with
    | none => rfl
    | some n => by_cases hk : i ∈ ks <;> simp [hf, hk]

theorem make_new (h : Heap α) (a : α) (f : Form) (ks : List Nat) :
    (make h a f ks)[h.length]? = some ⟨a, f, ks, taken f ks h.length h.length none⟩ := by
  have happ : (h ++ [(⟨a, f, ks, none⟩ : Node α)])[h.length]? = some ⟨a, f, ks, none⟩ := by simp
  unfold make taken
  by_cases hf : f = .write
  · rw [if_pos hf, happ]
    simp [hf]
  · rw [if_neg hf, adoptAll_get, happ]
    by_cases hk : h.length ∈ ks <;> simp [hf, hk]

/-- A child list after a replacement. -/
def swap (old new : Nat) (ks : List Nat) : List Nat := ks.map fun c => if c = old then new else c

theorem swap_mem {old new c : Nat} {ks : List Nat} (h : c ∈ swap old new ks) : (c = new ∧ old ∈ ks) ∨ (c ≠ old ∧ c ∈ ks) := by
  obtain ⟨x, hx, he⟩ := List.mem_map.mp h
  by_cases hxo : x = old
  · rw [if_pos hxo] at he
    exact .inl ⟨he.symm, hxo ▸ hx⟩
  · rw [if_neg hxo] at he
    exact .inr ⟨he ▸ hxo, he ▸ hx⟩

theorem mem_swap {old new c : Nat} {ks : List Nat} (h : c ∈ ks) (hc : c ≠ old) : c ∈ swap old new ks :=
  List.mem_map.mpr ⟨c, h, if_neg hc⟩

theorem new_swap {old new : Nat} {ks : List Nat} (h : old ∈ ks) : new ∈ swap old new ks :=
  List.mem_map.mpr ⟨old, h, if_pos rfl⟩

/-- What `replace` does to the heap. -/
theorem replace_get {h h' : Heap α} {old new : Nat} (hr : replace h old new = .ok h') :
    ∃ n p, h[old]? = some n ∧ n.parent = some p ∧
      ∀ i : Nat, h'[i]? = (h[i]?).map fun x =>
        { x with kids := if i = p then swap old new x.kids else x.kids, parent := if i = new then some p else x.parent } := by
  unfold replace at hr
  cases hn : h[old]? with
  | none => rw [hn] at hr; nomatch hr
  | some n =>
    rw [hn] at hr
    dsimp only at hr
    cases hp : n.parent with
    | none => rw [hp] at hr; nomatch hr
    | some p =>
      rw [hp] at hr
      dsimp only at hr
      refine ⟨n, p, rfl, hp, fun i => ?_⟩
      cases hr
      rw [adopt_get]
      unfold replaceChildWith
      rw [List.getElem?_modify]
      cases h[i]? with
      | none => rfl
      | some x =>
        by_cases h1 : p = i
        · subst h1
          by_cases h2 : p = new <;> simp [h2, swap]
        · have h1' : ¬ i = p := fun e => h1 e.symm
          by_cases h2 : i = new
          · subst h2
            simp [h1, h1']
          · simp [h1, h1', h2]

/-- What specialising does: a new node with the same text and the same children. -/
structure Specialized (h : Heap α) (n m : Nat) (h' : Heap α) where
  nd : Node α
  get : h[n]? = some nd
  fresh : nd.form.fresh = true
  new : m = h.length
  p : Nat
  parent : taken .special nd.kids m n nd.parent = some p
  old : ∀ i, i < h.length → h'[i]? = (h[i]?).map fun x =>
    { x with kids := if i = p then swap n m x.kids else x.kids, parent := taken .special nd.kids m i x.parent }
  made : h'[m]? = some ⟨nd.src, .special, if m = p then swap n m nd.kids else nd.kids, some p⟩
  length : h'.length = h.length + 1

theorem lt_of_get {h : Heap α} {i : Nat} {n : Node α} (hi : h[i]? = some n) : i < h.length :=
  (List.getElem?_eq_some_iff.mp hi).1

theorem specialize_ok {h h' : Heap α} {n m : Nat} (hs : specialize h n = .ok (m, h')) : Nonempty (Specialized h n m h') := by
  unfold specialize at hs
  cases hn : h[n]? with
  | none => rw [hn] at hs; nomatch hs
  | some nd =>
    rw [hn] at hs
    dsimp only at hs
    by_cases hf : nd.form.fresh = true
    · rw [if_pos hf] at hs
      cases hr : replace (make h nd.src .special nd.kids) n h.length with
      | error e => rw [hr] at hs; nomatch hs
      | ok h2 =>
        rw [hr] at hs
        have hm : h.length = m ∧ h2 = h' := by
          have := Except.ok.inj hs
          exact ⟨congrArg Prod.fst this, congrArg Prod.snd this⟩
        obtain ⟨rfl, rfl⟩ := hm
        obtain ⟨x, p, hx, hp, hget⟩ := replace_get hr
        have hlt := lt_of_get hn
        rw [make_get _ _ _ _ _ hlt, hn] at hx
        simp only [Option.map_some, Option.some.injEq] at hx
        subst hx
        refine ⟨⟨nd, hn, hf, rfl, p, hp, fun i hi => ?_, ?_, ?_⟩⟩
        · rw [hget, make_get _ _ _ _ _ hi]
          have : ¬ i = h.length := by omega
          cases h[i]? with
          | none => rfl
          | some x => simp [this]
        · rw [hget, make_new]
          simp
        · have hlen : ∀ i : Nat, i < h2.length ↔ i < h.length + 1 := by
            intro i
            have h3 := make_length h nd.src .special nd.kids
            have h4 := hget i
            constructor
            · intro hi
              rw [List.getElem?_eq_getElem hi] at h4
              cases h5 : (make h nd.src .special nd.kids)[i]? with
              | none => rw [h5] at h4; nomatch h4
              | some y => exact h3 ▸ lt_of_get h5
            · intro hi
              rw [← h3] at hi
              rw [List.getElem?_eq_getElem hi] at h4
              exact lt_of_get h4
          have h6 := (hlen h2.length)
          have h7 := hlen (h.length + 1)
          omega
    · rw [if_neg hf] at hs; nomatch hs

/-! ## The text of a tree -/

theorem every_map {β γ : Type} {f f' : β → Option γ} (g : β → β) : ∀ {ks : List β} {ts : List γ}, every f ks = some ts →
    (∀ k ∈ ks, ∀ t, f k = some t → f' (g k) = some t) → every f' (ks.map g) = some ts := by
  intro ks
  induction ks with
  | nil => intro ts h _; exact h
  | cons k ks ih =>
    intro ts h hk
    unfold every at h
    cases h1 : f k with
    | none => rw [h1] at h; nomatch h
    | some t =>
      rw [h1] at h
      simp only [Option.bind_some] at h
      cases h2 : every f ks with
      | none => rw [h2] at h; nomatch h
      | some us =>
        rw [h2] at h
        show ((f' (g k)).bind fun c => (every f' (ks.map g)).map (c :: ·)) = some ts
        rw [hk k (List.mem_cons_self ..) t h1, ih h2 fun k hk' => hk k (List.mem_cons_of_mem _ hk')]
        exact h

theorem every_mono {β γ : Type} {f f' : β → Option γ} {ks : List β} {ts : List γ} (h : every f ks = some ts)
    (hk : ∀ k ∈ ks, ∀ t, f k = some t → f' k = some t) : every f' ks = some ts := by
  have := every_map (f := f) (f' := f') id h hk
  rwa [List.map_id] at this

theorem source_step {h : Heap α} {d : Nat} {r : Nat} {n : Node α} (hn : h[r]? = some n) :
    source h (d + 1) r = (every (source h d) n.kids).map (Source.mk n.src) := by
  show (h[r]?).bind _ = _
  rw [hn]; rfl

theorem source_inv {h : Heap α} {d : Nat} {r : Nat} {t : Source α} (hs : source h d r = some t) :
    ∃ e n ts, d = e + 1 ∧ h[r]? = some n ∧ every (source h e) n.kids = some ts ∧ t = Source.mk n.src ts := by
  cases d with
  | zero => nomatch hs
  | succ e =>
    cases hn : h[r]? with
    | none =>
      unfold source at hs
      rw [hn] at hs; nomatch hs
    | some n =>
      rw [source_step hn] at hs
      cases hts : every (source h e) n.kids with
      | none => rw [hts] at hs; nomatch hs
      | some ts =>
        rw [hts] at hs
        exact ⟨e, n, ts, rfl, rfl, hts, (Option.some.inj hs).symm⟩

/-- Specialising keeps the text of every node, and the new node has the text of the old one. -/
theorem Specialized.source {h h' : Heap α} {n m : Nat} (S : Specialized h n m h') : ∀ (d : Nat),
    (∀ r t, source h d r = some t → source h' d r = some t) ∧ (∀ t, source h d n = some t → source h' d m = some t) := by
  intro d
  induction d with
  | zero => exact ⟨fun _ _ hs => (nomatch hs), fun _ hs => (nomatch hs)⟩
  | succ d ih =>
    have hkids : ∀ (ks : List Nat) (ts : List (Source α)) (q : Prop) [Decidable q], every (Nodes.source h d) ks = some ts →
        every (Nodes.source h' d) (if q then swap n m ks else ks) = some ts := by
      intro ks ts q _ hts
      by_cases hq : q
      · rw [if_pos hq]
        refine every_map _ hts fun k _ t hk => ?_
        by_cases hkn : k = n
        · rw [if_pos hkn]
          subst hkn
          exact ih.2 t hk
        · rw [if_neg hkn]
          exact ih.1 k t hk
      · rw [if_neg hq]
        exact every_mono hts fun k _ t hk => ih.1 k t hk
    constructor
    · intro r t hs
      obtain ⟨e, x, ts, he, hx, hts, rfl⟩ := source_inv hs
      have he' : d = e := by omega
      subst he'
      have hget := S.old r (lt_of_get hx)
      rw [hx] at hget
      rw [source_step hget]
      dsimp only
      rw [hkids x.kids ts _ hts]
      rfl
    · intro t hs
      obtain ⟨e, x, ts, he, hx, hts, rfl⟩ := source_inv hs
      have he' : d = e := by omega
      subst he'
      have hxn : x = S.nd := Option.some.inj (hx.symm.trans S.get)
      rw [source_step S.made]
      dsimp only
      rw [hxn] at hts ⊢
      rw [hkids S.nd.kids ts _ hts]
      rfl

theorem step_source {s s' : State α} {o : Op} (hs : step s o = .ok s') {d : Nat} {r : Nat} {t : Source α}
    (ht : source s.heap d r = some t) : source s'.heap d r = some t := by
  have hkeep : s'.heap = s.heap → source s'.heap d r = some t := fun h => by rw [h]; exact ht
  cases o with
  | enter q =>
    apply hkeep
    unfold step at hs
    dsimp only at hs
    split at hs
    · nomatch hs
    · split at hs
      · split at hs
        · cases hs; rfl
        · nomatch hs
      · nomatch hs
  | child i =>
    apply hkeep
    unfold step at hs
    dsimp only at hs
    split at hs
    · nomatch hs
    · split at hs
      · nomatch hs
      · split at hs
        · nomatch hs
        · split at hs
          · nomatch hs
          · cases hs; rfl
  | leave =>
    apply hkeep
    unfold step at hs
    dsimp only at hs
    split at hs
    · nomatch hs
    · cases hs; rfl
  | specialize =>
    unfold step at hs
    dsimp only at hs
    split at hs
    · nomatch hs
    · next x xs _ =>
      cases h1 : Nodes.specialize s.heap x with
      | error e => rw [h1] at hs; nomatch hs
      | ok r' =>
        rw [h1] at hs
        cases hs
        obtain ⟨S⟩ := specialize_ok (h := s.heap) (m := r'.1) (h' := r'.2) h1
        exact (S.source d).1 r t ht

theorem run_cons {s s' : State α} {o : Op} {os : List Op} (h : run s (o :: os) = .ok s') : ∃ m, step s o = .ok m ∧ run m os = .ok s' := by
  unfold run at h
  cases h1 : step s o with
  | error e => rw [h1] at h; nomatch h
  | ok m =>
    rw [h1] at h
    exact ⟨m, rfl, h⟩

theorem run_source (os : List Op) : ∀ {s s' : State α}, run s os = .ok s' → ∀ {d : Nat} {r : Nat} {t : Source α},
    source s.heap d r = some t → source s'.heap d r = some t := by
  induction os with
  | nil => intro s s' h d r t ht; cases h; exact ht
  | cons o os ih =>
    intro s s' h d r t ht
    obtain ⟨m, h1, h2⟩ := run_cons h
    exact ih h2 (step_source h1 ht)

end PySOM.Nodes

import Verif.Lemmas.Array
/-! Helper lemmas: the heap of arrays refines the list-of-lists specification. -/
set_option autoImplicit false
namespace PySOM.Arr
open PySOM

/-- Content of the storage at address `p`. -/
def Heap.content (h : Heap) (p : Nat) : List Val :=
  match h.stos[p]? with
  | some s => asArguments s
  | none => []

/-- Abstraction map: the contents of all arrays. -/
def Heap.abs (h : Heap) : Spec.Arrays := h.arrs.map h.content

/-- Heap invariant: every array has a well-formed storage, and two arrays share a storage only if it is the
(immutable) empty storage. -/
structure HInv (h : Heap) : Prop where
  wf : ∀ a p : Nat, h.arrs[a]? = some p → ∃ s, h.stos[p]? = some s ∧ Inv s
  unshared : ∀ a b p : Nat, h.arrs[a]? = some p → h.arrs[b]? = some p → a = b ∨ ∃ n, h.stos[p]? = some (.empty n)

theorem HInv.init : HInv {} := ⟨by simp, by simp⟩

theorem abs_get (h : Heap) (a : Nat) : h.abs[a]? = (h.arrs[a]?).map h.content := by
  simp [Heap.abs]

theorem abs_length (h : Heap) : h.abs.length = h.arrs.length := by simp [Heap.abs]

theorem getElem?_lt {α} {xs : List α} {k : Nat} {v : α} (h : xs[k]? = some v) : k < xs.length := by
  rcases Nat.lt_or_ge k xs.length with h' | h'
  · exact h'
  · simp [h'] at h

theorem content_append {h : Heap} {s : Store} {arrs : List Nat} {p : Nat} (hp : p < h.stos.length) :
    Heap.content { stos := h.stos ++ [s], arrs := arrs } p = h.content p := by
  simp [Heap.content, List.getElem?_append_left hp]

theorem HInv.addr_lt {h : Heap} (hi : HInv h) {a p : Nat} (ha : h.arrs[a]? = some p) : p < h.stos.length := by
  obtain ⟨s, hs, _⟩ := hi.wf a p ha
  exact getElem?_lt hs

theorem alloc_spec {h : Heap} (hi : HInv h) {s : Store} (hs : Inv s) :
    HInv (h.alloc s).1 ∧ (h.alloc s).1.abs = h.abs ++ [asArguments s] ∧ (h.alloc s).2 = .array h.abs.length := by
  refine ⟨⟨?_, ?_⟩, ?_, by simp [Heap.alloc, abs_length]⟩
  · intro a p ha
    simp only [Heap.alloc] at ha ⊢
    by_cases hlt : a < h.arrs.length
    · rw [List.getElem?_append_left hlt] at ha
      obtain ⟨s', hs', hinv⟩ := hi.wf a p ha
      exact ⟨s', by rw [List.getElem?_append_left (getElem?_lt hs')]; exact hs', hinv⟩
    · rw [List.getElem?_append_right (by omega)] at ha
      obtain ⟨hk, rfl⟩ : a - h.arrs.length = 0 ∧ h.stos.length = p := by
        have := getElem?_lt ha
        simp at this
        refine ⟨by omega, ?_⟩
        simpa [show a - h.arrs.length = 0 by omega] using ha
      exact ⟨s, by simp, hs⟩
  · intro a b p ha hb
    simp only [Heap.alloc] at ha hb ⊢
    have cls : ∀ c, (h.arrs ++ [h.stos.length])[c]? = some p →
        (h.arrs[c]? = some p ∧ p < h.stos.length) ∨ (c = h.arrs.length ∧ p = h.stos.length) := by
      intro c hc
      by_cases hlt : c < h.arrs.length
      · rw [List.getElem?_append_left hlt] at hc
        exact Or.inl ⟨hc, hi.addr_lt hc⟩
      · rw [List.getElem?_append_right (by omega)] at hc
        have := getElem?_lt hc
        simp at this
        right
        refine ⟨by omega, ?_⟩
        simpa [show c - h.arrs.length = 0 by omega, eq_comm] using hc
    rcases cls a ha with ⟨ha', hp⟩ | ⟨rfl, rfl⟩ <;> rcases cls b hb with ⟨hb', hp'⟩ | ⟨rfl, hp'⟩
    · rcases hi.unshared a b p ha' hb' with h | ⟨n, hn⟩
      · exact Or.inl h
      · exact Or.inr ⟨n, by rw [List.getElem?_append_left hp]; exact hn⟩
    · omega
    · omega
    · exact Or.inl rfl
  · simp only [Heap.abs, Heap.alloc, List.map_append, List.map_cons, List.map_nil]
    congr 1
    · apply List.map_congr_left
      intro p hp
      obtain ⟨a, ha⟩ := List.getElem?_of_mem hp
      exact content_append (hi.addr_lt ha)
    · simp [Heap.content]

/-- An in-place update is only ever made to a storage which is not the shared empty one. -/
theorem setIdx_inPlace_not_empty {s s' : Store} {i : Int} {v : Val} (h : setIdx s i v = .ok (.inPlace s')) (n : Int) :
    s ≠ .empty n := by
  rintro rfl
  simp only [setIdx] at h
  repeat' split at h
  all_goals simp at h

theorem setAll_inPlace {s s' : Store} {v : Val} : setAll s v ≠ .ok (.inPlace s') := by
  intro h
  cases s <;> simp only [setAll] at h
  all_goals repeat' split at h
  all_goals simp at h

theorem apply_spec {h : Heap} (hi : HInv h) {a p : Nat} (ha : h.arrs[a]? = some p) {s : Store}
    (hs : h.stos[p]? = some s) (u : Upd) (hinv : Inv (u.result s)) (hemp : ∀ s', u = .inPlace s' → ∀ n, s ≠ .empty n) :
    HInv (h.apply a p u) ∧ (h.apply a p u).abs = h.abs.set a (asArguments (u.result s)) := by
  have hplt := getElem?_lt hs
  have halt := getElem?_lt ha
  have hcont : h.content p = asArguments s := by simp [Heap.content, hs]
  cases u with
  | unchanged =>
    refine ⟨hi, ?_⟩
    simp only [Heap.apply, Upd.result]
    apply List.ext_getElem?
    intro k
    rw [List.getElem?_set]
    split
    · rename_i hk
      subst hk
      rw [abs_get, ha, abs_length, if_pos halt]; simp [hcont]
    · rfl
  | inPlace s' =>
    have hne := hemp s' rfl
    have huniq : ∀ b, h.arrs[b]? = some p → b = a := by
      intro b hb
      rcases hi.unshared b a p hb ha with h | ⟨n, hn⟩
      · exact h
      · rw [hs] at hn; exact absurd (Option.some.inj hn) (hne n)
    refine ⟨⟨?_, ?_⟩, ?_⟩
    · intro b q hb
      simp only [Heap.apply] at hb ⊢
      by_cases hq : q = p
      · subst hq; exact ⟨s', by simp [hplt], hinv⟩
      · obtain ⟨s'', h1, h2⟩ := hi.wf b q hb
        exact ⟨s'', by rw [List.getElem?_set_ne (Ne.symm hq)]; exact h1, h2⟩
    · intro b c q hb hc
      simp only [Heap.apply] at hb hc ⊢
      by_cases hq : q = p
      · subst hq; left; rw [huniq b hb, huniq c hc]
      · rcases hi.unshared b c q hb hc with h | ⟨n, hn⟩
        · exact Or.inl h
        · exact Or.inr ⟨n, by rw [List.getElem?_set_ne (Ne.symm hq)]; exact hn⟩
    · apply List.ext_getElem?
      intro k
      rw [List.getElem?_set, abs_get, abs_get, abs_length]
      simp only [Heap.apply]
      by_cases hk : a = k
      · subst hk
        rw [if_pos rfl, if_pos halt, ha]
        simp [Heap.content, hplt, Upd.result]
      · rw [if_neg hk]
        cases hx : h.arrs[k]? with
        | none => rfl
        | some q =>
          have hq : q ≠ p := by rintro rfl; exact hk (huniq k hx).symm
          simp [Heap.content, List.getElem?_set_ne (Ne.symm hq)]
  | fresh s' =>
    refine ⟨⟨?_, ?_⟩, ?_⟩
    · intro b q hb
      simp only [Heap.apply] at hb ⊢
      rw [List.getElem?_set] at hb
      split at hb
      · simp [halt] at hb
        subst hb; exact ⟨s', by simp, hinv⟩
      · obtain ⟨s'', h1, h2⟩ := hi.wf b q hb
        exact ⟨s'', by rw [List.getElem?_append_left (getElem?_lt h1)]; exact h1, h2⟩
    · intro b c q hb hc
      simp only [Heap.apply] at hb hc ⊢
      have cls : ∀ d, (h.arrs.set a h.stos.length)[d]? = some q →
          (d = a ∧ q = h.stos.length) ∨ (d ≠ a ∧ h.arrs[d]? = some q ∧ q < h.stos.length) := by
        intro d hd
        rw [List.getElem?_set] at hd
        split at hd
        · simp [halt] at hd
          left; exact ⟨by omega, hd.symm⟩
        · right; exact ⟨by omega, hd, hi.addr_lt hd⟩
      rcases cls b hb with ⟨h1, h2⟩ | ⟨h1, h2, h3⟩ <;> rcases cls c hc with ⟨h1', h2'⟩ | ⟨h1', h2', h3'⟩
      · left; omega
      · omega
      · omega
      · rcases hi.unshared b c q h2 h2' with h | ⟨n, hn⟩
        · exact Or.inl h
        · exact Or.inr ⟨n, by rw [List.getElem?_append_left h3]; exact hn⟩
    · apply List.ext_getElem?
      intro k
      rw [List.getElem?_set, abs_get, abs_get, abs_length]
      simp only [Heap.apply]
      by_cases hk : a = k
      · subst hk
        rw [if_pos rfl, if_pos halt, List.getElem?_set_self halt]
        simp [Heap.content, Upd.result]
      · rw [if_neg hk, List.getElem?_set_ne hk]
        cases hx : h.arrs[k]? with
        | none => rfl
        | some q => simp [content_append (hi.addr_lt hx)]

theorem share_spec {h : Heap} (hi : HInv h) {a p : Nat} (ha : h.arrs[a]? = some p) {n : Int}
    (hs : h.stos[p]? = some (.empty n)) :
    HInv { h with arrs := h.arrs ++ [p] } ∧
      Heap.abs { h with arrs := h.arrs ++ [p] } = h.abs ++ [asArguments (.empty n)] := by
  have cls : ∀ c q, (h.arrs ++ [p])[c]? = some q → h.arrs[c]? = some q ∨ (c = h.arrs.length ∧ q = p) := by
    intro c q hc
    by_cases hlt : c < h.arrs.length
    · rw [List.getElem?_append_left hlt] at hc
      exact Or.inl hc
    · rw [List.getElem?_append_right (by omega)] at hc
      have := getElem?_lt hc
      simp at this
      right
      refine ⟨by omega, ?_⟩
      simpa [show c - h.arrs.length = 0 by omega, eq_comm] using hc
  refine ⟨⟨?_, ?_⟩, ?_⟩
  · intro c q hc
    rcases cls c q hc with h' | ⟨_, rfl⟩
    · exact hi.wf c q h'
    · exact hi.wf a q ha
  · intro b c q hb hc
    rcases cls b q hb with hb' | ⟨h1, rfl⟩
    · rcases cls c q hc with hc' | ⟨_, rfl⟩
      · exact hi.unshared b c q hb' hc'
      · exact Or.inr ⟨n, hs⟩
    · exact Or.inr ⟨n, hs⟩
  · simp only [Heap.abs, List.map_append, List.map_cons, List.map_nil]
    have : ∀ q, Heap.content { h with arrs := h.arrs ++ [p] } q = h.content q := fun q => rfl
    congr 1
    simp [Heap.content, hs]

theorem Flags_foldl_isEmpty (vs : List Val) (f : Flags) :
    (vs.foldl Flags.step f).isEmpty = (f.isEmpty && vs.all (fun x => x == .nil || x == .pyNone)) := by
  induction vs generalizing f with
  | nil => simp
  | cons v vs ih => rw [List.foldl_cons, ih]; cases v <;> simp [Flags.step]

theorem Flags_foldl_onlyDouble (vs : List Val) (f : Flags) :
    (vs.foldl Flags.step f).onlyDouble = (f.onlyDouble && vs.all (fun x => x == .nil || x == .pyNone || Spec.isDbl x)) := by
  induction vs generalizing f with
  | nil => simp
  | cons v vs ih => rw [List.foldl_cons, ih]; cases v <;> simp [Flags.step, Spec.isDbl]

theorem Flags_foldl_onlyLong (vs : List Val) (f : Flags) :
    (vs.foldl Flags.step f).onlyLong = (f.onlyLong && vs.all (fun x => x == .nil || x == .pyNone || Spec.isInt x)) := by
  induction vs generalizing f with
  | nil => simp
  | cons v vs ih => rw [List.foldl_cons, ih]; cases v <;> simp [Flags.step, Spec.isInt]

theorem Flags_foldl_onlyBool (vs : List Val) (f : Flags) :
    (vs.foldl Flags.step f).onlyBool = (f.onlyBool && vs.all (fun x => x == .nil || x == .pyNone || Spec.isBool x)) := by
  induction vs generalizing f with
  | nil => simp
  | cons v vs ih => rw [List.foldl_cons, ih]; cases v <;> simp [Flags.step, Spec.isBool]

theorem fromValues_spec {vs : List Val} (hsom : ∀ x ∈ vs, x.isSom = true) (hmix : ¬ Spec.NilMixed vs) :
    ∃ s, fromValues vs = .ok s ∧ Inv s ∧ asArguments s = vs := by
  have hnone : ∀ x ∈ vs, x ≠ .pyNone := by rintro x hx rfl; simpa [Val.isSom] using hsom _ hx
  have strip : ∀ q : Val → Bool, vs.all (fun x => x == .nil || x == .pyNone || q x) = true → ∀ x ∈ vs, x = .nil ∨ q x = true := by
    intro q hq x hx
    have := List.all_eq_true.1 hq x hx
    have := hnone x hx
    simp_all
  unfold fromValues
  simp only [Flags_foldl_isEmpty, Flags_foldl_onlyDouble, Flags_foldl_onlyLong, Flags_foldl_onlyBool, Bool.true_and]
  by_cases he : vs.all (fun x => x == .nil || x == .pyNone) = true
  · rw [if_pos he]
    refine ⟨_, rfl, by simp [Inv], ?_⟩
    simp only [asArguments, pyRep, Int.toNat_natCast]
    symm
    rw [List.eq_replicate_iff]
    refine ⟨rfl, ?_⟩
    intro x hx
    have := List.all_eq_true.1 he x hx
    have := hnone x hx
    simp_all
  · rw [if_neg he]
    have hex : ∃ x ∈ vs, x ≠ .nil := by
      apply Classical.byContradiction
      intro hc
      apply he
      rw [List.all_eq_true]
      intro x hx
      have : x = .nil := Classical.byContradiction (fun h => hc ⟨x, hx, h⟩)
      simp [this]
    have nonil : ∀ q : Val → Bool, (∀ x ∈ vs, x = .nil ∨ q x = true) →
        ((∀ x ∈ vs, x = .nil ∨ Spec.isInt x) ∨ (∀ x ∈ vs, x = .nil ∨ Spec.isDbl x) ∨ (∀ x ∈ vs, x = .nil ∨ Spec.isBool x)) →
        ∀ x ∈ vs, q x = true := by
      intro q hq hk x hx
      refine (hq x hx).resolve_left ?_
      rintro rfl
      exact hmix ⟨⟨_, hx, rfl⟩, hex, hk⟩
    by_cases hd : vs.all (fun x => x == .nil || x == .pyNone || Spec.isDbl x) = true
    · rw [if_pos hd]
      have h1 := strip _ hd
      obtain ⟨ys, hy, hm, hf⟩ := mapM_embeddedDouble (nonil _ h1 (Or.inr (Or.inl h1)))
      exact ⟨.double ys, by simp only [doubleWithValues, hy]; rfl, hf, hm⟩
    · rw [if_neg hd]
      by_cases hl : vs.all (fun x => x == .nil || x == .pyNone || Spec.isInt x) = true
      · rw [if_pos hl]
        have h1 := strip _ hl
        obtain ⟨ys, hy, hm⟩ := mapM_embeddedInt (nonil _ h1 (Or.inl h1))
        exact ⟨.long ys, by simp only [longWithValues, hy]; rfl, trivial, hm⟩
      · rw [if_neg hl]
        by_cases hb : vs.all (fun x => x == .nil || x == .pyNone || Spec.isBool x) = true
        · rw [if_pos hb]
          have h1 := strip _ hb
          exact ⟨_, rfl, trivial, map_isTrue (nonil _ h1 (Or.inr (Or.inr h1)))⟩
        · rw [if_neg hb]
          exact ⟨_, rfl, hsom, rfl⟩

theorem pyRange_eq (n : Nat) (lo : Int) : pyRange n lo = (List.range n).map (fun (k : Nat) => lo + (k : Int)) := by
  induction n generalizing lo with
  | zero => rfl
  | succ n ih =>
    rw [pyRange, ih, List.range_succ_eq_map]
    simp only [List.map_cons, List.map_map]
    congr 1
    · simp
    · apply List.map_congr_left
      intro k _
      simp; omega

theorem rangeStore_spec (lo hi : Int) : Inv (rangeStore lo hi) ∧ asArguments (rangeStore lo hi) = Spec.interval lo hi := by
  refine ⟨trivial, ?_⟩
  simp [rangeStore, asArguments, Spec.interval, pyRange_eq, Function.comp_def]

/-- One valid operation: it does what the specification says, or it is one the code may refuse, in which case it
fails and changes nothing. -/
theorem step_spec {h : Heap} (hi : HInv h) {op : Op} (hv : Spec.Valid op) (hmix : ∀ vs, op = .values vs → ¬ Spec.NilMixed vs) :
    HInv (h.step op).1 ∧
    (((h.step op).1.abs, (h.step op).2) = Spec.step h.abs op ∨
      (Spec.Refused h.abs op ∧ (h.step op).1 = h ∧ (h.step op).2 = .error .assertion)) := by
  have hget : ∀ (a p : Nat) (s : Store), h.arrs[a]? = some p → h.stos[p]? = some s → h.abs[a]? = some (asArguments s) := by
    intro a p s ha hs; rw [abs_get, ha]; simp [Heap.content, hs]
  cases op with
  | new n =>
    have := alloc_spec hi (s := .empty n) hv
    refine ⟨this.1, Or.inl ?_⟩
    simp only [Heap.step, Spec.step, this.2.1, this.2.2]; rfl
  | «at» a i =>
    simp only [Heap.step, Heap.store, Spec.step]
    cases ha : h.arrs[a]? with
    | none => simp [abs_get, ha, hi]
    | some p =>
      obtain ⟨s, hs, hinv⟩ := hi.wf a p ha
      simp only [Option.bind_some, hs, hget a p s ha hs, getIdx_spec hinv hv]
      cases Spec.at? (asArguments s) i <;> simp [hi]
  | put a i v =>
    simp only [Heap.step, Spec.step]
    cases ha : h.arrs[a]? with
    | none => simp [abs_get, ha, hi]
    | some p =>
      obtain ⟨s, hs, hinv⟩ := hi.wf a p ha
      simp only [hs, hget a p s ha hs]
      rcases setIdx_spec hinv hv.1 hv.2 with ⟨he, hr⟩ | ⟨hl, u, hu, hinv', habs⟩ | ⟨hl, he⟩
      · simp only [he]
        exact ⟨hi, Or.inr ⟨⟨_, hget a p s ha hs, hr⟩, trivial, trivial⟩⟩
      · simp only [hu]
        have := apply_spec hi ha hs u hinv' (fun s' hs' => by subst hs'; exact setIdx_inPlace_not_empty hu)
        refine ⟨this.1, Or.inl ?_⟩
        rw [this.2, habs, if_pos ⟨hv.1, hl⟩]
      · simp only [he]
        refine ⟨hi, Or.inl ?_⟩
        rw [if_neg (fun h => hl h.2)]
  | length a =>
    simp only [Heap.step, Heap.store, Spec.step]
    cases ha : h.arrs[a]? with
    | none => simp [abs_get, ha, hi]
    | some p =>
      obtain ⟨s, hs, hinv⟩ := hi.wf a p ha
      simp only [Option.bind_some, hs, hget a p s ha hs, getSize_abs hinv]
      exact ⟨hi, Or.inl trivial⟩
  | copy a =>
    simp only [Heap.step, Spec.step]
    cases ha : h.arrs[a]? with
    | none => simp [abs_get, ha, hi]
    | some p =>
      obtain ⟨s, hs, hinv⟩ := hi.wf a p ha
      simp only [hs, hget a p s ha hs]
      rcases copy_spec hinv with ⟨hc, n, rfl⟩ | ⟨s', hc, hinv', habs⟩
      · simp only [hc]
        have := share_spec hi ha hs
        exact ⟨this.1, Or.inl (by rw [this.2, abs_length])⟩
      · simp only [hc]
        have := alloc_spec hi hinv'
        refine ⟨this.1, Or.inl ?_⟩
        rw [this.2.1, this.2.2, habs]
  | putAll a v =>
    simp only [Heap.step, Spec.step]
    cases ha : h.arrs[a]? with
    | none => simp [abs_get, ha, hi]
    | some p =>
      obtain ⟨s, hs, hinv⟩ := hi.wf a p ha
      simp only [hs, hget a p s ha hs]
      obtain ⟨u, hu, hinv', habs⟩ := setAll_spec hinv hv
      simp only [hu]
      have := apply_spec hi ha hs u hinv' (fun s' hs' => by subst hs'; exact absurd hu setAll_inPlace)
      refine ⟨this.1, Or.inl ?_⟩
      rw [this.2, habs]
  | extend a v =>
    simp only [Heap.step, Heap.store, Spec.step]
    cases ha : h.arrs[a]? with
    | none => simp [abs_get, ha, hi]
    | some p =>
      obtain ⟨s, hs, hinv⟩ := hi.wf a p ha
      simp only [Option.bind_some, hs, hget a p s ha hs]
      rcases extend_spec hinv hv with ⟨he, hr⟩ | ⟨s', he, hinv', habs, _⟩
      · simp only [he]
        exact ⟨hi, Or.inr ⟨⟨_, hget a p s ha hs, hr⟩, trivial, trivial⟩⟩
      · simp only [he]
        have := alloc_spec hi hinv'
        refine ⟨this.1, Or.inl ?_⟩
        rw [this.2.1, this.2.2, habs]
  | range lo hi' =>
    have hr := rangeStore_spec lo hi'
    have := alloc_spec hi hr.1
    refine ⟨this.1, Or.inl ?_⟩
    simp only [Heap.step, Spec.step, this.2.1, this.2.2, hr.2]
  | values vs =>
    obtain ⟨s, hs, hinv, habs⟩ := fromValues_spec hv (hmix vs rfl)
    have := alloc_spec hi hinv
    simp only [Heap.step, Spec.step, hs]
    refine ⟨this.1, Or.inl ?_⟩
    rw [this.2.1, this.2.2, habs]
  | objects vs =>
    have := alloc_spec hi (s := .obj vs) hv
    refine ⟨this.1, Or.inl ?_⟩
    simp only [Heap.step, Spec.step, this.2.1, this.2.2]; rfl

/-- Whatever `from_values` answers is well formed. -/
theorem fromValues_inv {vs : List Val} (hsom : ∀ x ∈ vs, x.isSom = true) {s : Store} (h : fromValues vs = .ok s) : Inv s := by
  unfold fromValues at h
  simp only at h
  split at h
  · cases h; simp [Inv]
  · split at h
    · unfold doubleWithValues at h
      cases hm : vs.mapM embeddedDouble with
      | error e => rw [hm] at h; cases h
      | ok ys =>
        rw [hm] at h; cases h
        clear hsom
        rename_i h1 h2; clear h1 h2
        induction vs generalizing ys with
        | nil => cases hm; simp [Inv]
        | cons v vs ih =>
          rw [List.mapM_cons] at hm
          cases v <;> simp only [embeddedDouble] at hm <;> try (cases hm; done)
          cases hm' : vs.mapM embeddedDouble with
          | error e => rw [hm'] at hm; cases hm
          | ok zs =>
            rw [hm'] at hm; cases hm
            intro c hc
            rcases List.mem_cons.1 hc with rfl | hc
            · exact ⟨_, rfl⟩
            · exact ih zs hm' c hc
    · split at h
      · unfold longWithValues at h
        cases hm : vs.mapM embeddedInt with
        | error e => rw [hm] at h; cases h
        | ok ys => rw [hm] at h; cases h; trivial
      · split at h
        · cases h; trivial
        · cases h; exact hsom

theorem step_inv {h : Heap} (hi : HInv h) {op : Op} (hv : Spec.Valid op) : HInv (h.step op).1 := by
  cases op with
  | values vs =>
    simp only [Heap.step]
    cases hs : fromValues vs with
    | error e => exact hi
    | ok s => exact (alloc_spec hi (fromValues_inv hv hs)).1
  | _ => exact (step_spec hi hv (by intro vs h; cases h)).1

theorem run_inv {h : Heap} (hi : HInv h) {ops : List Op} (hv : ∀ op ∈ ops, Spec.Valid op) : HInv (h.run ops).1 := by
  induction ops generalizing h with
  | nil => exact hi
  | cons op ops ih =>
    simp only [Heap.run]
    exact ih (step_inv hi (hv op List.mem_cons_self)) (fun o ho => hv o (List.mem_cons_of_mem _ ho))

/-- The content of an array after one operation that is not a store into it. -/
theorem step_frame {h : Heap} (hi : HInv h) {op : Op} (hv : Spec.Valid op) {b : Nat} (hb : b < h.arrs.length)
    (hput : ∀ i v, op ≠ .put b i v) (hall : ∀ v, op ≠ .putAll b v) :
    (h.step op).1.abs[b]? = h.abs[b]? ∧ b < (h.step op).1.arrs.length := by
  have hb' : b < h.abs.length := by rw [abs_length]; exact hb
  suffices hs : (h.step op).1.abs[b]? = h.abs[b]? by
    refine ⟨hs, ?_⟩
    rw [← abs_length]
    rw [List.getElem?_eq_getElem hb'] at hs
    exact getElem?_lt hs
  by_cases hval : ∃ vs, op = .values vs
  · obtain ⟨vs, rfl⟩ := hval
    simp only [Heap.step]
    cases hs : fromValues vs with
    | error e => rfl
    | ok s =>
      show (h.alloc s).1.abs[b]? = _
      rw [(alloc_spec hi (fromValues_inv hv hs)).2.1, List.getElem?_append_left hb']
  · rcases (step_spec hi hv (by intro vs h; exact absurd ⟨vs, h⟩ hval)).2 with he | ⟨_, he, _⟩
    · have he1 : (h.step op).1.abs = (Spec.step h.abs op).1 := congrArg Prod.fst he
      rw [he1]
      cases op <;> simp only [Spec.step]
      case put a i v =>
        have hab : a ≠ b := by rintro rfl; exact hput i v rfl
        split
        · rfl
        · split
          · rw [List.getElem?_set_ne hab]
          · rfl
      case putAll a v =>
        have hab : a ≠ b := by rintro rfl; exact hall v rfl
        split
        · rfl
        · rw [List.getElem?_set_ne hab]
      case «at» a i => split <;> first | rfl | (split <;> rfl)
      case length a => split <;> rfl
      case copy a => split <;> first | rfl | exact List.getElem?_append_left hb'
      case extend a v => split <;> first | rfl | exact List.getElem?_append_left hb'
      all_goals exact List.getElem?_append_left hb'
    · rw [he]

theorem run_frame {h : Heap} (hi : HInv h) {ops : List Op} (hv : ∀ op ∈ ops, Spec.Valid op) {b : Nat} (hb : b < h.arrs.length)
    (hput : ∀ op ∈ ops, ∀ i v, op ≠ .put b i v) (hall : ∀ op ∈ ops, ∀ v, op ≠ .putAll b v) :
    (h.run ops).1.abs[b]? = h.abs[b]? := by
  induction ops generalizing h with
  | nil => rfl
  | cons op ops ih =>
    simp only [Heap.run]
    have h1 := step_frame hi (hv op List.mem_cons_self) hb (hput op List.mem_cons_self) (hall op List.mem_cons_self)
    rw [ih (step_inv hi (hv op List.mem_cons_self)) (fun o ho => hv o (List.mem_cons_of_mem _ ho)) h1.2
      (fun o ho => hput o (List.mem_cons_of_mem _ ho)) (fun o ho => hall o (List.mem_cons_of_mem _ ho))]
    exact h1.1

/-! ## putAll: with a block -/

theorem asObj_spec (rs : List Val) (pre : List Val) (rest : List Val) (h : rest.length = rs.length) :
    asObj rs pre.length (pre ++ rest) = .obj (pre ++ rs) := by
  induction rs generalizing pre rest with
  | nil => cases rest <;> simp_all [asObj]
  | cons r rs ih =>
    cases rest with
    | nil => simp at h
    | cons x rest =>
      simp only [asObj]
      have : (pre ++ x :: rest).set pre.length r = (pre ++ [r]) ++ rest := by
        rw [List.set_append_right _ _ (Nat.le_refl _)]; simp
      rw [this]
      have := ih (pre ++ [r]) rest (by simpa using h)
      simpa using this

theorem asNil_spec (rs : List Val) (k : Nat) :
    asArguments (asNil (k + rs.length) rs k) = List.replicate k Val.nil ++ rs := by
  induction rs generalizing k with
  | nil => simp [asNil, asArguments, pyRep]
  | cons r rs ih =>
    simp only [asNil]
    split
    · rename_i hr
      subst hr
      have := ih (k + 1)
      rw [show k + (Val.nil :: rs).length = k + 1 + rs.length by simp; omega, this]
      simp [List.replicate_succ']
    · have hrep : (List.replicate (k + (r :: rs).length) Val.nil).set k r
          = (List.replicate k Val.nil ++ [r]) ++ List.replicate rs.length Val.nil := by
        rw [List.length_cons, ← List.replicate_append_replicate, List.replicate_succ,
          List.set_append_right _ _ (by simp)]
        simp
      rw [hrep]
      have := asObj_spec rs (List.replicate k Val.nil ++ [r]) (List.replicate rs.length Val.nil) (by simp)
      simp only [List.length_append, List.length_replicate, List.length_singleton] at this
      rw [this]
      simp [asArguments]

theorem transitionBuf_append {α : Type} (box : α → Val) (pre : List α) (z : α) (n : Nat) :
    transitionBuf (pre.length + (n + 1)) pre.length box (pre ++ List.replicate (n + 1) z) =
      (pre.map box ++ [box z]) ++ List.replicate n .pyNone := by
  have hsub : pre.length + (n + 1) - (pre.length + 1) = n := by omega
  unfold transitionBuf
  rw [hsub, List.replicate_succ]
  have : (pre ++ z :: List.replicate n z).take (pre.length + 1) = pre ++ [z] := by
    rw [List.take_append, List.take_of_length_le (Nat.le_succ _)]; simp
  rw [this]; simp

/-- Filling as Integers is right exactly if all further results are Integers. -/
theorem asLong_spec (rs : List Val) (pre : List Int) :
    asArguments (asLong (pre.length + rs.length) rs pre.length (pre ++ List.replicate rs.length 0)) = pre.map Val.int ++ rs
      ↔ ∀ x ∈ rs, Spec.isInt x = true := by
  induction rs generalizing pre with
  | nil => simp [asLong, asArguments]
  | cons r rs ih =>
    by_cases hr : Spec.isInt r = true
    · cases r <;> simp [Spec.isInt] at hr
      rename_i z
      have hset : (pre ++ List.replicate (rs.length + 1) 0).set pre.length z = (pre ++ [z]) ++ List.replicate rs.length 0 := by
        rw [List.replicate_succ, List.set_append_right _ _ (Nat.le_refl _)]; simp
      have := ih (pre ++ [z])
      simp only [asLong, List.length_cons, hset]
      simp only [List.length_append, List.length_singleton] at this
      rw [show pre.length + (rs.length + 1) = pre.length + 1 + rs.length by omega]
      rw [show pre.map Val.int ++ Val.int z :: rs = (pre ++ [z]).map Val.int ++ rs by simp, this]
      simp [Spec.isInt]
    · constructor
      · intro h
        exfalso
        have hstep : asLong (pre.length + (r :: rs).length) (r :: rs) pre.length (pre ++ List.replicate (r :: rs).length 0)
            = asObj rs (pre.length + 1) (transitionBuf (pre.length + (rs.length + 1)) pre.length Val.int
                (pre ++ List.replicate (rs.length + 1) 0)) := by
          cases r <;> first | rfl | (exact absurd rfl hr)
        rw [hstep, transitionBuf_append] at h
        have ho := asObj_spec rs (pre.map Val.int ++ [Val.int 0]) (List.replicate rs.length .pyNone) (by simp)
        simp only [List.length_append, List.length_map, List.length_singleton] at ho
        rw [ho] at h
        simp only [asArguments, List.append_assoc, List.singleton_append] at h
        have := List.append_cancel_left h
        simp at this
        rw [← this] at hr; exact hr rfl
      · intro h; exact absurd (h r List.mem_cons_self) hr

theorem asDouble_spec (rs : List Val) (pre : List DCell) (z : DCell) (hz : ∀ r, Spec.isDbl r = false → z.toVal ≠ r)  :
    asArguments (asDouble (pre.length + rs.length) rs pre.length (pre ++ List.replicate rs.length z)) = pre.map DCell.toVal ++ rs
      ↔ ∀ x ∈ rs, Spec.isDbl x = true := by
  induction rs generalizing pre with
  | nil => simp [asDouble, asArguments]
  | cons r rs ih =>
    by_cases hr : Spec.isDbl r = true
    · cases r <;> simp [Spec.isDbl] at hr
      rename_i d
      have hset : (pre ++ List.replicate (rs.length + 1) z).set pre.length (.float d) = (pre ++ [.float d]) ++ List.replicate rs.length z := by
        rw [List.replicate_succ, List.set_append_right _ _ (Nat.le_refl _)]; simp
      have := ih (pre ++ [.float d])
      simp only [asDouble, List.length_cons, hset]
      simp only [List.length_append, List.length_singleton] at this
      rw [show pre.length + (rs.length + 1) = pre.length + 1 + rs.length by omega]
      rw [show pre.map DCell.toVal ++ Val.dbl d :: rs = (pre ++ [DCell.float d]).map DCell.toVal ++ rs by simp [DCell.toVal], this]
      simp [Spec.isDbl]
    · constructor
      · intro h
        exfalso
        have hstep : asDouble (pre.length + (r :: rs).length) (r :: rs) pre.length (pre ++ List.replicate (r :: rs).length z)
            = asObj rs (pre.length + 1) (transitionBuf (pre.length + (rs.length + 1)) pre.length DCell.toVal
                (pre ++ List.replicate (rs.length + 1) z)) := by
          cases r <;> first | rfl | (exact absurd rfl hr)
        rw [hstep, transitionBuf_append] at h
        have ho := asObj_spec rs (pre.map DCell.toVal ++ [z.toVal]) (List.replicate rs.length .pyNone) (by simp)
        simp only [List.length_append, List.length_map, List.length_singleton] at ho
        rw [ho] at h
        simp only [asArguments, List.append_assoc, List.singleton_append] at h
        have := List.append_cancel_left h
        simp at this
        exact hz r (by simpa using hr) this
      · intro h; exact absurd (h r List.mem_cons_self) hr

theorem asObj_head (rs : List Val) (i : Nat) (x : Val) (xs : List Val) :
    ∃ ys, asObj rs (i + 1) (x :: xs) = .obj (x :: ys) := by
  induction rs generalizing i xs with
  | nil => exact ⟨xs, rfl⟩
  | cons r rs ih => exact ih (i + 1) (xs.set i r)

/-- The first slot never changes again once the block's first result was stored. -/
theorem asDouble_head (size : Nat) (rs : List Val) (i : Nat) (c : DCell) (cs : List DCell) :
    (asArguments (asDouble size rs (i + 1) (c :: cs))).head? = some c.toVal := by
  induction rs generalizing i cs with
  | nil => rfl
  | cons r rs ih =>
    have hobj : (asArguments (asObj rs (i + 1 + 1) (transitionBuf size (i + 1) DCell.toVal (c :: cs)))).head? = some c.toVal := by
      have : ∃ ys, transitionBuf size (i + 1) DCell.toVal (c :: cs) = c.toVal :: ys := by
        simp [transitionBuf]
      obtain ⟨ys, hys⟩ := this
      rw [hys]
      obtain ⟨zs, hzs⟩ := asObj_head rs (i + 1) c.toVal ys
      rw [hzs]; rfl
    cases r <;> simp only [asDouble] <;> first | exact hobj | exact ih (i + 1) _

end PySOM.Arr

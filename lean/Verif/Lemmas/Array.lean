import Verif.Spec.Array
/-! Helper lemmas for the array refinement. -/
namespace PySOM.Arr
open PySOM

/-- Number of nil slots. -/
def nils (xs : List Val) : Nat := xs.count .nil

/-- All non-nil elements have the recorded type. -/
def Typed (t : PType) (xs : List Val) : Prop :=
  ∀ x ∈ xs, x = .nil ∨ (match t with
    | .none => False
    | .long => Spec.isInt x = true
    | .double => Spec.isDbl x = true
    | .bool => Spec.isBool x = true
    | .obj => False)

/-- Representation invariant of a single store (C09). -/
def Inv : Store → Prop
  | .obj xs => ∀ x ∈ xs, x.isSom = true
  | .long _ => True
  | .double xs => ∀ c ∈ xs, ∃ d, c = .float d
  | .bool _ => True
  | .empty n => 0 ≤ n
  | .part xs e t => xs ≠ [] ∧ (∀ x ∈ xs, x.isSom = true) ∧ t ≠ .obj ∧
      ((e = nils xs ∧ Typed t xs) ∨ e > nils xs)

theorem pyIdx_nonneg {len : Nat} {i : Int} (h : 0 ≤ i) :
    pyIdx len i = if i.toNat < len then some i.toNat else none := by
  unfold pyIdx
  rw [if_pos h]
  split <;> split <;> first | rfl | (exfalso; omega)

theorem listGet_nonneg {α} (xs : List α) {i : Int} (h : 0 ≤ i) :
    listGet xs i = (match xs[i.toNat]? with | some v => Except.ok v | none => .error .index) := by
  unfold listGet
  rw [pyIdx_nonneg h]
  by_cases hlt : i.toNat < xs.length
  · simp [hlt]
  · simp [hlt]

theorem listSet_nonneg {α} (xs : List α) {i : Int} (h : 0 ≤ i) (v : α) :
    listSet xs i v = if i.toNat < xs.length then .ok (xs.set i.toNat v) else .error .index := by
  unfold listSet
  rw [pyIdx_nonneg h]
  by_cases hlt : i.toNat < xs.length
  · rw [if_pos hlt, if_pos hlt]
  · rw [if_neg hlt, if_neg hlt]

theorem getSize_abs {s : Store} (h : Inv s) : getSize s = (asArguments s).length := by
  cases s <;> simp [getSize, asArguments, pyRep, Inv] at *
  omega

theorem getIdx_spec {s : Store} (h : Inv s) {i : Int} (hi : 1 ≤ i) :
    getIdx s (i - 1) = (match Spec.at? (asArguments s) i with | some v => .ok v | none => .error .index) := by
  have h0 : 0 ≤ i - 1 := by omega
  have key : ∀ xs : List Val, (match Spec.at? xs i with | some v => Except.ok v | none => Except.error Err.index)
      = (match xs[(i-1).toNat]? with | some v => Except.ok v | none => Except.error Err.index) := by
    intro xs
    unfold Spec.at?
    by_cases hl : i ≤ xs.length
    · rw [if_pos ⟨hi, hl⟩]
    · have : xs.length ≤ (i-1).toNat := by omega
      rw [if_neg (fun h => hl h.2), List.getElem?_eq_none this]
  rw [key]
  cases s with
  | obj xs =>
    simp only [getIdx, asArguments, listGet_nonneg _ h0]
    cases xs[(i-1).toNat]? <;> rfl
  | long xs =>
    simp only [getIdx, asArguments, listGet_nonneg _ h0, List.getElem?_map]
    cases xs[(i-1).toNat]? <;> rfl
  | double xs =>
    simp only [getIdx, asArguments, listGet_nonneg _ h0, List.getElem?_map]
    cases hx : xs[(i-1).toNat]? with
    | none => rfl
    | some c =>
      obtain ⟨d, rfl⟩ := h c (List.mem_of_getElem? hx)
      rfl
  | bool xs =>
    simp only [getIdx, asArguments, listGet_nonneg _ h0, List.getElem?_map]
    cases xs[(i-1).toNat]? <;> rfl
  | empty n =>
    simp only [getIdx, asArguments, pyRep, List.getElem?_replicate]
    by_cases hl : i - 1 < n
    · have : (i-1).toNat < n.toNat := by omega
      rw [if_pos ⟨h0, hl⟩, if_pos this]
    · have : ¬ (i-1).toNat < n.toNat := by omega
      rw [if_neg (fun h => hl h.2), if_neg this]
  | part xs e t =>
    simp only [getIdx, asArguments, listGet_nonneg _ h0]
    cases xs[(i-1).toNat]? <;> rfl

theorem mapM_embeddedInt {xs : List Val} (h : ∀ x ∈ xs, Spec.isInt x = true) :
    ∃ ys, xs.mapM embeddedInt = Except.ok ys ∧ ys.map Val.int = xs := by
  induction xs with
  | nil => exact ⟨[], rfl, rfl⟩
  | cons x xs ih =>
    obtain ⟨ys, hy, hm⟩ := ih (fun y hy => h y (List.mem_cons_of_mem _ hy))
    have hx := h x List.mem_cons_self
    cases x <;> simp [Spec.isInt] at hx
    rename_i z
    refine ⟨z :: ys, ?_, by simp [hm]⟩
    simp only [List.mapM_cons, hy, embeddedInt]; rfl

theorem mapM_embeddedDouble {xs : List Val} (h : ∀ x ∈ xs, Spec.isDbl x = true) :
    ∃ ys, xs.mapM embeddedDouble = Except.ok ys ∧ ys.map DCell.toVal = xs ∧ ∀ c ∈ ys, ∃ d, c = .float d := by
  induction xs with
  | nil => exact ⟨[], rfl, rfl, by simp⟩
  | cons x xs ih =>
    obtain ⟨ys, hy, hm, hf⟩ := ih (fun y hy => h y (List.mem_cons_of_mem _ hy))
    have hx := h x List.mem_cons_self
    cases x <;> simp [Spec.isDbl] at hx
    rename_i d
    refine ⟨.float d :: ys, ?_, by simp [hm, DCell.toVal], ?_⟩
    · simp only [List.mapM_cons, hy, embeddedDouble]; rfl
    · intro c hc
      rcases List.mem_cons.1 hc with rfl | hc
      · exact ⟨d, rfl⟩
      · exact hf c hc

theorem map_isTrue {xs : List Val} (h : ∀ x ∈ xs, Spec.isBool x = true) :
    (xs.map (· == Val.bool true)).map ofBool = xs := by
  induction xs with
  | nil => rfl
  | cons x xs ih =>
    have hx := h x List.mem_cons_self
    have := ih (fun y hy => h y (List.mem_cons_of_mem _ hy))
    cases x <;> simp [Spec.isBool] at hx
    rename_i b
    simp only [List.map_cons, this]
    cases b <;> rfl

/-- With no nil left and all elements of the recorded type, the switch to the typed storage keeps the content. -/
theorem withValuesOfType_spec {t : PType} {xs : List Val} (hne : xs ≠ []) (hsom : ∀ x ∈ xs, x.isSom = true)
    (ht : t = .obj ∨ (Typed t xs ∧ nils xs = 0)) :
    ∃ s, withValuesOfType t xs = .ok s ∧ Inv s ∧ asArguments s = xs := by
  rcases ht with rfl | ⟨hty, hn⟩
  · exact ⟨.obj xs, rfl, hsom, rfl⟩
  · have hnn : ∀ x ∈ xs, x ≠ .nil := by
      intro x hx he
      subst he
      have := List.count_pos_iff.2 hx
      unfold nils at hn; omega
    cases t with
    | none =>
      obtain ⟨x, hx⟩ := List.exists_mem_of_ne_nil xs hne
      rcases hty x hx with h | h
      · exact absurd h (hnn x hx)
      · exact h.elim
    | obj =>
      exact ⟨.obj xs, rfl, hsom, rfl⟩
    | long =>
      obtain ⟨ys, hy, hm⟩ := mapM_embeddedInt (xs := xs) (fun x hx => (hty x hx).resolve_left (hnn x hx))
      exact ⟨.long ys, by simp only [withValuesOfType, longWithValues, hy]; rfl, trivial, hm⟩
    | double =>
      obtain ⟨ys, hy, hm, hf⟩ := mapM_embeddedDouble (xs := xs) (fun x hx => (hty x hx).resolve_left (hnn x hx))
      exact ⟨.double ys, by simp only [withValuesOfType, doubleWithValues, hy]; rfl, hf, hm⟩
    | bool =>
      exact ⟨_, rfl, trivial, map_isTrue (fun x hx => (hty x hx).resolve_left (hnn x hx))⟩

theorem nils_set_le {xs : List Val} {k : Nat} {old v : Val} (hk : xs[k]? = some old) (hv : v ≠ .nil) :
    (nils (xs.set k v) : Int) = nils xs - (if old = .nil then 1 else 0) := by
  have hlt : k < xs.length := by
    rcases Nat.lt_or_ge k xs.length with h | h
    · exact h
    · simp [h] at hk
  have ho : xs[k] = old := by simpa [hlt] using hk
  have hpos : old = .nil → 0 < xs.count .nil := by
    intro h; subst h; exact List.count_pos_iff.2 (ho ▸ List.getElem_mem hlt)
  unfold nils
  rw [List.count_set hlt, ho]
  by_cases h : old = .nil
  · have := hpos h
    simp [h, hv]; omega
  · simp [h, hv]

theorem nils_set_nil {xs : List Val} {k : Nat} {old : Val} (hk : xs[k]? = some old) (ho' : old ≠ .nil) :
    nils (xs.set k .nil) = nils xs + 1 := by
  have hlt : k < xs.length := by
    rcases Nat.lt_or_ge k xs.length with h | h
    · exact h
    · simp [h] at hk
  have ho : xs[k] = old := by simpa [hlt] using hk
  unfold nils
  rw [List.count_set hlt, ho]
  simp [ho']

theorem mem_set {α} {xs : List α} {k : Nat} {v x : α} (h : x ∈ xs.set k v) : x = v ∨ x ∈ xs := by
  rcases List.mem_or_eq_of_mem_set h with h | h
  · exact Or.inr h
  · exact Or.inl h

theorem typed_set {t : PType} {xs : List Val} {k : Nat} {v : Val} (h : Typed t xs) (hv : v ≠ .nil)
    (hn : nextType t v ≠ .obj) : Typed (nextType t v) (xs.set k v) := by
  intro x hx
  rcases mem_set hx with rfl | hx
  · right
    cases x <;> cases t <;> simp_all [nextType, Spec.isInt, Spec.isDbl, Spec.isBool]
  · rcases h x hx with h | h
    · exact Or.inl h
    · right
      cases v <;> cases t <;> simp_all [nextType]

theorem typed_set_nil {t : PType} {xs : List Val} {k : Nat} (h : Typed t xs) : Typed t (xs.set k .nil) := by
  intro x hx
  rcases mem_set hx with rfl | hx
  · exact Or.inl rfl
  · exact h x hx

/-- What a storage update turns storage `s` into. -/
def Upd.result (s : Store) : Upd → Store
  | .inPlace s' => s'
  | .fresh s' => s'
  | .unchanged => s

theorem nextType_ne_none (t : PType) (v : Val) : nextType t v ≠ .none := by
  cases v <;> cases t <;> simp [nextType]

theorem partSetIdx_spec {xs : List Val} {e : Int} {t : PType} (h : Inv (.part xs e t)) {i : Int} (hi : 1 ≤ i)
    {v : Val} (hv : v.isSom = true) :
    (i ≤ xs.length → ∃ u, partSetIdx xs e t (i - 1) v = .ok u ∧ Inv (u.result (.part xs e t)) ∧
        asArguments (u.result (.part xs e t)) = xs.set (i - 1).toNat v) ∧
    (¬ i ≤ xs.length → partSetIdx xs e t (i - 1) v = .error .index) := by
  obtain ⟨hne, hsom, hto, hcnt⟩ := h
  have h0 : 0 ≤ i - 1 := by omega
  unfold partSetIdx
  rw [pyIdx_nonneg h0]
  simp only [hv, Bool.not_true, Bool.false_eq_true, if_false]
  constructor
  · intro hl
    have hlt : (i-1).toNat < xs.length := by omega
    obtain ⟨k, hk⟩ : ∃ k, k = (i-1).toNat := ⟨_, rfl⟩
    rw [← hk] at hlt ⊢
    rw [if_pos hlt]
    have hget : xs[k]? = some xs[k] := by simp [hlt]
    simp only [hget]
    have hset_ne : ∀ w, xs.set k w ≠ [] := by
      intro w hw; have := congrArg List.length hw; simp at this; exact hne this
    have hset_som : ∀ w, w.isSom = true → ∀ x ∈ xs.set k w, x.isSom = true := by
      intro w hw x hx; rcases mem_set hx with rfl | hx
      · exact hw
      · exact hsom x hx
    by_cases hvn : v = .nil
    · subst hvn
      simp only [if_true]
      by_cases hold : xs[k] = .nil
      · simp only [hold, if_true]
        refine ⟨.unchanged, rfl, ⟨hne, hsom, hto, hcnt⟩, ?_⟩
        simp only [Upd.result, asArguments]
        rw [← hold]; exact (List.set_getElem_self hlt).symm
      · simp only [hold, if_false]
        refine ⟨_, rfl, ⟨hset_ne _, hset_som _ rfl, hto, ?_⟩, rfl⟩
        have := nils_set_nil hget hold
        rcases hcnt with ⟨he, hty⟩ | hgt
        · exact Or.inl ⟨by omega, typed_set_nil hty⟩
        · exact Or.inr (by omega)
    · simp only [hvn, if_false]
      have hnl := nils_set_le hget hvn
      have hgoal_typed : ∀ e' : Int, e' = (if xs[k] = .nil then e - 1 else e) →
          nextType t v ≠ .obj → (e' = nils (xs.set k v) ∧ Typed (nextType t v) (xs.set k v)) ∨ e' > nils (xs.set k v) := by
        intro e' he' hno
        rcases hcnt with ⟨he, hty⟩ | hgt
        · left; refine ⟨?_, typed_set hty hvn hno⟩
          split at he' <;> simp_all
        · right
          split at he' <;> simp_all <;> omega
      obtain ⟨e', he'⟩ : ∃ e', e' = (if xs[k] = .nil then e - 1 else e) := ⟨_, rfl⟩
      rw [← he']
      have hT := hgoal_typed e' he'
      by_cases hcond : nextType t v = .obj ∨ e' = 0
      · rw [if_pos hcond]
        have hw : nextType t v = .obj ∨ (Typed (nextType t v) (xs.set k v) ∧ nils (xs.set k v) = 0) := by
          by_cases ho : nextType t v = .obj
          · exact Or.inl ho
          · right
            have he0 : e' = 0 := hcond.resolve_left ho
            rcases hT ho with ⟨he, hty⟩ | hgt
            · exact ⟨hty, by omega⟩
            · omega
        obtain ⟨s, hs, hinv, habs⟩ := withValuesOfType_spec (hset_ne v) (hset_som v hv) hw
        exact ⟨.fresh s, by rw [hs]; rfl, hinv, habs⟩
      · rw [if_neg hcond]
        have hno : nextType t v ≠ .obj := fun h => hcond (Or.inl h)
        exact ⟨_, rfl, ⟨hset_ne _, hset_som _ hv, hno, hT hno⟩, rfl⟩
  · intro hl
    have hlt : ¬ (i-1).toNat < xs.length := by omega
    rw [if_neg hlt]

theorem nils_replicate (n : Nat) : nils (List.replicate n Val.nil) = n := by
  simp [nils]

/-- A store into a well-formed array: the right slot changes, or the index is rejected, or the code refuses. -/
theorem setIdx_spec {s : Store} (h : Inv s) {i : Int} (hi : 1 ≤ i) {v : Val} (hv : v.isSom = true) :
    (setIdx s (i - 1) v = .error .assertion ∧ Spec.RefusedStore (asArguments s) v) ∨
    (i ≤ (asArguments s).length ∧ ∃ u, setIdx s (i - 1) v = .ok u ∧ Inv (u.result s) ∧
        asArguments (u.result s) = (asArguments s).set (i - 1).toNat v) ∨
    (¬ i ≤ (asArguments s).length ∧ setIdx s (i - 1) v = .error .index) := by
  have h0 : 0 ≤ i - 1 := by omega
  cases s with
  | obj xs =>
    right
    simp only [setIdx, asArguments, listSet_nonneg _ h0]
    by_cases hl : i ≤ xs.length
    · left; refine ⟨hl, _, by rw [if_pos (by omega)]; rfl, ?_, rfl⟩
      intro x hx; rcases mem_set hx with rfl | hx
      · exact hv
      · exact h x hx
    · right; exact ⟨hl, by rw [if_neg (by omega)]; rfl⟩
  | long xs =>
    right
    simp only [asArguments, List.length_map]
    by_cases hl : i ≤ xs.length
    · left; refine ⟨hl, ?_⟩
      have hlt : (i-1).toNat < xs.length := by omega
      cases v with
      | int z =>
        refine ⟨.inPlace (.long (xs.set (i-1).toNat z)), by simp only [setIdx, listSet_nonneg _ h0, if_pos hlt]; rfl, ?_, ?_⟩
        · trivial
        · simp [Upd.result, asArguments, List.map_set]
      | _ =>
        refine ⟨.fresh (.obj ((xs.map Val.int).set (i-1).toNat _)), by
          simp only [setIdx, listSet_nonneg _ h0, List.length_map, if_pos hlt]; rfl, ?_, rfl⟩
        intro x hx; rcases mem_set hx with rfl | hx
        · exact hv
        · simp at hx; obtain ⟨z, _, rfl⟩ := hx; rfl
    · right; refine ⟨hl, ?_⟩
      have hlt : ¬ (i-1).toNat < xs.length := by omega
      cases v <;> simp only [setIdx, listSet_nonneg _ h0, List.length_map, if_neg hlt] <;> rfl
  | double xs =>
    simp only [asArguments, List.length_map]
    cases v with
    | dbl d =>
      right
      by_cases hl : i ≤ xs.length
      · left; refine ⟨hl, .inPlace (.double (xs.set (i-1).toNat (.float d))), ?_, ?_, ?_⟩
        · have hlt : (i-1).toNat < xs.length := by omega
          simp only [setIdx, listSet_nonneg _ h0, if_pos hlt]; rfl
        · intro c hc; rcases mem_set hc with rfl | hc
          · exact ⟨d, rfl⟩
          · exact h c hc
        · simp [Upd.result, asArguments, List.map_set, DCell.toVal]
      · right; refine ⟨hl, ?_⟩
        have hlt : ¬ (i-1).toNat < xs.length := by omega
        simp only [setIdx, listSet_nonneg _ h0, if_neg hlt]; rfl
    | _ =>
      left
      refine ⟨rfl, Or.inl ⟨?_, by simp [Spec.isDbl]⟩⟩
      simp only [List.all_map, List.all_eq_true, Function.comp]
      intro c hc
      obtain ⟨d, rfl⟩ := h c hc
      rfl
  | bool xs =>
    simp only [asArguments, List.length_map]
    cases v with
    | bool b =>
      right
      by_cases hl : i ≤ xs.length
      · left; refine ⟨hl, .inPlace (.bool (xs.set (i-1).toNat b)), ?_, ?_, ?_⟩
        · have hlt : (i-1).toNat < xs.length := by omega
          simp only [setIdx, listSet_nonneg _ h0, if_pos hlt]; rfl
        · trivial
        · simp [Upd.result, asArguments, List.map_set, ofBool]
      · right; refine ⟨hl, ?_⟩
        have hlt : ¬ (i-1).toNat < xs.length := by omega
        simp only [setIdx, listSet_nonneg _ h0, if_neg hlt]; rfl
    | _ =>
      left
      refine ⟨rfl, Or.inr ⟨?_, by simp [Spec.isBool]⟩⟩
      simp [List.all_map, ofBool, Spec.isBool]
  | empty n =>
    right
    simp only [Inv] at h
    simp only [asArguments, pyRep, List.length_replicate]
    by_cases hl : i ≤ n.toNat
    · left; refine ⟨hl, ?_⟩
      have hin : 0 ≤ i - 1 ∧ i - 1 < n := by omega
      by_cases hvn : v = .nil
      · subst hvn
        refine ⟨.unchanged, by simp only [setIdx, if_pos hin, if_true], h, ?_⟩
        simp [Upd.result, asArguments, pyRep, List.set_replicate_self]
      · obtain ⟨m, hm⟩ : ∃ m, n.toNat = m + 1 := ⟨n.toNat - 1, by omega⟩
        have hInvP : Inv (.part (List.replicate n.toNat Val.nil) n.toNat .none) := by
          refine ⟨by simp [hm], by simp [Val.isSom], by simp, Or.inl ⟨by simp [nils_replicate], ?_⟩⟩
          intro x hx; left; exact (List.mem_replicate.1 hx).2
        have hpf : partFromObjValues (pyRep n Val.nil) =
            .ok (.part (List.replicate n.toNat Val.nil) n.toNat .none) := by
          simp only [pyRep, hm, List.replicate_succ, partFromObjValues, Val.isSom, if_true]
          simp
        obtain ⟨u, hu, hinv, habs⟩ := (partSetIdx_spec hInvP hi hv).1 (by simpa using hl)
        simp only [setIdx, if_pos hin, hvn, if_false, hv, Bool.not_true, Bool.false_eq_true, hpf, hu]
        cases u with
        | inPlace s' => exact ⟨.fresh s', rfl, hinv, habs⟩
        | fresh s' => exact ⟨.fresh s', rfl, hinv, habs⟩
        | unchanged => exact ⟨.fresh _, rfl, hinv, habs⟩
    · right; refine ⟨hl, ?_⟩
      have : ¬ (0 ≤ i - 1 ∧ i - 1 < n) := by omega
      simp only [setIdx, if_neg this]
  | part xs e t =>
    right
    have := partSetIdx_spec h hi hv
    by_cases hl : i ≤ xs.length
    · exact Or.inl ⟨hl, this.1 hl⟩
    · exact Or.inr ⟨hl, this.2 hl⟩

theorem setAllWithValue_spec {v : Val} (hv : v.isSom = true) (n : Nat) :
    Inv (setAllWithValue v n) ∧ asArguments (setAllWithValue v n) = List.replicate n v := by
  cases v <;> simp_all [setAllWithValue, Inv, asArguments, pyRep, DCell.toVal, ofBool, Val.isSom]

theorem replicate_zero_of {xs : List Val} (h : xs.length = 0) (v : Val) : xs = List.replicate xs.length v := by
  rw [h]; simpa using h

theorem setAll_spec {s : Store} (h : Inv s) {v : Val} (hv : v.isSom = true) :
    ∃ u, setAll s v = .ok u ∧ Inv (u.result s) ∧
      asArguments (u.result s) = List.replicate (asArguments s).length v := by
  have main : ∀ n : Nat, ∃ u, (Except.ok (.fresh (setAllWithValue v n)) : Except Err Upd) = .ok u ∧ Inv (u.result s) ∧
      asArguments (u.result s) = List.replicate n v := by
    intro n
    have := setAllWithValue_spec hv n
    exact ⟨_, rfl, this.1, this.2⟩
  cases s with
  | empty n =>
    simp only [Inv] at h
    simp only [setAll, asArguments, pyRep, List.length_replicate]
    by_cases hvn : v = .nil
    · subst hvn; exact ⟨.unchanged, by simp, h, rfl⟩
    · by_cases hn : 0 < n
      · simp only [hvn, hn, if_true, if_false]
        obtain ⟨u, hu, h1, h2⟩ := main n.toNat
        refine ⟨u, ?_, h1, h2⟩
        rw [← hu]; congr 3; omega
      · have : n = 0 := by omega
        subst this
        exact ⟨.unchanged, by simp [hvn], h, rfl⟩
  | obj xs =>
    simp only [setAll, hv, if_true]
    exact main xs.length
  | part xs e t =>
    simp only [setAll, hv, if_true]
    exact main xs.length
  | long xs =>
    simp only [setAll, asArguments, List.length_map]
    exact main xs.length
  | double xs =>
    simp only [setAll, asArguments, List.length_map]
    exact main xs.length
  | bool xs =>
    simp only [setAll, asArguments, List.length_map]
    exact main xs.length

theorem copy_spec {s : Store} (h : Inv s) :
    (copy s = .ok .shared ∧ ∃ n, s = .empty n) ∨
    ∃ s', copy s = .ok (.fresh s') ∧ Inv s' ∧ asArguments s' = asArguments s := by
  cases s with
  | empty n => exact Or.inl ⟨rfl, n, rfl⟩
  | part xs e t =>
    right
    obtain ⟨hne, hsom, hto, _⟩ := h
    cases xs with
    | nil => exact absurd rfl hne
    | cons x xs =>
      have hx := hsom x List.mem_cons_self
      refine ⟨.part (x :: xs) (x :: xs).length .none, by simp only [copy, partFromObjValues, hx, if_true]; rfl, ?_, rfl⟩
      refine ⟨hne, hsom, by simp, ?_⟩
      by_cases hn : nils (x :: xs) = (x :: xs).length
      · left
        refine ⟨by omega, ?_⟩
        intro y hy
        left
        have := List.count_eq_length.1 hn y hy
        exact this.symm
      · right
        have : nils (x :: xs) ≤ (x :: xs).length := List.count_le_length
        omega
  | _ => exact Or.inr ⟨_, rfl, h, rfl⟩

theorem extend_spec {s : Store} (h : Inv s) {v : Val} (hv : v.isSom = true) :
    (extend s v = .error .assertion ∧
      (Spec.RefusedStore (asArguments s) v ∨ ((asArguments s).all Spec.isInt ∧ ¬ Spec.isInt v))) ∨
    ∃ s', extend s v = .ok s' ∧ Inv s' ∧ asArguments s' = asArguments s ++ [v] ∧ asArguments s' ≠ [] := by
  cases s with
  | obj xs =>
    right; refine ⟨_, rfl, ?_, rfl, by simp [asArguments]⟩
    intro x hx; simp at hx; rcases hx with hx | rfl
    · exact h x hx
    · exact hv
  | long xs =>
    cases v with
    | int z => right; exact ⟨_, rfl, by simp [Inv], by simp [asArguments], by simp [asArguments]⟩
    | _ =>
      left; refine ⟨rfl, Or.inr ⟨?_, by simp [Spec.isInt]⟩⟩
      simp [asArguments, Spec.isInt]
  | double xs =>
    cases v with
    | dbl d =>
      right; refine ⟨_, rfl, ?_, by simp [asArguments, DCell.toVal], by simp [asArguments]⟩
      intro c hc; simp at hc; rcases hc with hc | rfl
      · exact h c hc
      · exact ⟨d, rfl⟩
    | _ =>
      left; refine ⟨rfl, Or.inl (Or.inl ⟨?_, by simp [Spec.isDbl]⟩)⟩
      simp only [asArguments, List.all_map, List.all_eq_true, Function.comp]
      intro c hc
      obtain ⟨d, rfl⟩ := h c hc
      rfl
  | bool xs =>
    cases v with
    | bool b => right; exact ⟨_, rfl, by simp [Inv], by simp [asArguments, ofBool], by simp [asArguments]⟩
    | _ =>
      left; refine ⟨rfl, Or.inl (Or.inr ⟨?_, by simp [Spec.isBool]⟩)⟩
      simp [asArguments, ofBool, Spec.isBool]
  | empty n =>
    right
    simp only [Inv] at h
    obtain ⟨m, rfl⟩ : ∃ m : Nat, n = m := ⟨n.toNat, by omega⟩
    by_cases hvn : v = .nil
    · subst hvn
      refine ⟨.empty (m + 1), by simp [extend], by simp [Inv]; omega, ?_, ?_⟩
      · simp [asArguments, pyRep, List.replicate_succ', show ((m:Int)+1).toNat = m+1 by omega]
      · simp [asArguments, pyRep, show ((m:Int)+1).toNat = m+1 by omega]
    · have hrep : pyRep ((m:Int)+1) Val.nil = List.replicate (m+1) Val.nil := by
        simp [pyRep, show ((m:Int)+1).toNat = m+1 by omega]
      have hset : listSet (List.replicate (m+1) Val.nil) (-1) v = .ok ((List.replicate (m+1) Val.nil).set m v) := by
        simp only [listSet, pyIdx, List.length_replicate]
        rw [if_neg (by omega), if_pos (by omega)]
        simp only [show (((m+1 : Nat) : Int) + -1).toNat = m by omega]
      refine ⟨.obj ((List.replicate (m+1) Val.nil).set m v), by simp [extend, hvn, hrep, hset], ?_, ?_, ?_⟩
      · intro x hx; rcases mem_set hx with rfl | hx
        · exact hv
        · rw [(List.mem_replicate.1 hx).2]; rfl
      · simp only [asArguments, pyRep, Int.toNat_natCast]
        rw [List.replicate_succ', List.set_append_right _ _ (by simp)]
        simp
      · intro hc; have := congrArg List.length hc; simp [asArguments] at this
  | part xs e t =>
    right
    obtain ⟨hne, hsom, hto, hcnt⟩ := h
    have hn1 : nils (xs ++ [.nil]) = nils xs + 1 := by simp [nils]
    have hInv : Inv (.part (xs ++ [.nil]) (e+1) t) := by
      refine ⟨by simp, ?_, hto, ?_⟩
      · intro x hx; simp at hx; rcases hx with hx | rfl
        · exact hsom x hx
        · rfl
      · rcases hcnt with ⟨he, hty⟩ | hgt
        · left; refine ⟨by omega, ?_⟩
          intro x hx; simp at hx; rcases hx with hx | rfl
          · exact hty x hx
          · exact Or.inl rfl
        · right; omega
    have hps := (partSetIdx_spec hInv (i := (xs.length : Int) + 1) (by omega) hv).1 (by simp)
    obtain ⟨u, hu, hinv, habs⟩ := hps
    have hidx : ((xs.length : Int) + 1 - 1) = xs.length := by omega
    rw [hidx] at hu habs
    have hres : (xs ++ [Val.nil]).set ((xs.length : Int).toNat) v = xs ++ [v] := by
      rw [List.set_append_right _ _ (by simp)]; simp
    rw [hres] at habs
    refine ⟨u.result (.part (xs ++ [.nil]) (e+1) t), ?_, hinv, habs, by rw [habs]; simp⟩
    simp only [extend, setIdx, hu]
    cases u <;> rfl

end PySOM.Arr

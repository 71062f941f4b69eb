import Verif.Model.Object
/-!
# Lemmas about object storage
-/
set_option autoImplicit false
namespace PySOM.Obj

/-! ## Bit map -/

theorem testBit_mask (k j : Nat) : (1 <<< k).testBit j = decide (k = j) := by
  rw [Nat.one_shiftLeft, Nat.testBit_two_pow]

theorem land_mask_eq_zero (u k : Nat) : u &&& (1 <<< k) = 0 ↔ u.testBit k = false := by
  constructor
  · intro h
    have := congrArg (fun n => n.testBit k) h
    simpa [Nat.testBit_and, testBit_mask] using this
  · intro h
    apply Nat.eq_of_testBit_eq
    intro j
    rw [Nat.testBit_and, testBit_mask, Nat.zero_testBit]
    by_cases hj : k = j
    · subst hj; simp [h]
    · simp [hj]

theorem isSet_mask (o : Object) (k : Nat) (hk : k < 32) : isSet o (mask k) = o.used.testBit k := by
  simp only [isSet, mask, hk, if_true]
  cases hb : o.used.testBit k
  · simp [(land_mask_eq_zero _ _).2 hb]
  · have : o.used &&& 1 <<< k ≠ 0 := fun h => by rw [(land_mask_eq_zero _ _).1 h] at hb; cases hb
    simp [this]

theorem markSet_bit (o : Object) (k j : Nat) (hk : k < 32) :
    (markSet o (mask k)).used.testBit j = (decide (k = j) || o.used.testBit j) := by
  simp only [markSet, mask, hk, if_true]
  split
  · simp only [Nat.testBit_or, testBit_mask, Bool.or_comm]
  · rename_i h
    have hb : o.used.testBit k = true := by
      cases hb : o.used.testBit k
      · exact absurd ((land_mask_eq_zero _ _).2 hb) h
      · rfl
    by_cases hj : k = j
    · subst hj; simp [hb]
    · simp [hj]

theorem markUnset_bit (o : Object) (k j : Nat) (hk : k < 32) :
    (markUnset o (mask k)).used.testBit j = (!decide (k = j) && o.used.testBit j) := by
  simp only [markUnset, mask, hk, if_true]
  split
  · simp only [Nat.testBit_xor, Nat.testBit_and, testBit_mask]
    by_cases hj : k = j
    · simp [hj]
    · simp [hj]
  · rename_i h
    have hb : o.used.testBit k = false := (land_mask_eq_zero _ _).1 (by simpa using h)
    by_cases hj : k = j
    · subst hj; simp [hb]
    · simp [hj]

/-! ## Slot numbers -/

theorem countP_take_lt {p : Ty → Bool} {L : Layout} {i : Nat} {t : Ty} (hi : L[i]? = some t) (hp : p t = true) :
    (L.take i).countP p < L.countP p := by
  have hlt : i < L.length := by
    by_cases h : i < L.length
    · exact h
    · rw [List.getElem?_eq_none (by omega)] at hi; cases hi
  have e : L.countP p = (L.take i).countP p + (L.drop i).countP p := by
    rw [← List.countP_append, List.take_append_drop]
  have ht : L[i] = t := by rw [List.getElem?_eq_getElem hlt] at hi; exact Option.some.inj hi
  rw [e, List.drop_eq_getElem_cons hlt, List.countP_cons, ht]
  simp [hp]

theorem countP_take_ne {p : Ty → Bool} {L : Layout} {i j : Nat} {t u : Ty} (hij : i ≠ j) (hi : L[i]? = some t) (hj : L[j]? = some u)
    (hp : p t = true) (hq : p u = true) : (L.take i).countP p ≠ (L.take j).countP p := by
  have mono : ∀ {a b : Nat} {t : Ty}, a < b → L[a]? = some t → p t = true → (L.take a).countP p < (L.take b).countP p := by
    intro a b t hab ha hp
    have h1 : (L.take b)[a]? = some t := by rw [List.getElem?_take, if_pos hab, ha]
    have := countP_take_lt h1 hp
    rwa [List.take_take, Nat.min_eq_left (Nat.le_of_lt hab)] at this
  rcases Nat.lt_or_gt_of_ne hij with h | h
  · exact Nat.ne_of_lt (mono h hi hp)
  · exact Nat.ne_of_gt (mono h hj hq)

theorem primIdx_lt {L : Layout} {i : Nat} {t : Ty} (hi : L[i]? = some t) (hp : t.isPrim = true) : primIdx L i < primUsed L :=
  countP_take_lt hi hp
theorem ptrIdx_lt {L : Layout} {i : Nat} (hi : L[i]? = some .obj) : ptrIdx L i < ptrUsed L :=
  countP_take_lt hi rfl
theorem primIdx_lt_32 {L : Layout} {i : Nat} {t : Ty} (hn : L.length ≤ 32) (hi : L[i]? = some t) (hp : t.isPrim = true) :
    primIdx L i < 32 :=
  Nat.lt_of_lt_of_le (primIdx_lt hi hp) (Nat.le_trans List.countP_le_length hn)

/-! ## Well-formed objects -/

/-- The parts of an object have the sizes its layout asks for. -/
structure WF (o : Object) : Prop where
  ptr : o.ptr.length = nPtr
  prim : o.prim.length = nPrim
  primExt : o.primExt.length = primUsed o.layout - nPrim
  ptrExt : (ptrUsed o.layout ≤ nPtr ∧ o.ptrExt = none) ∨
    (nPtr < ptrUsed o.layout ∧ ∃ ext, o.ptrExt = some ext ∧ ext.length = ptrUsed o.layout - nPtr)

theorem alloc_wf (L : Layout) (ps : List Val) (ws : List Int) (u : Nat) (h1 : ps.length = nPtr) (h2 : ws.length = nPrim) :
    WF ⟨L, ps, ws, allocPtrExt L, allocPrimExt L, u⟩ := by
  refine ⟨h1, h2, by simp [allocPrimExt], ?_⟩
  simp only [allocPtrExt]
  by_cases h : ptrUsed L - nPtr > 0
  · right; rw [if_pos h]; exact ⟨by omega, _, rfl, by simp⟩
  · left; rw [if_neg h]; exact ⟨by omega, rfl⟩

theorem getPtr_ok {o : Object} (h : WF o) {k : Nat} (hk : k < ptrUsed o.layout) : ∃ v, getPtr o k = .ok v := by
  simp only [getPtr]
  by_cases hc : k < nPtr
  · rw [if_pos hc, List.getElem?_eq_getElem (by rw [h.ptr]; exact hc)]; exact ⟨_, rfl⟩
  · rw [if_neg hc]
    rcases h.ptrExt with ⟨h1, _⟩ | ⟨h1, ext, h2, h3⟩
    · omega
    · rw [h2]; simp only
      rw [List.getElem?_eq_getElem (by omega)]; exact ⟨_, rfl⟩

theorem getPrim_ok {o : Object} (h : WF o) {k : Nat} (hk : k < primUsed o.layout) : ∃ w, getPrim o k = .ok w := by
  simp only [getPrim]
  by_cases hc : k < nPrim
  · rw [if_pos hc, List.getElem?_eq_getElem (by rw [h.prim]; exact hc)]; exact ⟨_, rfl⟩
  · rw [if_neg hc, List.getElem?_eq_getElem (by rw [h.primExt]; omega)]; exact ⟨_, rfl⟩

theorem setPtr_ok {o : Object} (h : WF o) {k : Nat} (hk : k < ptrUsed o.layout) (v : Val) :
    ∃ o', setPtr o k v = .ok o' ∧ WF o' ∧ o'.layout = o.layout ∧ o'.used = o.used ∧ o'.prim = o.prim ∧ o'.primExt = o.primExt ∧
      getPtr o' k = .ok v ∧ ∀ j, j ≠ k → getPtr o' j = getPtr o j := by
  simp only [setPtr]
  by_cases hc : k < nPtr
  · rw [if_pos hc]
    refine ⟨_, rfl, ⟨by simp [h.ptr], h.prim, h.primExt, h.ptrExt⟩, rfl, rfl, rfl, rfl, ?_, ?_⟩
    · have : k < o.ptr.length := by rw [h.ptr]; exact hc
      simp [getPtr, hc, this]
    · intro j hj
      simp only [getPtr]
      rw [List.getElem?_set_ne (Ne.symm hj)]
  · rw [if_neg hc]
    rcases h.ptrExt with ⟨h1, _⟩ | ⟨h1, ext, h2, h3⟩
    · omega
    · have hlt : k - nPtr < ext.length := by omega
      rw [h2]; simp only [hlt, if_true]
      refine ⟨_, rfl, ⟨h.ptr, h.prim, h.primExt, .inr ⟨h1, _, rfl, by simpa using h3⟩⟩, rfl, rfl, rfl, rfl, ?_, ?_⟩
      · simp [getPtr, hc, hlt]
      · intro j hj
        simp only [getPtr, h2]
        by_cases hjc : j < nPtr
        · simp only [hjc, if_true]
        · simp only [hjc, if_false]
          rw [List.getElem?_set_ne (by omega)]

theorem setPrim_ok {o : Object} (h : WF o) {k : Nat} (hk : k < primUsed o.layout) (w : Int) :
    ∃ o', setPrim o k w = .ok o' ∧ WF o' ∧ o'.layout = o.layout ∧ o'.used = o.used ∧ o'.ptr = o.ptr ∧ o'.ptrExt = o.ptrExt ∧
      getPrim o' k = .ok w ∧ ∀ j, j ≠ k → getPrim o' j = getPrim o j := by
  simp only [setPrim]
  by_cases hc : k < nPrim
  · rw [if_pos hc]
    refine ⟨_, rfl, ⟨h.ptr, by simp [h.prim], h.primExt, h.ptrExt⟩, rfl, rfl, rfl, rfl, ?_, ?_⟩
    · have : k < o.prim.length := by rw [h.prim]; exact hc
      simp [getPrim, hc, this]
    · intro j hj
      simp only [getPrim]
      rw [List.getElem?_set_ne (Ne.symm hj)]
  · rw [if_neg hc]
    have hlt : k - nPrim < o.primExt.length := by rw [h.primExt]; omega
    rw [if_pos hlt]
    refine ⟨_, rfl, ⟨h.ptr, h.prim, by simpa using h.primExt, h.ptrExt⟩, rfl, rfl, rfl, rfl, ?_, ?_⟩
    · simp [getPrim, hc, hlt]
    · intro j hj
      simp only [getPrim]
      by_cases hjc : j < nPrim
      · simp only [hjc, if_true]
      · simp only [hjc, if_false]
        rw [List.getElem?_set_ne (by omega)]

/-- Values that a location of the type accepts without a layout change. -/
def Compat : Ty → Val → Prop
  | .unwritten, v => v = .nil
  | .obj, _ => True
  | .int, v => v = .nil ∨ ∃ i, v = .int i
  | .dbl, v => v = .nil ∨ ∃ d, v = .dbl d

/-- `Le t u`: `t` can become `u`. -/
def Le : Ty → Ty → Prop
  | .unwritten, _ => True
  | .int, u => u = .int ∨ u = .obj
  | .dbl, u => u = .dbl ∨ u = .obj
  | .obj, u => u = .obj

theorem Le.refl (t : Ty) : Le t t := by cases t <;> simp [Le]
theorem Le.trans {a b c : Ty} (h1 : Le a b) (h2 : Le b c) : Le a c := by
  cases a <;> cases b <;> simp_all [Le]
theorem Compat.mono {t u : Ty} {v : Val} (h : Le t u) (hc : Compat t v) : Compat u v := by
  cases t <;> cases u <;> simp_all [Le, Compat]

/-- Every read succeeds with a value fitting the location. -/
theorem readLoc_ok {o : Object} (h : WF o) {i : Nat} {t : Ty} (hi : o.layout[i]? = some t) :
    ∃ v, readLoc o i = .ok v ∧ Compat t v := by
  simp only [readLoc, hi]
  cases t with
  | unwritten => exact ⟨_, rfl, rfl⟩
  | obj => obtain ⟨v, hv⟩ := getPtr_ok h (ptrIdx_lt hi); exact ⟨v, hv, trivial⟩
  | int =>
    simp only
    split
    · obtain ⟨w, hw⟩ := getPrim_ok h (primIdx_lt hi rfl)
      rw [hw]; exact ⟨_, rfl, .inr ⟨w, rfl⟩⟩
    · exact ⟨_, rfl, .inl rfl⟩
  | dbl =>
    simp only
    split
    · obtain ⟨w, hw⟩ := getPrim_ok h (primIdx_lt hi rfl)
      rw [hw]; exact ⟨_, rfl, .inr ⟨_, rfl⟩⟩
    · exact ⟨_, rfl, .inl rfl⟩

theorem markSet_fields (o : Object) (m : Nat) : (markSet o m).layout = o.layout ∧ (markSet o m).ptr = o.ptr ∧
    (markSet o m).prim = o.prim ∧ (markSet o m).ptrExt = o.ptrExt ∧ (markSet o m).primExt = o.primExt := by
  simp only [markSet]; split <;> exact ⟨rfl, rfl, rfl, rfl, rfl⟩
theorem markUnset_fields (o : Object) (m : Nat) : (markUnset o m).layout = o.layout ∧ (markUnset o m).ptr = o.ptr ∧
    (markUnset o m).prim = o.prim ∧ (markUnset o m).ptrExt = o.ptrExt ∧ (markUnset o m).primExt = o.primExt := by
  simp only [markUnset]; split <;> exact ⟨rfl, rfl, rfl, rfl, rfl⟩

/-- Reading a field depends only on the slot of that field. -/
theorem readLoc_congr {o o' : Object} (hl : o'.layout = o.layout) (hn : o.layout.length ≤ 32) {j : Nat}
    (hptr : o.layout[j]? = some .obj → getPtr o' (ptrIdx o.layout j) = getPtr o (ptrIdx o.layout j))
    (hprim : ∀ t, o.layout[j]? = some t → t.isPrim = true →
      getPrim o' (primIdx o.layout j) = getPrim o (primIdx o.layout j) ∧
      o'.used.testBit (primIdx o.layout j) = o.used.testBit (primIdx o.layout j)) :
    readLoc o' j = readLoc o j := by
  simp only [readLoc, hl]
  cases hj : o.layout[j]? with
  | none => rfl
  | some t =>
    cases t with
    | unwritten => rfl
    | obj => exact hptr hj
    | int =>
      obtain ⟨h1, h2⟩ := hprim _ hj rfl
      have h32 := primIdx_lt_32 hn hj rfl
      simp only [isSet_mask _ _ h32, h1, h2]
    | dbl =>
      obtain ⟨h1, h2⟩ := hprim _ hj rfl
      have h32 := primIdx_lt_32 hn hj rfl
      simp only [isSet_mask _ _ h32, h1, h2]

/-- A primitive store through `setPrim` and `markSet`. -/
theorem prim_store {o : Object} (h : WF o) (hn : o.layout.length ≤ 32) {i : Nat} {t : Ty} (hi : o.layout[i]? = some t)
    (hp : t.isPrim = true) (w : Int) :
    ∃ o', (setPrim o (primIdx o.layout i) w).map (fun o' => markSet o' (mask (primIdx o.layout i))) = .ok o' ∧ WF o' ∧
      o'.layout = o.layout ∧ getPrim o' (primIdx o.layout i) = .ok w ∧ o'.used.testBit (primIdx o.layout i) = true ∧
      ∀ j, j ≠ i → readLoc o' j = readLoc o j := by
  have h32 := primIdx_lt_32 hn hi hp
  obtain ⟨o1, e1, w1, l1, u1, p1, p2, g1, g2⟩ := setPrim_ok h (primIdx_lt hi hp) w
  obtain ⟨m1, m2, m3, m4, m5⟩ := markSet_fields o1 (mask (primIdx o.layout i))
  have gp : ∀ k, getPrim (markSet o1 (mask (primIdx o.layout i))) k = getPrim o1 k := by
    intro k; simp only [getPrim, m3, m5]
  have gq : ∀ k, getPtr (markSet o1 (mask (primIdx o.layout i))) k = getPtr o k := by
    intro k; simp only [getPtr, m2, m4, p1, p2]
  refine ⟨markSet o1 (mask (primIdx o.layout i)), by rw [e1]; rfl, ?_, by rw [m1, l1], by rw [gp, g1], by rw [markSet_bit _ _ _ h32]; simp, ?_⟩
  · exact ⟨by rw [m2]; exact w1.ptr, by rw [m3]; exact w1.prim, by rw [m5, m1]; exact w1.primExt, by rw [m4, m1]; exact w1.ptrExt⟩
  · intro j hj
    apply readLoc_congr (by rw [m1, l1]) hn
    · intro _; exact gq _
    · intro u hu hup
      have hne := countP_take_ne hj hu hi hup hp
      refine ⟨by rw [gp]; exact g2 _ hne, ?_⟩
      rw [markSet_bit _ _ _ h32, u1]
      have : primIdx o.layout i ≠ primIdx o.layout j := Ne.symm hne
      simp [this]

/-- Marking a primitive field unset. -/
theorem prim_unset {o : Object} (h : WF o) (hn : o.layout.length ≤ 32) {i : Nat} {t : Ty} (hi : o.layout[i]? = some t)
    (hp : t.isPrim = true) :
    WF (markUnset o (mask (primIdx o.layout i))) ∧ (markUnset o (mask (primIdx o.layout i))).layout = o.layout ∧
      (markUnset o (mask (primIdx o.layout i))).used.testBit (primIdx o.layout i) = false ∧
      ∀ j, j ≠ i → readLoc (markUnset o (mask (primIdx o.layout i))) j = readLoc o j := by
  have h32 := primIdx_lt_32 hn hi hp
  obtain ⟨m1, m2, m3, m4, m5⟩ := markUnset_fields o (mask (primIdx o.layout i))
  refine ⟨⟨by rw [m2]; exact h.ptr, by rw [m3]; exact h.prim, by rw [m5, m1]; exact h.primExt, by rw [m4, m1]; exact h.ptrExt⟩, m1,
    by rw [markUnset_bit _ _ _ h32]; simp, ?_⟩
  intro j hj
  apply readLoc_congr m1 hn
  · intro _; simp only [getPtr, m2, m4]
  · intro u hu hup
    have hne := countP_take_ne hj hu hi hup hp
    refine ⟨by simp only [getPrim, m3, m5], ?_⟩
    rw [markUnset_bit _ _ _ h32]
    have : primIdx o.layout i ≠ primIdx o.layout j := Ne.symm hne
    simp [this]

/-- A store that fits the location. -/
theorem writeLoc_compat {o : Object} (h : WF o) (hn : o.layout.length ≤ 32) {i : Nat} {t : Ty} {v : Val} (hi : o.layout[i]? = some t)
    (hc : Compat t v) :
    ∃ o', writeLoc o i v = .done o' ∧ WF o' ∧ o'.layout = o.layout ∧ readLoc o' i = .ok v ∧ ∀ j, j ≠ i → readLoc o' j = readLoc o j := by
  simp only [writeLoc, hi]
  cases t with
  | unwritten =>
    have hv : v = .nil := hc
    exact ⟨o, by simp [hv], h, rfl, by simp [readLoc, hi, hv], fun _ _ => rfl⟩
  | obj =>
    obtain ⟨o', e, w', l', u', p1, p2, g1, g2⟩ := setPtr_ok h (ptrIdx_lt hi) v
    refine ⟨o', by simp [e, Write.of], w', l', by simp only [readLoc, l', hi]; exact g1, ?_⟩
    intro j hj
    apply readLoc_congr l' hn
    · intro hjo; exact g2 _ (countP_take_ne hj hjo hi rfl rfl)
    · intro t _ _; exact ⟨by simp only [getPrim, p1, p2], by rw [u']⟩
  | int =>
    have h32 := primIdx_lt_32 hn hi rfl
    rcases hc with rfl | ⟨w, rfl⟩
    · obtain ⟨a, b, c, d⟩ := prim_unset h hn hi rfl
      refine ⟨_, by simp only [unsetOrGeneralize, if_true], a, b, ?_, d⟩
      simp only [readLoc, b, hi, isSet_mask _ _ h32, c]; rfl
    · obtain ⟨o', e, w', l', g1, g2, g3⟩ := prim_store h hn hi rfl w
      refine ⟨o', by simp only [e, Write.of], w', l', ?_, g3⟩
      simp only [readLoc, l', hi, isSet_mask _ _ h32, g1, g2]; rfl
  | dbl =>
    have h32 := primIdx_lt_32 hn hi rfl
    rcases hc with rfl | ⟨w, rfl⟩
    · obtain ⟨a, b, c, d⟩ := prim_unset h hn hi rfl
      refine ⟨_, by simp only [unsetOrGeneralize, if_true], a, b, ?_, d⟩
      simp only [readLoc, b, hi, isSet_mask _ _ h32, c]; rfl
    · obtain ⟨o', e, w', l', g1, g2, g3⟩ := prim_store h hn hi rfl (toWord w)
      refine ⟨o', by simp only [e, Write.of], w', l', ?_, g3⟩
      simp only [readLoc, l', hi, isSet_mask _ _ h32, g1, g2]; rfl

/-- A store that does not fit. -/
theorem writeLoc_incompat {o : Object} {i : Nat} {t : Ty} {v : Val} (hi : o.layout[i]? = some t) (hc : ¬ Compat t v) :
    (t = .unwritten ∧ v ≠ .nil ∧ writeLoc o i v = .uninitialized) ∨ (t.isPrim = true ∧ writeLoc o i v = .generalize) := by
  simp only [writeLoc, hi]
  cases t with
  | unwritten => left; have : v ≠ .nil := hc; exact ⟨rfl, this, by simp [this]⟩
  | obj => exact absurd trivial hc
  | int =>
    right
    cases v <;> simp_all [Compat, unsetOrGeneralize, Ty.isPrim]
  | dbl =>
    right
    cases v <;> simp_all [Compat, unsetOrGeneralize, Ty.isPrim]

/-! ## Transfer to another layout -/

/-- `K` generalises `L`. -/
def LLe (L K : Layout) : Prop := L.length = K.length ∧ ∀ (i : Nat) (t u : Ty), L[i]? = some t → K[i]? = some u → Le t u

theorem LLe.refl (L : Layout) : LLe L L := ⟨rfl, fun i t u h1 h2 => by rw [h1] at h2; cases h2; exact Le.refl t⟩

theorem get_of_lt {L : Layout} {i : Nat} (h : i < L.length) : ∃ t, L[i]? = some t := ⟨_, List.getElem?_eq_getElem h⟩

theorem LLe.trans {A B C : Layout} (h1 : LLe A B) (h2 : LLe B C) : LLe A C := by
  refine ⟨h1.1.trans h2.1, fun i t v ha hc => ?_⟩
  have hlt : i < A.length := by
    by_cases h : i < A.length
    · exact h
    · rw [List.getElem?_eq_none (by omega)] at ha; cases ha
  obtain ⟨u, hb⟩ := get_of_lt (show i < B.length by rw [← h1.1]; exact hlt)
  exact (h1.2 i t u ha hb).trans (h2.2 i u v hb hc)

theorem setFieldsFrom_spec (vs : List (Option Val)) : ∀ (o : Object) (i : Nat), WF o → o.layout.length ≤ 32 →
    i + vs.length = o.layout.length →
    (∀ (k : Nat) (v : Option Val) (t : Ty), vs[k]? = some v → o.layout[i + k]? = some t → Compat t (v.getD .nil)) →
    ∃ o', setFieldsFrom o i vs = .ok o' ∧ WF o' ∧ o'.layout = o.layout ∧
      (∀ j, j < i → readLoc o' j = readLoc o j) ∧
      (∀ (k : Nat) (v : Option Val), vs[k]? = some v → readLoc o' (i + k) = .ok (v.getD .nil)) := by
  induction vs with
  | nil => intro o i h hn hlen hc; exact ⟨o, rfl, h, rfl, fun _ _ => rfl, by simp⟩
  | cons v vs ih =>
    intro o i h hn hlen hc
    obtain ⟨t, ht⟩ := get_of_lt (show i < o.layout.length by simp at hlen; omega)
    obtain ⟨o1, e1, w1, l1, r1, r2⟩ := writeLoc_compat h hn ht (hc 0 v t rfl (by simpa using ht))
    obtain ⟨o2, e2, w2, l2, r3, r4⟩ := ih o1 (i + 1) w1 (by rw [l1]; exact hn) (by rw [l1]; simp at hlen; omega) (by
      intro k v' t' hk hl
      rw [l1, Nat.add_assoc, Nat.add_comm 1 k] at hl
      exact hc (k + 1) v' t' (by simpa using hk) hl)
    refine ⟨o2, by simp only [setFieldsFrom, e1, e2], w2, by rw [l2, l1], ?_, ?_⟩
    · intro j hj; rw [r3 j (by omega), r2 j (by omega)]
    · intro k v' hk
      cases k with
      | zero =>
        simp only [List.getElem?_cons_zero, Option.some.injEq] at hk; subst hk
        rw [Nat.add_zero, r3 i (by omega)]; exact r1
      | succ k =>
        rw [Nat.add_comm k 1, ← Nat.add_assoc]
        exact r4 k v' (by simpa using hk)

theorem mapM_ok {α β : Type} (f : α → Except Err β) (g : α → β) (xs : List α) (h : ∀ x ∈ xs, f x = .ok (g x)) :
    xs.mapM f = .ok (xs.map g) := by
  induction xs with
  | nil => rfl
  | cons x xs ih =>
    rw [List.mapM_cons, h x List.mem_cons_self, ih (fun y hy => h y (List.mem_cons_of_mem _ hy))]
    rfl

/-- The value of a field. -/
def fval (o : Object) (i : Nat) : Val := match readLoc o i with | .ok v => v | .error _ => .nil

theorem readLoc_fval {o : Object} (h : WF o) {i : Nat} (hi : i < o.layout.length) : readLoc o i = .ok (fval o i) := by
  obtain ⟨t, ht⟩ := get_of_lt hi
  obtain ⟨v, hv, _⟩ := readLoc_ok h ht
  simp [fval, hv]

theorem fval_compat {o : Object} (h : WF o) {i : Nat} {t : Ty} (ht : o.layout[i]? = some t) : Compat t (fval o i) := by
  obtain ⟨v, hv, hc⟩ := readLoc_ok h ht
  simp [fval, hv, hc]

/-- An unset field reads as nil. -/
theorem unset_nil {o : Object} {i : Nat} (h : isFieldSet o i = false) (hi : i < o.layout.length) : fval o i = .nil := by
  obtain ⟨t, ht⟩ := get_of_lt hi
  simp only [isFieldSet, ht] at h
  simp only [fval, readLoc, ht]
  cases t with
  | unwritten => rfl
  | obj => cases h
  | int => simp only at h; simp [h]
  | dbl => simp only at h; simp [h]

/-- Transferring an object to a more general layout keeps all its fields and never fails. -/
theorem transfer_spec {o : Object} (h : WF o) {K : Layout} (hn : K.length ≤ 32) (hle : LLe o.layout K) :
    ∃ o', transfer o K = .ok o' ∧ WF o' ∧ o'.layout = K ∧ ∀ j, j < K.length → fval o' j = fval o j := by
  have hall : getAllFields o = .ok ((List.range o.layout.length).map
      (fun i => if isFieldSet o i then some (fval o i) else none)) := by
    apply mapM_ok
    intro i hi
    rw [List.mem_range] at hi
    split
    · rw [readLoc_fval h hi]; rfl
    · rfl
  have hv : ∀ (k : Nat) (v : Option Val), ((List.range o.layout.length).map
      (fun i => if isFieldSet o i then some (fval o i) else none))[k]? = some v → k < o.layout.length ∧ v.getD .nil = fval o k := by
    intro k v hk
    rw [List.getElem?_map] at hk
    by_cases hlt : k < o.layout.length
    · rw [List.getElem?_range hlt] at hk
      simp only [Option.map_some, Option.some.injEq] at hk
      refine ⟨hlt, ?_⟩
      subst hk
      split
      · rfl
      · rename_i hs
        rw [unset_nil (by simpa using hs) hlt]; rfl
    · rw [List.getElem?_eq_none (by simpa using hlt)] at hk; cases hk
  obtain ⟨o', e1, e2, e3, _, e5⟩ := setFieldsFrom_spec ((List.range o.layout.length).map
      (fun i => if isFieldSet o i then some (fval o i) else none))
      ⟨K, List.replicate nPtr .nil, List.replicate nPrim 1234567890, allocPtrExt K, allocPrimExt K, 0⟩ 0
      (alloc_wf _ _ _ _ (by simp) (by simp)) hn (by simp [hle.1]) (by
        intro k v t hk ht
        obtain ⟨hlt, hval⟩ := hv k v hk
        rw [hval]
        rw [Nat.zero_add] at ht
        obtain ⟨s, hs⟩ := get_of_lt hlt
        exact (fval_compat h hs).mono (hle.2 k s t hs ht))
  refine ⟨o', by simp only [transfer, hall, bind, Except.bind]; exact e1, e2, e3, ?_⟩
  intro j hj
  have hj' : j < o.layout.length := by rw [hle.1]; exact hj
  have hk : ((List.range o.layout.length).map
      (fun i => if isFieldSet o i then some (fval o i) else none))[j]? =
      some (if isFieldSet o j then some (fval o j) else none) := by
    rw [List.getElem?_map, List.getElem?_range hj']; rfl
  have := e5 j _ hk
  rw [Nat.zero_add, (hv j _ hk).2] at this
  simp [fval, this]

/-! ## `set_field` -/

/-- The situation in which a store fails: the object's layout says the field was never written, but the class already
knows a type for it which differs from that of the value. -/
def Stuck (K : Layout) (o : Object) (i : Nat) (v : Val) : Prop :=
  o.layout[i]? = some .unwritten ∧ v ≠ .nil ∧ K[i]? ≠ some .unwritten ∧ K[i]? ≠ some (tyOf v)

theorem compat_tyOf {v : Val} : Compat (tyOf v) v := by cases v <;> simp [tyOf, Compat]

theorem set_lle {K : Layout} {i : Nat} {t u : Ty} (hi : K[i]? = some t) (h : Le t u) : LLe K (K.set i u) := by
  refine ⟨by simp, fun j a b ha hb => ?_⟩
  rw [List.getElem?_set] at hb
  by_cases hij : i = j
  · subst hij
    rw [hi] at ha; cases ha
    simp only [if_true] at hb
    split at hb
    · cases hb; exact h
    · cases hb
  · simp only [hij, if_false] at hb
    rw [ha] at hb; cases hb; exact Le.refl _

theorem setField_spec {K : Layout} {o : Object} (h : WF o) (hn : K.length ≤ 32) (hle : LLe o.layout K) {i : Nat} (hi : i < K.length)
    (v : Val) :
    (Stuck K o i v ∧ setField K o i v = .error .assertion) ∨
    (¬ Stuck K o i v ∧ ∃ K' o', setField K o i v = .ok (K', o') ∧ WF o' ∧ LLe K K' ∧ LLe o'.layout K' ∧ fval o' i = v ∧
      ∀ j, j < K.length → j ≠ i → fval o' j = fval o j) := by
  have hi' : i < o.layout.length := by rw [hle.1]; exact hi
  obtain ⟨t, ht⟩ := get_of_lt hi'
  obtain ⟨k, hk⟩ := get_of_lt hi
  have hn' : o.layout.length ≤ 32 := by rw [hle.1]; exact hn
  have htk := hle.2 i t k ht hk
  -- what happens after a layout change to `L`
  have after : ∀ L : Layout, LLe K L → (∃ u, L[i]? = some u ∧ Compat u v) → L ≠ o.layout →
      ∃ o1 o2, transfer o L = .ok o1 ∧ writeLoc o1 i v = .done o2 ∧ WF o2 ∧ LLe o2.layout L ∧ fval o2 i = v ∧
        ∀ j, j < K.length → j ≠ i → fval o2 j = fval o j := by
    intro L hL ⟨u, hu, hcu⟩ _
    obtain ⟨o1, e1, w1, l1, f1⟩ := transfer_spec h (by rw [← hL.1]; exact hn) (hle.trans hL)
    obtain ⟨o2, e2, w2, l2, r2, f2⟩ := writeLoc_compat (v := v) w1 (by rw [l1, ← hL.1]; exact hn) (by rw [l1]; exact hu) hcu
    refine ⟨o1, o2, e1, e2, w2, by rw [l2, l1]; exact LLe.refl L, by simp [fval, r2], ?_⟩
    intro j hj hji
    rw [← f1 j (by rw [← hL.1]; exact hj)]
    simp [fval, f2 j hji]
  by_cases hc : Compat t v
  · right
    obtain ⟨o', e, w', l', r1, r2⟩ := writeLoc_compat h hn' ht hc
    refine ⟨?_, K, o', by simp only [setField, e], w', LLe.refl K, by rw [l']; exact hle, by simp [fval, r1], ?_⟩
    · rintro ⟨s1, s2, _⟩
      rw [ht] at s1; cases s1; exact s2 hc
    · intro j _ hj; simp [fval, r2 j hj]
  · rcases writeLoc_incompat ht hc with ⟨rfl, hv, e⟩ | ⟨hp, e⟩
    · by_cases hs : Stuck K o i v
      · left
        refine ⟨hs, ?_⟩
        simp only [setField, e, withInitialized, hs.2.2.1, hs.2.2.2, if_false, bind, Except.bind]
      · right
        refine ⟨hs, ?_⟩
        have hcase : K[i]? = some (tyOf v) ∨ (K[i]? ≠ some (tyOf v) ∧ K[i]? = some .unwritten) := by
          by_cases h1 : K[i]? = some (tyOf v)
          · exact .inl h1
          · right; refine ⟨h1, ?_⟩
            apply Classical.byContradiction
            intro h2; exact hs ⟨ht, hv, h2, h1⟩
        have hne : ∀ L : Layout, L[i]? = some (tyOf v) → L ≠ o.layout := by
          intro L hL he
          rw [he, ht] at hL
          cases v <;> simp [tyOf] at hL
        rcases hcase with h1 | ⟨h1, h2⟩
        · obtain ⟨o1, o2, e1, e2, w2, l2, f1, f2⟩ := after K (LLe.refl K) ⟨_, h1, compat_tyOf⟩ (hne K h1)
          refine ⟨K, o2, ?_, w2, LLe.refl K, l2, f1, f2⟩
          simp only [setField, e, withInitialized, h1, if_true, bind, Except.bind, hne K h1, if_false, e1, e2, pure, Except.pure]
        · have hLi : (K.set i (tyOf v))[i]? = some (tyOf v) := by simp [hi]
          have hL : LLe K (K.set i (tyOf v)) := set_lle h2 (by simp [Le])
          obtain ⟨o1, o2, e1, e2, w2, l2, f1, f2⟩ := after _ hL ⟨_, hLi, compat_tyOf⟩ (hne _ hLi)
          refine ⟨_, o2, ?_, w2, hL, l2, f1, f2⟩
          have hw : withInitialized K i (tyOf v) = .ok (K.set i (tyOf v)) := by
            simp only [withInitialized]; rw [if_neg h1, if_pos h2]
          simp only [setField, e, hw, bind, Except.bind, hne _ hLi, if_false, e1, e2, pure, Except.pure]
    · right
      have hns : ¬ Stuck K o i v := by
        rintro ⟨s1, _⟩; rw [ht] at s1; cases s1; cases hp
      refine ⟨hns, ?_⟩
      have hne : ∀ L : Layout, L[i]? = some .obj → L ≠ o.layout := by
        intro L hL he
        rw [he, ht] at hL; cases hL; cases hp
      by_cases h1 : K[i]? = some .obj
      · obtain ⟨o1, o2, e1, e2, w2, l2, f1, f2⟩ := after K (LLe.refl K) ⟨_, h1, trivial⟩ (hne K h1)
        refine ⟨K, o2, ?_, w2, LLe.refl K, l2, f1, f2⟩
        simp only [setField, e, withGeneralized, h1, if_true, bind, Except.bind, hne K h1, if_false, e1, e2, pure, Except.pure]
      · have h2 : K[i]? ≠ some .unwritten := by
          rw [hk]; intro he; cases he
          cases t <;> simp_all [Le, Ty.isPrim]
        have hLi : (K.set i .obj)[i]? = some .obj := by simp [hi]
        have hL : LLe K (K.set i .obj) := set_lle hk (by cases k <;> simp [Le])
        obtain ⟨o1, o2, e1, e2, w2, l2, f1, f2⟩ := after _ hL ⟨_, hLi, trivial⟩ (hne _ hLi)
        refine ⟨_, o2, ?_, w2, hL, l2, f1, f2⟩
        simp only [setField, e, withGeneralized, h1, h2, bind, Except.bind, hne _ hLi, if_false, e1, e2, pure, Except.pure]

theorem sync_spec {K : Layout} {o : Object} (h : WF o) (hn : K.length ≤ 32) (hle : LLe o.layout K) :
    ∃ o', sync K o = .ok o' ∧ WF o' ∧ o'.layout = K ∧ ∀ j, j < K.length → fval o' j = fval o j := by
  simp only [sync, hle.1, ne_eq, not_true, if_false]
  by_cases he : o.layout = K
  · simp only [he, not_true, if_false]; exact ⟨o, rfl, h, he, fun _ _ => rfl⟩
  · simp only [he, not_false_iff, if_true]; exact transfer_spec h hn hle

end PySOM.Obj

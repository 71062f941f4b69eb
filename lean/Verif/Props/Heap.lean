import Verif.Model.Heap
/-!
# Property C20: the priority queue
-/
set_option autoImplicit false
namespace PySOM.HeapQ

/-! ## Specification: a bag of entries -/
namespace Spec

/-- The answers of a sequence of operations on a bag of entries are acceptable: a pop of a non-empty bag answers some
entry of the bag with the smallest address and removes it; a pop of the empty bag is an error. -/
def Accepts : (bag : List Entry) → List Op → List (Option Entry) → Prop
  | _, [], answers => answers = []
  | bag, .push e :: ops, answers => Accepts (e :: bag) ops answers
  | bag, .pop :: ops, answers => match answers with
    | [] => False
    | none :: rest => bag = [] ∧ Accepts bag ops rest
    | some e :: rest => e ∈ bag ∧ (∀ x ∈ bag, e.address ≤ x.address) ∧ Accepts (bag.erase e) ops rest

/-- The shape invariant: no entry has a smaller address than its parent. -/
def IsHeap (h : List Entry) : Prop :=
  ∀ i (hi : i < h.length), 0 < i → (h[(i - 1) / 2]'(by omega)).address ≤ h[i].address

end Spec

/-! ## Lemmas -/

theorem at'_eq {h : List Entry} {i : Nat} (hi : i < h.length) : at' h i = h[i] := by
  simp [at', List.getD_eq_getElem?_getD, List.getElem?_eq_getElem hi]

theorem at'_set {h : List Entry} {i j : Nat} {e : Entry} (hi : i < h.length) :
    at' (h.set i e) j = if j = i then e else at' h j := by
  simp only [at', List.getD_eq_getElem?_getD, List.getElem?_set]
  by_cases hj : j = i
  · subst hj; simp [hi]
  · rw [if_neg (Ne.symm hj), if_neg hj]

/-- Address at a position. -/
def K (h : List Entry) (i : Nat) : Nat := (at' h i).address

theorem K_set {h : List Entry} {i j : Nat} {e : Entry} (hi : i < h.length) :
    K (h.set i e) j = if j = i then e.address else K h j := by
  simp only [K, at'_set hi]; split <;> rfl

theorem isHeap_iff {h : List Entry} : Spec.IsHeap h ↔ ∀ i, i < h.length → 0 < i → K h ((i - 1) / 2) ≤ K h i := by
  constructor
  · intro hh i hi h0
    have := hh i hi h0
    rw [K, K, at'_eq hi, at'_eq (by omega)]; exact this
  · intro hh i hi h0
    have := hh i hi h0
    rw [K, K, at'_eq hi, at'_eq (by omega)] at this; exact this

/-- Replacing one element. -/
theorem set_perm (xs : List Entry) (i : Nat) (a : Entry) (hi : i < xs.length) : (xs[i] :: xs.set i a).Perm (a :: xs) := by
  induction xs generalizing i with
  | nil => simp at hi
  | cons x xs ih =>
    cases i with
    | zero => simpa using List.Perm.swap _ _ _
    | succ i =>
      simp only [List.getElem_cons_succ, List.set_cons_succ]
      have := ih i (by simpa using hi)
      exact (List.Perm.swap _ _ _).trans ((this.cons x).trans (List.Perm.swap _ _ _))

/-- Moving the hole from position `i` to position `j`. -/
theorem hole_perm (xs : List Entry) (i j : Nat) (a : Entry) (hi : i < xs.length) (hj : j < xs.length) (hij : i ≠ j) :
    ((xs.set i (at' xs j)).set j a).Perm (xs.set i a) := by
  have h1 := set_perm xs i (at' xs j) hi
  have h2 := set_perm (xs.set i (at' xs j)) j a (by simpa using hj)
  have h3 := set_perm xs i a hi
  have hy : (xs.set i (at' xs j))[j]'(by simpa using hj) = at' xs j := by
    rw [List.getElem_set_ne hij, at'_eq hj]
  rw [hy] at h2
  generalize at' xs j = y at *
  generalize xs[i] = b at *
  have l : (b :: y :: (xs.set i y).set j a).Perm (b :: y :: xs.set i a) := by
    calc (b :: y :: (xs.set i y).set j a).Perm (b :: a :: xs.set i y) := h2.cons b
      _ |>.Perm (a :: b :: xs.set i y) := List.Perm.swap _ _ _
      _ |>.Perm (a :: y :: xs) := h1.cons a
      _ |>.Perm (y :: a :: xs) := List.Perm.swap _ _ _
      _ |>.Perm (y :: b :: xs.set i a) := (h3.symm).cons y
      _ |>.Perm (b :: y :: xs.set i a) := List.Perm.swap _ _ _
  exact ((List.perm_cons b).1 l |> (List.perm_cons y).1)

/-- `h` with `new` at `pos` is a heap except possibly between `pos` and its parent. -/
structure Down (h : List Entry) (pos : Nat) (new : Entry) : Prop where
  pos_lt : pos < h.length
  ord : ∀ i, i < h.length → 0 < i → i ≠ pos → K (h.set pos new) ((i - 1) / 2) ≤ K (h.set pos new) i
  grand : 0 < pos → ∀ c, c < h.length → 0 < c → (c - 1) / 2 = pos → K h ((pos - 1) / 2) ≤ K h c

theorem siftdownLoop_spec (h : List Entry) (pos : Nat) (new : Entry) (hd : Down h pos new) :
    Spec.IsHeap (siftdownLoop h 0 pos new) ∧ (siftdownLoop h 0 pos new).Perm (h.set pos new) := by
  fun_induction siftdownLoop h 0 pos new with
  | case1 h pos hp pp parent hlt ih =>
    have hpl := hd.pos_lt
    have hpp : pp < pos := by simp only [pp]; omega
    have hppl : pp < h.length := by omega
    have hne : pos ≠ pp := by omega
    have hd' : Down (h.set pos parent) pp new := by
      refine ⟨by simpa using hppl, ?_, ?_⟩
      · intro i hi h0 hip
        simp only [List.length_set] at hi
        have hl : pp < (h.set pos parent).length := by simpa using hppl
        rw [K_set hl, K_set hl, K_set hpl, K_set hpl]
        rw [if_neg hip]
        by_cases hi2 : i = pos
        · subst hi2
          rw [if_pos rfl, if_pos rfl]; exact Nat.le_of_lt hlt
        · rw [if_neg hi2]
          have hold := hd.ord i hi h0 hi2
          rw [K_set hpl, K_set hpl, if_neg hi2] at hold
          by_cases h3 : (i - 1) / 2 = pp
          · rw [if_pos h3]
            rw [if_neg (by omega), h3] at hold
            exact Nat.le_trans (Nat.le_of_lt hlt) hold
          · rw [if_neg h3]
            by_cases h4 : (i - 1) / 2 = pos
            · rw [if_pos h4]
              exact hd.grand (by omega) i hi h0 h4
            · rw [if_neg h4]; rw [if_neg h4] at hold; exact hold
      · intro h0 c hc hc0 hcp
        simp only [List.length_set] at hc
        rw [K_set hpl, K_set hpl, if_neg (by omega)]
        have hpar := hd.ord pp hppl h0 (by omega)
        rw [K_set hpl, K_set hpl, if_neg (by omega), if_neg (by omega)] at hpar
        by_cases h5 : c = pos
        · rw [if_pos h5]; exact hpar
        · rw [if_neg h5]
          have hold := hd.ord c hc hc0 h5
          rw [K_set hpl, K_set hpl, if_neg h5, if_neg (by omega), hcp] at hold
          exact Nat.le_trans hpar hold
    obtain ⟨ih1, ih2⟩ := ih hd'
    refine ⟨ih1, ih2.trans ?_⟩
    exact hole_perm h pos pp new hpl hppl hne
  | case2 h pos hp pp parent hlt =>
    refine ⟨isHeap_iff.2 ?_, List.Perm.refl _⟩
    intro i hi h0
    simp only [List.length_set] at hi
    have hpl := hd.pos_lt
    by_cases hi2 : i = pos
    · rw [hi2, K_set hpl, K_set hpl, if_pos rfl, if_neg (by omega)]
      have : ¬ new.address < K h ((pos - 1) / 2) := hlt
      omega
    · exact hd.ord i hi h0 hi2
  | case3 h pos hp =>
    refine ⟨isHeap_iff.2 ?_, List.Perm.refl _⟩
    intro i hi h0
    simp only [List.length_set] at hi
    exact hd.ord i hi h0 (by omega)

/-- `h` is a heap apart from the element at `pos`, whose value does not matter. -/
structure Up (h : List Entry) (pos : Nat) : Prop where
  pos_lt : pos < h.length
  ord : ∀ i, i < h.length → 0 < i → i ≠ pos → (i - 1) / 2 ≠ pos → K h ((i - 1) / 2) ≤ K h i
  grand : 0 < pos → ∀ c, c < h.length → 0 < c → (c - 1) / 2 = pos → K h ((pos - 1) / 2) ≤ K h c

theorem siftupLoop_spec (h : List Entry) (endpos pos : Nat) (new : Entry) (he : endpos = h.length) (hu : Up h pos) :
    let r := siftupLoop h endpos pos
    Up r.1 r.2 ∧ r.1.length ≤ 2 * r.2 + 1 ∧ (r.1.set r.2 new).Perm (h.set pos new) := by
  fun_induction siftupLoop h endpos pos with
  | case1 h pos childpos hc rightpos child ih =>
    have hpl := hu.pos_lt
    have hchild : (child = 2 * pos + 1 ∨ child = 2 * pos + 2) ∧ child < h.length ∧
        (∀ c, c < h.length → 0 < c → (c - 1) / 2 = pos → K h child ≤ K h c) := by
      simp only [child, rightpos, childpos]
      split
      · next hcond =>
        refine ⟨Or.inr rfl, by omega, ?_⟩
        intro c hcl hc0 hcp
        have hk : ¬ K h (2 * pos + 1) < K h (2 * pos + 1 + 1) := hcond.2
        have hcc : c = 2 * pos + 1 ∨ c = 2 * pos + 1 + 1 := by omega
        rcases hcc with rfl | rfl <;> omega
      · next hcond =>
        refine ⟨Or.inl rfl, by simp only [childpos] at hc; omega, ?_⟩
        intro c hcl hc0 hcp
        have hcc : c = 2 * pos + 1 ∨ c = 2 * pos + 1 + 1 := by omega
        rcases hcc with rfl | rfl
        · omega
        · apply Classical.byContradiction
          intro hk
          exact hcond ⟨by omega, fun h' => hk (Nat.le_of_lt h')⟩
    obtain ⟨hch, hcl, hmin⟩ := hchild
    have hne : pos ≠ child := by omega
    have hcpar : (child - 1) / 2 = pos := by omega
    have hu' : Up (h.set pos (at' h child)) child := by
      refine ⟨by simpa using hcl, ?_, ?_⟩
      · intro i hi h0 hic hip
        simp only [List.length_set] at hi
        rw [K_set hpl, K_set hpl]
        by_cases h1 : i = pos
        · subst h1
          rw [if_neg (by omega), if_pos rfl]
          exact hu.grand h0 child hcl (by omega) hcpar
        · rw [if_neg h1]
          by_cases h2 : (i - 1) / 2 = pos
          · rw [if_pos h2]; exact hmin i hi h0 h2
          · rw [if_neg h2]; exact hu.ord i hi h0 h1 h2
      · intro _ d hd hd0 hdp
        simp only [List.length_set] at hd
        rw [hcpar, K_set hpl, K_set hpl, if_pos rfl, if_neg (by omega)]
        have := hu.ord d hd hd0 (by omega) (by omega)
        rw [hdp] at this; exact this
    obtain ⟨i1, i2, i3⟩ := ih (by simpa using he) hu'
    exact ⟨i1, i2, i3.trans (hole_perm h pos child new hpl hcl hne)⟩
  | case2 h pos childpos hc =>
    refine ⟨hu, ?_, List.Perm.refl _⟩
    simp only [childpos] at hc
    show h.length ≤ 2 * pos + 1
    omega

theorem siftupLoop_length (h : List Entry) (endpos pos : Nat) : (siftupLoop h endpos pos).1.length = h.length := by
  fun_induction siftupLoop h endpos pos with
  | case1 h pos childpos hc rightpos child ih => simpa using ih
  | case2 => rfl

theorem siftup_spec (h : List Entry) (hu : Up h 0) :
    Spec.IsHeap (siftup h 0) ∧ (siftup h 0).Perm h := by
  simp only [siftup]
  have hs := siftupLoop_spec h h.length 0 (at' h 0) rfl hu
  generalize hr : siftupLoop h h.length 0 = r at *
  obtain ⟨s1, s2, s3⟩ := hs
  have hd : Down (r.1.set r.2 (at' h 0)) r.2 (at' (r.1.set r.2 (at' h 0)) r.2) := by
    have hl := s1.pos_lt
    rw [at'_set hl, if_pos rfl]
    refine ⟨by simpa using hl, ?_, ?_⟩
    · intro i hi h0 hip
      simp only [List.length_set] at hi
      rw [List.set_set, K_set hl, K_set hl, if_neg hip, if_neg (by omega)]
      exact s1.ord i hi h0 hip (by omega)
    · intro h0 c hc hc0 hcp
      simp only [List.length_set] at hc
      omega
  obtain ⟨d1, d2⟩ := siftdownLoop_spec _ _ _ hd
  refine ⟨d1, ?_⟩
  have hl := s1.pos_lt
  have e1 : (r.1.set r.2 (at' h 0)).set r.2 (at' (r.1.set r.2 (at' h 0)) r.2) = r.1.set r.2 (at' h 0) := by
    rw [at'_set hl, if_pos rfl, List.set_set]
  rw [e1] at d2
  refine (d2.trans s3).trans ?_
  have : h.set 0 (at' h 0) = h := by
    rw [at'_eq hu.pos_lt]; exact List.set_getElem_self hu.pos_lt
  rw [this]

theorem heappush_spec (h : List Entry) (e : Entry) (hh : Spec.IsHeap h) :
    Spec.IsHeap (heappush h e) ∧ (heappush h e).Perm (e :: h) := by
  have hh := isHeap_iff.1 hh
  simp only [heappush, siftdown, List.length_append, List.length_singleton, Nat.add_sub_cancel]
  have hl : h.length < (h ++ [e]).length := by simp
  have hself : (h ++ [e]).set h.length (at' (h ++ [e]) h.length) = h ++ [e] := by
    rw [at'_eq hl]; exact List.set_getElem_self hl
  have hK : ∀ i, i < h.length → K (h ++ [e]) i = K h i := by
    intro i hi
    rw [K, K, at'_eq hi, at'_eq (by simp; omega), List.getElem_append_left hi]
  have hd : Down (h ++ [e]) h.length (at' (h ++ [e]) h.length) := by
    refine ⟨hl, ?_, ?_⟩
    · intro i hi h0 hip
      rw [hself]
      simp only [List.length_append, List.length_singleton] at hi
      rw [hK i (by omega), hK _ (by omega)]
      exact hh i (by omega) h0
    · intro h0 c hc hc0 hcp
      simp only [List.length_append, List.length_singleton] at hc
      omega
  obtain ⟨d1, d2⟩ := siftdownLoop_spec _ _ _ hd
  rw [hself] at d2
  exact ⟨d1, d2.trans (List.perm_append_singleton _ _)⟩

theorem root_min {h : List Entry} (hh : Spec.IsHeap h) : ∀ i, i < h.length → K h 0 ≤ K h i := by
  have hh := isHeap_iff.1 hh
  intro i
  induction i using Nat.strongRecOn with
  | ind i ih =>
    intro hi
    by_cases h0 : i = 0
    · subst h0; exact Nat.le_refl _
    · exact Nat.le_trans (ih ((i - 1) / 2) (by omega) (by omega)) (hh i hi (by omega))

theorem heappop_spec (h : List Entry) (hh : Spec.IsHeap h) (hne : h ≠ []) :
    ∃ e h', heappop h = some (e, h') ∧ Spec.IsHeap h' ∧ h.Perm (e :: h') ∧ ∀ x ∈ h, e.address ≤ x.address := by
  obtain ⟨ini, last, rfl⟩ : ∃ ini last, h = ini ++ [last] := ⟨h.dropLast, h.getLast hne, (List.dropLast_concat_getLast hne).symm⟩
  have hmin : ∀ x ∈ ini ++ [last], K (ini ++ [last]) 0 ≤ x.address := by
    intro x hx
    obtain ⟨i, hi, rfl⟩ := List.getElem_of_mem hx
    have := root_min hh i hi
    rw [K, K, at'_eq hi] at this
    exact this
  simp only [heappop, List.getLast?_concat, List.dropLast_concat]
  by_cases hini : ini = []
  · subst hini
    refine ⟨last, [], by simp, ?_, by simp, ?_⟩
    · intro i hi; simp at hi
    · simp
  · simp only [ne_eq, hini, not_false_eq_true, if_true]
    have hpos : 0 < ini.length := List.length_pos_iff.2 hini
    have hh' := isHeap_iff.1 hh
    have hK : ∀ i, i < ini.length → K (ini ++ [last]) i = K ini i := by
      intro i hi
      rw [K, K, at'_eq hi, at'_eq (by simp; omega), List.getElem_append_left hi]
    have hu : Up (ini.set 0 last) 0 := by
      refine ⟨by simpa using hpos, ?_, by intro h; omega⟩
      intro i hi h0 hi0 hip
      simp only [List.length_set] at hi
      rw [K_set hpos, K_set hpos, if_neg hi0, if_neg hip]
      have := hh' i (by simp; omega) h0
      rw [hK _ (by omega), hK _ hi] at this
      exact this
    obtain ⟨s1, s2⟩ := siftup_spec _ hu
    refine ⟨_, _, rfl, s1, ?_, ?_⟩
    · have hsp := set_perm ini 0 last hpos
      rw [← at'_eq hpos] at hsp
      refine List.Perm.trans ?_ (s2.symm.cons _)
      exact (List.perm_append_singleton _ _).trans hsp.symm
    · intro x hx
      have := hmin x hx
      rw [hK 0 hpos] at this
      exact this

/-! ## C20 -/

/-- **C20**, one step: pushing keeps the shape and adds exactly the entry; popping a non-empty queue answers an entry with
the smallest address, keeps the shape and removes exactly that entry. -/
theorem C20_push_pop (h : List Entry) (hh : Spec.IsHeap h) :
    (∀ e, Spec.IsHeap (heappush h e) ∧ (heappush h e).Perm (e :: h)) ∧
    (h ≠ [] → ∃ e h', heappop h = some (e, h') ∧ Spec.IsHeap h' ∧ h.Perm (e :: h') ∧ ∀ x ∈ h, e.address ≤ x.address) :=
  ⟨fun e => heappush_spec h e hh, fun hne => heappop_spec h hh hne⟩

example : Spec.IsHeap [⟨1, 0⟩, ⟨4, 0⟩, ⟨2, 7⟩, ⟨9, 1⟩, ⟨5, 5⟩] := by
  rw [isHeap_iff]; intro i hi h0
  simp only [List.length_cons, List.length_nil] at hi
  have : i = 1 ∨ i = 2 ∨ i = 3 ∨ i = 4 := by omega
  rcases this with rfl | rfl | rfl | rfl <;> decide

theorem Accepts_perm (ops : List Op) : ∀ (b b' : List Entry) (ans : List (Option Entry)), b.Perm b' →
    Spec.Accepts b ops ans → Spec.Accepts b' ops ans := by
  induction ops with
  | nil => intro b b' ans _ h; exact h
  | cons op ops ih =>
    intro b b' ans hp h
    cases op with
    | push e => exact ih _ _ _ (hp.cons e) h
    | pop =>
      cases ans with
      | nil => exact h
      | cons a rest =>
        cases a with
        | none => obtain ⟨rfl, h2⟩ := h; exact ⟨List.perm_nil.1 hp.symm, ih _ _ _ hp h2⟩
        | some e =>
          obtain ⟨h1, h2, h3⟩ := h
          exact ⟨hp.mem_iff.1 h1, fun x hx => h2 x (hp.mem_iff.2 hx), ih _ _ _ (hp.erase e) h3⟩

/-- **C20**: for every sequence of pushes and pops starting from the empty queue, the answers are those of a bag from which
each pop takes an entry with the smallest address; nothing is lost or duplicated, and the shape invariant holds at the end. -/
theorem C20_queue_refines_bag (ops : List Op) :
    Spec.Accepts [] ops (run [] ops).1 ∧ Spec.IsHeap (run [] ops).2 := by
  have gen : ∀ (ops : List Op) (h : List Entry), Spec.IsHeap h → Spec.Accepts h ops (run h ops).1 ∧ Spec.IsHeap (run h ops).2 := by
    intro ops
    induction ops with
    | nil => intro h hh; exact ⟨rfl, hh⟩
    | cons op ops ih =>
      intro h hh
      cases op with
      | push e =>
        obtain ⟨p1, p2⟩ := heappush_spec h e hh
        obtain ⟨i1, i2⟩ := ih _ p1
        exact ⟨Accepts_perm ops _ _ _ p2 i1, i2⟩
      | pop =>
        by_cases hne : h = []
        · subst hne
          obtain ⟨i1, i2⟩ := ih [] hh
          exact ⟨⟨rfl, i1⟩, i2⟩
        · obtain ⟨e, h', he, q1, q2, q3⟩ := heappop_spec h hh hne
          obtain ⟨i1, i2⟩ := ih _ q1
          simp only [run, he]
          refine ⟨⟨q2.mem_iff.2 List.mem_cons_self, q3, ?_⟩, i2⟩
          apply Accepts_perm ops h' _ _ _ i1
          have := q2.erase e
          rw [List.erase_cons_head] at this
          exact this.symm
  exact gen ops [] (by intro i hi; simp at hi)

/-- **C20**, corollary: pushing any entries and then popping them all answers them in address order. -/
theorem C20_drain_sorted (es : List Entry) :
    ∃ out : List Entry, (run [] (es.map .push ++ List.replicate es.length .pop)).1 = out.map some ∧
      out.Perm es ∧ out.Pairwise (fun a b => a.address ≤ b.address) := by
  have hpush : ∀ (es : List Entry) (h : List Entry) (rest : List Op), Spec.IsHeap h →
      ∃ h', Spec.IsHeap h' ∧ h'.Perm (es ++ h) ∧ run h (es.map .push ++ rest) = run h' rest := by
    intro es
    induction es with
    | nil => intro h rest hh; exact ⟨h, hh, List.Perm.refl _, rfl⟩
    | cons e es ih =>
      intro h rest hh
      obtain ⟨p1, p2⟩ := heappush_spec h e hh
      obtain ⟨h', q1, q2, q3⟩ := ih (heappush h e) rest p1
      refine ⟨h', q1, q2.trans ?_, q3⟩
      exact (p2.append_left es).trans List.perm_middle
  have hpop : ∀ (n : Nat) (h : List Entry), Spec.IsHeap h → h.length = n →
      ∃ out : List Entry, (run h (List.replicate n .pop)).1 = out.map some ∧ out.Perm h ∧
        out.Pairwise (fun a b => a.address ≤ b.address) := by
    intro n
    induction n with
    | zero =>
      intro h hh hl
      have : h = [] := List.length_eq_zero_iff.1 hl
      subst this
      exact ⟨[], rfl, List.Perm.refl _, List.Pairwise.nil⟩
    | succ n ih =>
      intro h hh hl
      have hne : h ≠ [] := by intro hn; simp [hn] at hl
      obtain ⟨e, h', he, q1, q2, q3⟩ := heappop_spec h hh hne
      have hl' : h'.length = n := by have := q2.length_eq; simp at this; omega
      obtain ⟨out, o1, o2, o3⟩ := ih h' q1 hl'
      refine ⟨e :: out, ?_, (o2.cons e).trans q2.symm, ?_⟩
      · simp only [List.replicate_succ, run, he, List.map_cons, o1]
      · refine List.Pairwise.cons ?_ o3
        intro x hx
        exact q3 x (q2.mem_iff.2 (List.mem_cons_of_mem _ (o2.mem_iff.1 hx)))
  obtain ⟨h', q1, q2, q3⟩ := hpush es [] (List.replicate es.length .pop) (by intro i hi; simp at hi)
  rw [List.append_nil] at q2
  obtain ⟨out, o1, o2, o3⟩ := hpop es.length h' q1 q2.length_eq
  exact ⟨out, by rw [q3, o1], o2.trans q2, o3⟩

end PySOM.HeapQ

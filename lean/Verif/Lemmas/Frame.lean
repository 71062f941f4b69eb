import Verif.Spec.Frame
set_option autoImplicit false
namespace PySOM.Frame
open PySOM

variable {V : Type}

theorem separate_counts (fo io : Nat) (vs : List Bool) (nl nn : Nat) :
    (separate fo io vs nl nn).2 = (nl + vs.count false, nn + vs.count true) := by
  induction vs generalizing nl nn with
  | nil => rfl
  | cons b vs ih => cases b <;> simp [separate, ih] <;> omega

theorem separate_length (fo io : Nat) (vs : List Bool) (nl nn : Nat) : (separate fo io vs nl nn).1.length = vs.length := by
  induction vs generalizing nl nn with
  | nil => rfl
  | cons b vs ih => cases b <;> simp [separate, ih]

/-- Where the variables go: the uncaptured ones one after the other in the frame, the captured ones in the context. -/
theorem separate_bounds (fo io : Nat) (vs : List Bool) (nl nn : Nat) : ∀ p ∈ vs.zip (separate fo io vs nl nn).1,
    (p.1 = false → nl + fo ≤ p.2 ∧ p.2 < nl + fo + vs.count false) ∧ (p.1 = true → nn + io ≤ p.2 ∧ p.2 < nn + io + vs.count true) := by
  induction vs generalizing nl nn with
  | nil => simp [separate]
  | cons b vs ih =>
    cases b <;> simp only [separate, List.zip_cons_cons, List.mem_cons, forall_eq_or_imp, List.count_cons, beq_self_eq_true, if_true] <;> refine ⟨⟨by simp; try omega, by simp; try omega⟩, ?_⟩
    · intro p hp
      have := ih (nl + 1) nn p hp
      constructor
      · intro h; have := this.1 h; omega
      · intro h; have := this.2 h; simp; omega
    · intro p hp
      have := ih nl (nn + 1) p hp
      constructor
      · intro h; have := this.1 h; simp; omega
      · intro h; have := this.2 h; omega

theorem separate_nodup (fo io : Nat) (vs : List Bool) (nl nn : Nat) : (vs.zip (separate fo io vs nl nn).1).Nodup := by
  induction vs generalizing nl nn with
  | nil => simp [separate]
  | cons b vs ih =>
    cases b <;> simp only [separate, List.zip_cons_cons, List.nodup_cons]
    · refine ⟨?_, ih _ _⟩
      intro h
      have := (separate_bounds fo io vs (nl + 1) nn _ h).1 rfl
      simp only at this; omega
    · refine ⟨?_, ih _ _⟩
      intro h
      have := (separate_bounds fo io vs nl (nn + 1) _ h).2 rfl
      simp only at this; omega

theorem pyGet_nat {α : Type} (l : List α) (i : Nat) : pyGet l (i : Int) = (match l[i]? with | none => .error .index | some v => .ok v) := by
  unfold pyGet pyIdx
  simp only [Int.natCast_nonneg, if_true]
  split
  · rename_i h
    split at h
    · cases h
    · rename_i h2; rw [List.getElem?_eq_none (by omega)]
  · rename_i k h
    split at h
    · simp only [Option.some.injEq] at h; subst h; simp only [Int.toNat_natCast]; cases l[i]? <;> rfl
    · cases h

theorem pyGet_some {α : Type} (l : List α) (i : Nat) (v : α) (h : l[i]? = some v) : pyGet l (i : Int) = .ok v := by rw [pyGet_nat, h]

theorem pyGet_ok {α : Type} (l : List α) (i : Nat) (v : α) : pyGet l (i : Int) = .ok v ↔ l[i]? = some v := by
  rw [pyGet_nat]; split <;> rename_i h <;> simp [h]

/-- What storing into a frame does to later reads. -/
theorem putAt_spec (f : Fr V) (c : Bool) (i : Nat) (v : V)
    (h : if c then ∃ l, f.inner = some l ∧ i < l.length else i < f.slots.length) :
    ∃ f', putAt f c i v = .ok f' ∧ readVar f' c i = .ok v ∧ (∀ c' i', (c', i') ≠ (c, i) → readVar f' c' i' = readVar f c' i') ∧
      f'.slots.length = f.slots.length ∧ (f'.inner.map List.length) = (f.inner.map List.length) := by
  cases c with
  | true =>
    obtain ⟨l, hl, hi⟩ := h
    refine ⟨{ f with inner := some (l.set i v) }, ?_, ?_, ?_, rfl, ?_⟩
    · simp [putAt, hl, put, hi, bind, Except.bind, pure, Except.pure]
    · simp only [readVar, if_true]; exact pyGet_some _ _ _ (by rw [List.getElem?_set_self hi])
    · intro c' i' hne
      cases c' with
      | false => simp [readVar]
      | true =>
        have hii : i ≠ i' := by intro e; subst e; exact hne rfl
        simp only [readVar, if_true, hl, pyGet_nat, List.getElem?_set_ne hii]
    · simp [hl]
  | false =>
    simp only [Bool.false_eq_true, if_false] at h
    refine ⟨{ f with slots := f.slots.set i v }, ?_, ?_, ?_, by simp, rfl⟩
    · simp [putAt, put, h, bind, Except.bind, pure, Except.pure]
    · simp only [readVar, Bool.false_eq_true, if_false]; exact pyGet_some _ _ _ (by rw [List.getElem?_set_self h])
    · intro c' i' hne
      cases c' with
      | true => simp [readVar]
      | false =>
        have hii : i ≠ i' := by intro e; subst e; exact hne rfl
        simp only [readVar, Bool.false_eq_true, if_false, pyGet_nat, List.getElem?_set_ne hii]

/-- The loop with contexts: every argument ends up in its place, nothing else changes. -/
theorem setArgsWith_spec (vs : List V) (bs : List Bool) (nl nn fo io : Nat) (f : Fr V) (l : List V) (hlen : vs.length = bs.length)
    (hin : f.inner = some l) (h1 : nl + fo + bs.count false ≤ f.slots.length) (h2 : nn + io + bs.count true ≤ l.length) :
    ∃ f', setArgsWith vs bs (nl + fo) (nn + io) f = .ok f' ∧ f'.slots.length = f.slots.length ∧
      (f'.inner.map List.length) = (f.inner.map List.length) ∧
      (∀ (i : Nat) v c idx, vs[i]? = some v → bs[i]? = some c → (separate fo io bs nl nn).1[i]? = some idx → readVar f' c idx = .ok v) ∧
      (∀ c idx, (c = false → idx < nl + fo ∨ nl + fo + bs.count false ≤ idx) → (c = true → idx < nn + io ∨ nn + io + bs.count true ≤ idx) →
        readVar f' c idx = readVar f c idx) := by
  induction bs generalizing vs nl nn f l with
  | nil =>
    cases vs with
    | cons _ _ => cases hlen
    | nil => exact ⟨f, rfl, rfl, rfl, by simp, fun _ _ _ _ => rfl⟩
  | cons b bs ih =>
    cases vs with
    | nil => cases hlen
    | cons v vs =>
      simp only [List.length_cons, Nat.succ.injEq] at hlen
      cases b with
      | true =>
        simp only [List.count_cons, beq_self_eq_true, if_true] at h2
        have h1' : nl + fo + bs.count false ≤ f.slots.length := by simpa using h1
        obtain ⟨g, e1, e2, e3, e4, e5⟩ := putAt_spec f true (nn + io) v ⟨l, hin, by omega⟩
        obtain ⟨lg, hlg⟩ : ∃ lg, g.inner = some lg := by
          cases hg : g.inner with
          | none => rw [hg, hin] at e5; cases e5
          | some lg => exact ⟨lg, rfl⟩
        have hll : lg.length = l.length := by rw [hlg, hin] at e5; simpa using e5
        obtain ⟨f', a1, a2, a3, a4, a5⟩ := ih vs nl (nn + 1) g lg hlen hlg (by omega) (by omega)
        have hz : nn + 1 + io = nn + io + 1 := by omega
        rw [hz] at a1
        refine ⟨f', ?_, by omega, by rw [a3, e5], ?_, ?_⟩
        · simp only [setArgsWith, e1, bind, Except.bind]; exact a1
        · intro i w c idx hw hc hidx
          cases i with
          | zero =>
            simp only [List.getElem?_cons_zero, Option.some.injEq, separate] at hw hc hidx
            subst hw; subst hc; subst hidx
            rw [a5 true (nn + io) (by simp) (by omega), e2]
          | succ i =>
            simp only [List.getElem?_cons_succ, separate] at hw hc hidx
            exact a4 i w c idx hw hc hidx
        · intro c idx hf ht
          have hidx : c = true → idx ≠ nn + io := by
            intro hc; have := ht hc; simp only [List.count_cons, beq_self_eq_true, if_true] at this; omega
          rw [a5 c idx (by intro hc; have := hf hc; simpa using this) (by
            intro hc; have := ht hc; simp only [List.count_cons, beq_self_eq_true, if_true] at this; omega)]
          apply e3
          intro h; injection h with h1 h2; exact hidx h1 h2
      | false =>
        simp only [List.count_cons, beq_self_eq_true, if_true] at h1
        have h2' : nn + io + bs.count true ≤ l.length := by simpa using h2
        obtain ⟨g, e1, e2, e3, e4, e5⟩ := putAt_spec f false (nl + fo) v (by simp; omega)
        obtain ⟨lg, hlg⟩ : ∃ lg, g.inner = some lg := by
          cases hg : g.inner with
          | none => rw [hg, hin] at e5; cases e5
          | some lg => exact ⟨lg, rfl⟩
        have hll : lg.length = l.length := by rw [hlg, hin] at e5; simpa using e5
        obtain ⟨f', a1, a2, a3, a4, a5⟩ := ih vs (nl + 1) nn g lg hlen hlg (by omega) (by omega)
        have hz : nl + 1 + fo = nl + fo + 1 := by omega
        rw [hz] at a1
        refine ⟨f', ?_, by omega, by rw [a3, e5], ?_, ?_⟩
        · simp only [setArgsWith, e1, bind, Except.bind]; exact a1
        · intro i w c idx hw hc hidx
          cases i with
          | zero =>
            simp only [List.getElem?_cons_zero, Option.some.injEq, separate] at hw hc hidx
            subst hw; subst hc; subst hidx
            rw [a5 false (nl + fo) (by omega) (by simp), e2]
          | succ i =>
            simp only [List.getElem?_cons_succ, separate] at hw hc hidx
            exact a4 i w c idx hw hc hidx
        · intro c idx hf ht
          have hidx : c = false → idx ≠ nl + fo := by
            intro hc; have := hf hc; simp only [List.count_cons, beq_self_eq_true, if_true] at this; omega
          rw [a5 c idx (by
            intro hc; have := hf hc; simp only [List.count_cons, beq_self_eq_true, if_true] at this; omega) (by intro hc; have := ht hc; simpa using this)]
          apply e3
          intro h; injection h with h1 h2; exact hidx h1 h2

/-- Without captured arguments the two loops are the same. -/
theorem setArgsWithout_eq (vs : List V) (fi ii : Nat) (f : Fr V) :
    setArgsWithout vs fi f = setArgsWith vs (List.replicate vs.length false) fi ii f := by
  induction vs generalizing fi f with
  | nil => rfl
  | cons v vs ih =>
    simp only [setArgsWithout, List.length_cons, List.replicate_succ, setArgsWith]
    cases putAt f false fi v with
    | error e => rfl
    | ok g => simp only [bind, Except.bind, ih]

theorem setArgsWithout_spec (vs : List V) (fi : Nat) (f : Fr V) (h1 : fi + vs.length ≤ f.slots.length) :
    ∃ f', setArgsWithout vs fi f = .ok f' ∧ f'.slots.length = f.slots.length ∧ f'.inner = f.inner ∧
      (∀ (i : Nat) v, vs[i]? = some v → readVar f' false (fi + i) = .ok v) ∧
      (∀ idx, (idx < fi ∨ fi + vs.length ≤ idx) → readVar f' false idx = readVar f false idx) := by
  induction vs generalizing fi f with
  | nil => exact ⟨f, rfl, rfl, rfl, by simp, fun _ _ => rfl⟩
  | cons v vs ih =>
    simp only [List.length_cons] at h1
    have hp : putAt f false fi v = .ok { f with slots := f.slots.set fi v } := by
      simp [putAt, put, show fi < f.slots.length by omega, bind, Except.bind, pure, Except.pure]
    obtain ⟨f', a1, a2, a3, a4, a5⟩ := ih (fi + 1) { f with slots := f.slots.set fi v } (by simp; omega)
    refine ⟨f', ?_, by simpa using a2, a3, ?_, ?_⟩
    · simp only [setArgsWithout, hp, bind, Except.bind]; exact a1
    · intro i w hw
      cases i with
      | zero =>
        simp only [List.getElem?_cons_zero, Option.some.injEq] at hw
        subst hw
        rw [Nat.add_zero, a5 fi (by omega)]
        simp only [readVar, Bool.false_eq_true, if_false]
        exact pyGet_some _ _ _ (by rw [List.getElem?_set_self (by omega)])
      | succ i =>
        simp only [List.getElem?_cons_succ] at hw
        have := a4 i w hw
        rw [show fi + (i + 1) = fi + 1 + i by omega]; exact this
    · intro idx h
      simp only [List.length_cons] at h
      rw [a5 idx (by omega)]
      simp only [readVar, Bool.false_eq_true, if_false, pyGet_nat]
      rw [List.getElem?_set_ne (by omega)]

/-- The bytecode loops take the arguments from the stack. -/
theorem setArgsWithBc_eq (rev : List Bool) (stack : List V) (ptr : Int) (vs : List V) (bs : List Bool) (hlen : vs.length = bs.length)
    (hst : ∀ i v, vs[i]? = some v → pyGet stack (ptr - ((vs.length - 1 - i : Nat) : Int)) = .ok v)
    (hrev : ∀ i b, bs[i]? = some b → pyGet rev ((bs.length - 1 - i : Nat) : Int) = .ok b) (fi ii : Nat) (f : Fr V) :
    setArgsWithBc rev stack ptr vs.length fi ii f = setArgsWith vs bs fi ii f := by
  induction vs generalizing bs fi ii f with
  | nil => cases bs with
    | nil => rfl
    | cons _ _ => cases hlen
  | cons v vs ih =>
    cases bs with
    | nil => cases hlen
    | cons b bs =>
      simp only [List.length_cons, Nat.succ.injEq] at hlen
      have e1 := hst 0 v rfl
      have e2 := hrev 0 b rfl
      simp only [List.length_cons, Nat.add_sub_cancel, Nat.sub_zero] at e1 e2
      have ih' := ih bs hlen (by
        intro i w hw
        have := hst (i + 1) w (by simpa using hw)
        simp only [List.length_cons] at this
        rwa [show vs.length + 1 - 1 - (i + 1) = vs.length - 1 - i by omega] at this) (by
        intro i w hw
        have := hrev (i + 1) w (by simpa using hw)
        simp only [List.length_cons] at this
        rwa [show bs.length + 1 - 1 - (i + 1) = bs.length - 1 - i by omega] at this)
      rw [← hlen] at e2
      simp only [List.length_cons, setArgsWithBc, e1, e2, bind, Except.bind]
      cases b with
      | true =>
        simp only [if_true, setArgsWith, bind, Except.bind]
        cases putAt f true ii v with
        | error e => rfl
        | ok g => simp only [ih']
      | false =>
        simp only [Bool.false_eq_true, if_false, setArgsWith, bind, Except.bind]
        cases putAt f false fi v with
        | error e => rfl
        | ok g => simp only [ih']

theorem setArgsWithoutBc_eq (stack : List V) (ptr : Int) (vs : List V)
    (hst : ∀ i v, vs[i]? = some v → pyGet stack (ptr - ((vs.length - 1 - i : Nat) : Int)) = .ok v) (fi : Nat) (f : Fr V) :
    setArgsWithoutBc stack ptr vs.length fi f = setArgsWithout vs fi f := by
  induction vs generalizing fi f with
  | nil => rfl
  | cons v vs ih =>
    have e1 := hst 0 v rfl
    simp only [List.length_cons, Nat.add_sub_cancel, Nat.sub_zero] at e1
    have ih' := ih (by
        intro i w hw
        have := hst (i + 1) w (by simpa using hw)
        simp only [List.length_cons] at this
        rwa [show vs.length + 1 - 1 - (i + 1) = vs.length - 1 - i by omega] at this)
    simp only [List.length_cons, setArgsWithoutBc, e1, bind, Except.bind, setArgsWithout]
    cases putAt f false fi v with
    | error e => rfl
    | ok g => simp only [ih']

theorem openFrame_spec (nil tru rcvr : V) (sf si : Nat) (h1 : 2 ≤ sf) (h2 : si = 0 ∨ 2 ≤ si) :
    ∃ f, openFrame nil tru rcvr sf si = .ok f ∧ f.slots.length = sf ∧ f.slots = (List.replicate sf nil).set 1 rcvr ∧
      (si = 0 → f.inner = none) ∧
      (0 < si → f.inner = some (((List.replicate si nil).set 0 tru).set 1 rcvr)) := by
  unfold openFrame
  have e1 : put (List.replicate sf nil) rcvrIdx rcvr = .ok ((List.replicate sf nil).set 1 rcvr) := by
    simp [put, rcvrIdx, show 1 < sf by omega]
  simp only [e1, bind, Except.bind]
  by_cases hs : 0 < si
  · have e2 : put (List.replicate si nil) 0 tru = .ok ((List.replicate si nil).set 0 tru) := by simp [put, hs]
    have e3 : put ((List.replicate si nil).set 0 tru) rcvrIdx rcvr = .ok (((List.replicate si nil).set 0 tru).set 1 rcvr) := by
      simp [put, rcvrIdx, show 1 < si by omega]
    simp only [show (si > 0) = True from eq_true hs, if_true, e2, e3, pure, Except.pure]
    exact ⟨_, rfl, by simp, rfl, fun h => absurd h (by omega), fun _ => rfl⟩
  · simp only [show (si > 0) = False from eq_false hs, if_false, pure, Except.pure]
    exact ⟨_, rfl, by simp, rfl, fun _ => rfl, fun h => h.elim⟩

end PySOM.Frame

import Verif.Lemmas.Object
import Verif.Props.Class
/-!
# Properties C15 (objects are records) and C16 (reflective field access)
-/
set_option autoImplicit false
namespace PySOM.Obj

namespace Spec

/-- The specification: `count` objects, each a record of fields that are nil until written. -/
structure S where
  count : Nat
  val : Nat → Nat → Val

def S.init : S := ⟨0, fun _ _ => .nil⟩

def step (s : S) : Op → Option Val × S
  | .new => (none, { s with count := s.count + 1 })
  | .get o i => if o < s.count then (some (s.val o i), s) else (none, s)
  | .set o i v => if o < s.count then (none, { s with val := fun p j => if p = o ∧ j = i then v else s.val p j }) else (none, s)
  | .sync _ => (none, s)

def run (s : S) : List Op → List (Option Val)
  | [] => []
  | op :: ops => (step s op).1 :: run (step s op).2 ops

/-- The operation uses a field the class has. -/
def FieldOk (n : Nat) : Op → Prop
  | .get _ i => i < n
  | .set _ i _ => i < n
  | _ => True

end Spec

/-- Representation invariant: every instance is well formed, has a layout from which the class's layout developed, and
holds the specified values. -/
structure Rep (n : Nat) (w : World) (s : Spec.S) : Prop where
  len : w.cls.length = n
  count : s.count = w.objs.length
  fresh : ∀ o i, s.count ≤ o → s.val o i = .nil
  objs : ∀ (o : Nat) (ob : Object), w.objs[o]? = some ob →
    WF ob ∧ LLe ob.layout w.cls ∧ ∀ i, i < n → fval ob i = s.val o i

theorem Rep.init (n : Nat) : Rep n (World.init n) Spec.S.init :=
  ⟨by simp [World.init], rfl, fun _ _ _ => rfl, by simp [World.init]⟩

theorem lt_of_get? {α : Type} {l : List α} {i : Nat} {a : α} (h : l[i]? = some a) : i < l.length := by
  by_cases hc : i < l.length
  · exact hc
  · rw [List.getElem?_eq_none (by omega)] at h; cases h

theorem fval_new (L : Layout) (i : Nat) (hn : L.length ≤ 32) (hi : i < L.length) : fval (Object.new L) i = .nil := by
  obtain ⟨t, ht⟩ := get_of_lt hi
  have hl : (Object.new L).layout = L := rfl
  simp only [fval, readLoc, hl, ht]
  cases t with
  | unwritten => rfl
  | obj =>
    simp only [getPtr]
    by_cases hc : ptrIdx L i < nPtr
    · simp only [hc, if_true, Object.new, List.getElem?_replicate]
    · simp only [hc, if_false, Object.new, allocPtrExt]
      have h2 := ptrIdx_lt ht
      rw [if_pos (by omega)]
      simp only [List.getElem?_replicate]
      rw [if_pos (by omega)]
  | int => simp only [isSet, Object.new]; simp
  | dbl => simp only [isSet, Object.new]; simp

/-- One step: either the store is stuck and fails, or the answer is right and the representation is kept. -/
theorem step_rep (n : Nat) (hn : n ≤ 32) (w : World) (s : Spec.S) (h : Rep n w s) (op : Op) (hf : Spec.FieldOk n op) :
    ((∃ o i v ob, op = .set o i v ∧ w.objs[o]? = some ob ∧ Stuck w.cls ob i v) ∧ step w op = .error .assertion) ∨
    ((¬ ∃ o i v ob, op = .set o i v ∧ w.objs[o]? = some ob ∧ Stuck w.cls ob i v) ∧
      ∃ w', step w op = .ok ((Spec.step s op).1, w') ∧ Rep n w' (Spec.step s op).2) := by
  have hnl : w.cls.length ≤ 32 := by rw [h.len]; exact hn
  cases op with
  | new =>
    right
    refine ⟨(by rintro ⟨_, _, _, _, he, _⟩; cases he), _, rfl, h.len, by simp [Spec.step, h.count], ?_, ?_⟩
    · intro o i ho; simp only [Spec.step] at ho ⊢; exact h.fresh o i (by omega)
    · intro o ob hob
      simp only [List.getElem?_append] at hob
      split at hob
      · exact h.objs o ob hob
      · rename_i hlt
        cases hz : (o - w.objs.length) with
        | succ j => simp [hz] at hob
        | zero =>
          simp only [hz, List.getElem?_cons_zero, Option.some.injEq] at hob
          subst hob
          refine ⟨alloc_wf _ _ _ _ (by simp) (by simp), LLe.refl _, ?_⟩
          intro i hi
          rw [fval_new _ _ hnl (by rw [h.len]; exact hi)]
          exact (h.fresh o i (by rw [h.count]; omega)).symm
  | get o i =>
    right
    refine ⟨(by rintro ⟨_, _, _, _, he, _⟩; cases he), ?_⟩
    simp only [step, Spec.step, h.count]
    cases hob : w.objs[o]? with
    | none =>
      have : ¬ o < w.objs.length := by
        intro hc; rw [List.getElem?_eq_getElem hc] at hob; cases hob
      rw [if_neg this]; exact ⟨w, rfl, h⟩
    | some ob =>
      obtain ⟨w1, l1, f1⟩ := h.objs o ob hob
      rw [if_pos (lt_of_get? hob)]
      have hi : i < ob.layout.length := by rw [l1.1, h.len]; exact hf
      have hidx : pyIdx ob.layout.length (i : Int) = some i := by
        simp only [pyIdx]
        rw [if_pos (by omega), if_pos (by omega)]; simp
      refine ⟨w, ?_, h⟩
      simp only [getField, hidx, readLoc_fval w1 hi, bind, Except.bind, pure, Except.pure, f1 i hf]
  | set o i v =>
    cases hob : w.objs[o]? with
    | none =>
      right
      refine ⟨(by rintro ⟨_, _, _, _, he, h2, _⟩; cases he; rw [hob] at h2; cases h2), ?_⟩
      have : ¬ o < w.objs.length := by
        intro hc; rw [List.getElem?_eq_getElem hc] at hob; cases hob
      simp only [step, Spec.step, h.count, hob, if_neg this]
      exact ⟨w, rfl, h⟩
    | some ob =>
      obtain ⟨w1, l1, f1⟩ := h.objs o ob hob
      rcases setField_spec w1 hnl l1 (by rw [h.len]; exact hf) v with ⟨hs, he⟩ | ⟨hs, K', o', he, w', k', l', g1, g2⟩
      · left
        exact ⟨⟨o, i, v, ob, rfl, hob, hs⟩, by simp only [step, hob, he, bind, Except.bind]⟩
      · right
        refine ⟨by rintro ⟨_, _, _, _, he, h2, h3⟩; cases he; rw [hob] at h2; cases h2; exact hs h3, ?_⟩
        have hlt := lt_of_get? hob
        refine ⟨⟨K', w.objs.set o o'⟩, ?_, ?_⟩
        · simp only [step, Spec.step, h.count, hob, if_pos hlt, he, bind, Except.bind, pure, Except.pure]
        · simp only [Spec.step, h.count, if_pos hlt]
          refine ⟨by rw [← k'.1]; exact h.len, by simp, ?_, ?_⟩
          · intro p j hp
            simp only at hp ⊢
            rw [if_neg (by rintro ⟨rfl, _⟩; omega)]
            exact h.fresh p j (by rw [h.count]; exact hp)
          · intro p ob' hp
            simp only [List.getElem?_set] at hp
            by_cases hpo : o = p
            · subst hpo
              simp only [if_true, hlt, Option.some.injEq] at hp
              subst hp
              refine ⟨w', l', ?_⟩
              intro j hj
              by_cases hji : j = i
              · subst hji; simp [g1]
              · simp only [hji, and_false, if_false]
                rw [g2 j (by rw [h.len]; exact hj) hji]; exact f1 j hj
            · simp only [hpo, if_false] at hp
              obtain ⟨a, b, c⟩ := h.objs p ob' hp
              refine ⟨a, b.trans k', ?_⟩
              intro j hj
              have hne : ¬ p = o := fun h => hpo h.symm
              simp [hne, c j hj]
  | sync o =>
    right
    refine ⟨(by rintro ⟨_, _, _, _, he, _⟩; cases he), ?_⟩
    simp only [step, Spec.step]
    cases hob : w.objs[o]? with
    | none => exact ⟨w, rfl, h⟩
    | some ob =>
      obtain ⟨w1, l1, f1⟩ := h.objs o ob hob
      obtain ⟨o', e, w', l', g⟩ := sync_spec w1 hnl l1
      refine ⟨{ w with objs := w.objs.set o o' }, by simp only [e, bind, Except.bind, pure, Except.pure], h.len, by simp [h.count], h.fresh, ?_⟩
      intro p ob' hp
      simp only [List.getElem?_set] at hp
      by_cases hpo : o = p
      · subst hpo
        simp only [if_true, lt_of_get? hob, Option.some.injEq] at hp
        subst hp
        refine ⟨w', by rw [l']; exact LLe.refl _, ?_⟩
        intro j hj
        rw [g j (by rw [h.len]; exact hj)]; exact f1 j hj
      · simp only [hpo, if_false] at hp
        exact h.objs p ob' hp

/-- Worlds reachable by operations from a class with `n` fields. -/
def Reachable (n : Nat) (w : World) : Prop :=
  ∃ ops rs, (∀ op ∈ ops, Spec.FieldOk n op) ∧ run (World.init n) ops = .ok (rs, w)

theorem run_rep (n : Nat) (hn : n ≤ 32) (ops : List Op) : ∀ w s, Rep n w s → (∀ op ∈ ops, Spec.FieldOk n op) →
    ∀ rs w', run w ops = .ok (rs, w') → rs = Spec.run s ops ∧ ∃ s', Rep n w' s' := by
  induction ops with
  | nil => intro w s h _ rs w' hr; cases hr; exact ⟨rfl, s, h⟩
  | cons op ops ih =>
    intro w s h hf rs w' hr
    simp only [run, bind, Except.bind] at hr
    rcases step_rep n hn w s h op (hf op List.mem_cons_self) with ⟨_, he⟩ | ⟨_, w1, he, h1⟩
    · rw [he] at hr; cases hr
    · rw [he] at hr
      simp only at hr
      cases hr2 : run w1 ops with
      | error e => rw [hr2] at hr; cases hr
      | ok p =>
        obtain ⟨rs', w''⟩ := p
        rw [hr2] at hr
        simp only [pure, Except.pure, Except.ok.injEq, Prod.mk.injEq] at hr
        obtain ⟨rfl, rfl⟩ := hr
        obtain ⟨e1, e2⟩ := ih w1 _ h1 (fun o ho => hf o (List.mem_cons_of_mem _ ho)) rs' w'' hr2
        exact ⟨by rw [e1]; rfl, e2⟩

/-! ## C15 -/

/-- **C15** (partial).  Full statement: for every class with any number of fields and every history of creations, stores,
reads and dispatches, `∃ w, run (World.init n) ops = .ok (Spec.run Spec.S.init ops, w)`.  Proved: for classes with at most
32 fields every history that does not fail answers exactly what records of fields would answer.  Which stores fail is
`C15_failure_iff`; classes with more fields: `C15_violated_many_fields`. -/
theorem C15_records_partial (n : Nat) (hn : n ≤ 32) (ops : List Op) (hf : ∀ op ∈ ops, Spec.FieldOk n op)
    (rs : List (Option Val)) (w : World) (h : run (World.init n) ops = .ok (rs, w)) : rs = Spec.run Spec.S.init ops :=
  (run_rep n hn ops _ _ (Rep.init n) hf rs w h).1

/-- **C15**: in every reachable state, the only operation that can fail is a store of a non-nil value into a field that
the object's own (old) layout considers unwritten while its class already recorded another type for the field. -/
theorem C15_failure_iff (n : Nat) (hn : n ≤ 32) (w : World) (hr : Reachable n w) (op : Op) (hf : Spec.FieldOk n op) :
    (∃ e, step w op = .error e) ↔
    ∃ o i v ob, op = .set o i v ∧ w.objs[o]? = some ob ∧ ob.layout[i]? = some .unwritten ∧ v ≠ .nil ∧
      w.cls[i]? ≠ some .unwritten ∧ w.cls[i]? ≠ some (tyOf v) := by
  obtain ⟨ops, rs, h1, h2⟩ := hr
  obtain ⟨_, s, h⟩ := run_rep n hn ops _ _ (Rep.init n) h1 rs w h2
  rcases step_rep n hn w s h op hf with ⟨a, b⟩ | ⟨a, w', b, _⟩
  · exact ⟨fun _ => a, fun _ => ⟨_, b⟩⟩
  · constructor
    · rintro ⟨e, he⟩; rw [b] at he; cases he
    · intro hs; exact absurd hs a

/-- Histories in which message dispatch brings the receiver up to date before each store. -/
def synced : List Op → List Op
  | [] => []
  | .set o i v :: ops => .sync o :: .set o i v :: synced ops
  | op :: ops => op :: synced ops

/-- **C15**: if every store is to an up-to-date object, nothing ever fails: all histories behave exactly like records (for
classes with at most 32 fields). -/
theorem C15_records_synced (n : Nat) (hn : n ≤ 32) (ops : List Op) (hf : ∀ op ∈ ops, Spec.FieldOk n op) :
    ∃ w, run (World.init n) (synced ops) = .ok (Spec.run Spec.S.init (synced ops), w) := by
  have gen : ∀ (ops : List Op) w s, Rep n w s → (∀ op ∈ ops, Spec.FieldOk n op) →
      ∃ w', run w (synced ops) = .ok (Spec.run s (synced ops), w') := by
    intro ops
    induction ops with
    | nil => intro w s _ _; exact ⟨w, rfl⟩
    | cons op ops ih =>
      intro w s h hf
      have hf1 := hf op List.mem_cons_self
      have hf2 : ∀ o ∈ ops, Spec.FieldOk n o := fun o ho => hf o (List.mem_cons_of_mem _ ho)
      have simple : (∀ o i v, op ≠ .set o i v) → ∃ w', run w (op :: synced ops) = .ok (Spec.run s (op :: synced ops), w') := by
        intro hop
        rcases step_rep n hn w s h op hf1 with ⟨⟨o, i, v, _, he, _⟩, _⟩ | ⟨_, w1, b, h1⟩
        · exact absurd he (hop o i v)
        · obtain ⟨w2, e2⟩ := ih w1 _ h1 hf2
          exact ⟨w2, by simp only [run, b, e2, bind, Except.bind, pure, Except.pure, Spec.run]⟩
      cases op with
      | new => exact simple (by intros; simp)
      | get o i => exact simple (by intros; simp)
      | sync o => exact simple (by intros; simp)
      | set o i v =>
        rcases step_rep n hn w s h (.sync o) trivial with ⟨⟨_, _, _, _, he, _⟩, _⟩ | ⟨_, w1, b, h1⟩
        · cases he
        · have hup : ∀ ob, w1.objs[o]? = some ob → ob.layout = w1.cls := by
            intro ob hob
            simp only [step] at b
            cases hob0 : w.objs[o]? with
            | none =>
              rw [hob0] at b
              simp only [Except.ok.injEq, Prod.mk.injEq] at b
              rw [← b.2, hob0] at hob; cases hob
            | some ob0 =>
              obtain ⟨q1, q2, _⟩ := h.objs o ob0 hob0
              obtain ⟨o', e, _, l', _⟩ := sync_spec q1 (by rw [h.len]; exact hn) q2
              simp only [hob0, e, bind, Except.bind, pure, Except.pure, Except.ok.injEq, Prod.mk.injEq] at b
              rw [← b.2] at hob ⊢
              simp only [List.getElem?_set, if_true, lt_of_get? hob0, Option.some.injEq] at hob
              rw [← hob]; exact l'
          rcases step_rep n hn w1 _ h1 (.set o i v) hf1 with ⟨⟨_, _, _, ob, he, hob, hs⟩, _⟩ | ⟨_, w2, b2, h2⟩
          · cases he
            have := hup ob hob
            exact absurd (this ▸ hs.1) hs.2.2.1
          · obtain ⟨w3, e3⟩ := ih w2 _ h2 hf2
            exact ⟨w3, by simp only [synced, run, b, b2, e3, bind, Except.bind, pure, Except.pure, Spec.run]⟩
  exact gen ops _ _ (Rep.init n) hf

example : (run (World.init 3) [.new, .new, .set 0 1 (.int 5), .sync 1, .set 1 1 (.dbl 7), .get 0 1, .set 0 1 (.obj 3), .get 1 1, .get 0 1,
    .set 1 0 (.int 2), .set 1 0 .nil, .get 1 0, .get 1 2]).map (·.1) =
    .ok [none, none, none, none, none, some (.int 5), none, some (.dbl 7), some (.obj 3), none, none, some .nil, some .nil] := by
  decide

/-- **C15 violated**: two instances are created, a string is stored in a field of the first, then an Integer in the same
field of the second: the second store fails an assertion. -/
theorem C15_violated_stale_layout :
    (run (World.init 1) [.new, .new, .set 0 0 (.obj 9), .set 1 0 (.int 5)]).map (·.1) = .error .assertion := by decide

/-- **C15 violated**: in a class with 33 fields all holding Integers, the last one always reads as nil. -/
theorem C15_violated_many_fields :
    (run (World.init 33) ([.new] ++ (List.range 33).map (fun i => .set 0 i (.int 7)) ++ [.get 0 31, .get 0 32])).map (fun r => r.1.drop 34) =
    .ok [some (.int 7), some .nil] := by decide +kernel

/-! ## C16 -/

/-- **C16** (partial).  Full statement: `instVarAt:`/`instVarAt:put:` with an index in range address the field the compiler
would, all other indices are errors; `instVarNamed:` addresses the field of that name or is an error; `objectSize` is
the number of fields.  Proved here: indices in range `1..n` address field `i - 1`, indices above are errors. -/
theorem C16_instVarAt_partial (K : Layout) (o : Object) (i : Int) (v : Val) :
    (1 ≤ i → i ≤ o.layout.length → instVarAt o i = readLoc o (i - 1).toNat ∧ instVarAtPut K o i v = setField K o (i - 1).toNat v) ∧
    ((o.layout.length : Int) < i → instVarAt o i = .error .index ∧ instVarAtPut K o i v = .error .index) := by
  constructor
  · intro h1 h2
    have hidx : pyIdx o.layout.length (i - 1) = some (i - 1).toNat := by
      simp only [pyIdx]; rw [if_pos (by omega), if_pos (by omega)]
    simp only [instVarAt, instVarAtPut, getField, hidx]
    exact ⟨trivial, trivial⟩
  · intro h
    have hidx : pyIdx o.layout.length (i - 1) = none := by
      simp only [pyIdx]; rw [if_pos (by omega), if_neg (by omega)]
    simp only [instVarAt, instVarAtPut, getField, hidx]
    exact ⟨trivial, trivial⟩

/-- **C16 violated**: index 0 is not reported but addresses the last field (−1 the one before it, …). -/
theorem C16_violated_index_zero (o : Object) (h : 0 < o.layout.length) : instVarAt o 0 = readLoc o (o.layout.length - 1) := by
  have hidx : pyIdx o.layout.length (0 - 1) = some (o.layout.length - 1) := by
    simp only [pyIdx]; rw [if_neg (by omega), if_pos (by omega)]
    congr 1; omega
  simp only [instVarAt, getField, hidx]

theorem lookupFieldLoop_spec (fields : List Cls.Name) (f : Cls.Name) (k : Nat) :
    (Cls.lookupFieldLoop fields f k = -1 ∧ ∀ j : Nat, j < k → fields[j]? ≠ some f) ∨
    (∃ i : Nat, i < k ∧ Cls.lookupFieldLoop fields f k = i ∧ fields[i]? = some f ∧ ∀ j : Nat, i < j → j < k → fields[j]? ≠ some f) := by
  induction k with
  | zero => left; exact ⟨rfl, by omega⟩
  | succ k ih =>
    simp only [Cls.lookupFieldLoop]
    by_cases h : fields[k]? = some f
    · right; rw [if_pos h]; exact ⟨k, by omega, rfl, h, by omega⟩
    · rw [if_neg h]
      rcases ih with ⟨a, b⟩ | ⟨i, a, b, c, d⟩
      · left; refine ⟨a, fun j hj => ?_⟩
        by_cases hjk : j = k
        · subst hjk; exact h
        · exact b j (by omega)
      · right; refine ⟨i, by omega, b, c, fun j h1 h2 => ?_⟩
        by_cases hjk : j = k
        · subst hjk; exact h
        · exact d j h1 (by omega)

/-- **C16** (partial): if the names of a class's fields are distinct, `instVarNamed:` of a declared or inherited name reads
exactly the field that compiled code addresses by that name. -/
theorem C16_instVarNamed_partial (fields : List Cls.Name) (hd : fields.Nodup) (f : Cls.Name) (i : Nat)
    (hf : Cls.getFieldIndex fields f = .ok i) (o : Object) (hl : o.layout.length = fields.length) :
    instVarNamed o (Cls.lookupFieldIndex fields f) = readLoc o i := by
  obtain ⟨hi, hfi, _⟩ := Cls.getFieldIndex_ok hf
  have hfi' : fields[i]? = some f := by rw [List.getElem?_eq_getElem hi, hfi]
  rcases lookupFieldLoop_spec fields f fields.length with ⟨_, b⟩ | ⟨j, a, b, c, _⟩
  · exact absurd hfi' (b i hi)
  · have hij : j = i := by
      have hlt : j < fields.length := a
      have e1 : fields[j] = f := by rw [List.getElem?_eq_getElem hlt] at c; exact Option.some.inj c
      exact (List.getElem_inj hd).1 (e1.trans hfi.symm)
    subst hij
    have hidx : pyIdx o.layout.length (Cls.lookupFieldIndex fields f) = some j := by
      simp only [Cls.lookupFieldIndex, b, pyIdx]
      rw [if_pos (by omega), if_pos (by omega)]; simp
    simp only [instVarNamed, getField, hidx]

example : [4, 5, 6].Nodup ∧ Cls.getFieldIndex [4, 5, 6] 5 = .ok 1 ∧
    Cls.lookupFieldIndex [4, 5, 6] 5 = 1 := by decide

/-- **C16 violated**: an unknown name is not reported: `instVarNamed:` reads the last field. -/
theorem C16_violated_unknown_name (fields : List Cls.Name) (f : Cls.Name) (hf : f ∉ fields) (o : Object) (h : 0 < o.layout.length) :
    instVarNamed o (Cls.lookupFieldIndex fields f) = readLoc o (o.layout.length - 1) := by
  rcases lookupFieldLoop_spec fields f fields.length with ⟨a, _⟩ | ⟨j, _, _, c, _⟩
  · have hidx : pyIdx o.layout.length (Cls.lookupFieldIndex fields f) = some (o.layout.length - 1) := by
      simp only [Cls.lookupFieldIndex, a, pyIdx]
      rw [if_neg (by omega), if_pos (by omega)]
      congr 1; omega
    simp only [instVarNamed, getField, hidx]
  · exact absurd (List.mem_of_getElem? c) hf

/-- **C16 violated**: when a subclass redeclares a field name, compiled code uses the first slot of that name,
`instVarNamed:` the last. -/
theorem C16_violated_redeclared : Cls.getFieldIndex (Cls.fieldsOf [4, 5] [4]) 4 = .ok 0 ∧ Cls.lookupFieldIndex (Cls.fieldsOf [4, 5] [4]) 4 = 2 := by
  decide

/-- **C16 violated**: for no object does `objectSize` answer the number of fields: it fails for objects with at most five
pointer fields and answers the number of extension slots otherwise. -/
theorem C16_violated_objectSize (o : Object) (h : WF o) : objectSize o ≠ .ok o.layout.length := by
  simp only [objectSize]
  rcases h.ptrExt with ⟨_, h2⟩ | ⟨h1, ext, h2, h3⟩
  · rw [h2]; simp
  · rw [h2]
    simp only [Except.ok.injEq, ne_eq, Int.natCast_inj, h3]
    have : ptrUsed o.layout ≤ o.layout.length := List.countP_le_length
    simp only [nPtr] at *
    omega

example : objectSize (Object.new [.int, .obj]) = .error .type ∧ objectSize (Object.new (List.replicate 7 .obj)) = .ok 2 := by decide

/-- Every object of a reachable world is well formed, so `C16_violated_objectSize` applies to all objects. -/
theorem C16_reachable_wf (n : Nat) (hn : n ≤ 32) (w : World) (hr : Reachable n w) (ob : Object) (h : ob ∈ w.objs) : WF ob := by
  obtain ⟨ops, rs, h1, h2⟩ := hr
  obtain ⟨_, s, hrep⟩ := run_rep n hn ops _ _ (Rep.init n) h1 rs w h2
  obtain ⟨i, hi⟩ := List.mem_iff_getElem?.1 h
  exact (hrep.objs i ob hi).1

/-! ## Incrementing a field -/

theorem setPrim_used {o o' : Object} {k : Nat} {w : Int} (h : setPrim o k w = .ok o') : o'.used = o.used := by
  unfold setPrim at h
  split at h
  · cases h; rfl
  · split at h
    · cases h; rfl
    · cases h

theorem markSet_of_isSet {o : Object} {m : Nat} (h : isSet o m = true) : markSet o m = o := by
  simp only [isSet, bne_iff_ne, ne_eq] at h
  simp only [markSet, if_neg h]

/-- **C30**: incrementing a field with one instruction gives what reading the field, incrementing the value and storing it gives, except
that it fails when a machine integer overflows. -/
theorem C30_increment_field_partial (N : Inc) (K : Layout) (o : Object) (i : Nat) :
    (∀ u o', incLoc N o i = .ok (u, o') → ∃ v, readLoc o i = .ok v ∧ primInc N v = .ok u ∧ setField K o i u = .ok (K, o')) ∧
    (∀ v u, readLoc o i = .ok v → primInc N v = .ok u →
      (∃ e, incLoc N o i = .error e ∧ setField K o i u = .error e) ∨
      (∃ o', incLoc N o i = .ok (u, o') ∧ setField K o i u = .ok (K, o')) ∨
      (∃ k, v = .int k ∧ N.fits (k + 1) = false ∧ o.layout[i]? = some .int ∧ incLoc N o i = .error .notImplemented)) := by
  cases hl : o.layout[i]? with
  | none =>
    simp only [incLoc, readLoc, hl]
    exact ⟨fun _ _ h => (by cases h), fun _ _ h => (by cases h)⟩
  | some t =>
    cases t with
    | unwritten =>
      simp only [incLoc, readLoc, hl]
      refine ⟨fun _ _ h => (by cases h), fun _ _ h h' => ?_⟩
      cases h
      cases h'
    | obj =>
      simp only [incLoc, readLoc, hl, setField, writeLoc]
      cases hg : getPtr o (ptrIdx o.layout i) with
      | error e => exact ⟨fun _ _ h => (by cases h), fun _ _ h => (by cases h)⟩
      | ok v =>
        cases hp : primInc N v with
        | error e =>
          refine ⟨fun _ _ h => ?_, fun _ _ h h' => ?_⟩
          · simp only [bind, Except.bind, hp] at h; cases h
          · cases h; rw [hp] at h'; cases h'
        | ok u =>
          cases hs : setPtr o (ptrIdx o.layout i) u with
          | error e =>
            refine ⟨fun _ _ h => ?_, fun _ _ h h' => ?_⟩
            · simp only [bind, Except.bind, hp, hs] at h; cases h
            · cases h
              rw [hp] at h'
              cases h'
              left
              simp only [bind, Except.bind, hp, hs, Write.of]
              exact ⟨e, rfl, rfl⟩
          | ok o' =>
            refine ⟨fun _ _ h => ?_, fun _ _ h h' => ?_⟩
            · simp only [bind, Except.bind, hp, hs, pure, Except.pure] at h
              cases h
              exact ⟨v, rfl, hp, by simp only [hs, Write.of]⟩
            · cases h
              rw [hp] at h'
              cases h'
              right; left
              simp only [bind, Except.bind, hp, hs, Write.of, pure, Except.pure]
              exact ⟨o', rfl, rfl⟩
    | int =>
      simp only [incLoc, readLoc, hl, setField, writeLoc]
      cases hi : isSet o (mask (primIdx o.layout i)) with
      | false =>
        simp only [Bool.false_eq_true, if_false]
        refine ⟨fun _ _ h => (by cases h), fun _ _ h h' => ?_⟩
        cases h
        cases h'
      | true =>
        simp only [if_true]
        cases hg : getPrim o (primIdx o.layout i) with
        | error e => exact ⟨fun _ _ h => (by cases h), fun _ _ h => (by cases h)⟩
        | ok w =>
          simp only [Except.map, bind, Except.bind]
          cases hf : N.fits (w + 1) with
          | false =>
            simp only [Bool.false_eq_true, if_false]
            refine ⟨fun _ _ h => (by cases h), fun _ _ h h' => ?_⟩
            cases h
            exact .inr (.inr ⟨w, rfl, hf, trivial, trivial⟩)
          | true =>
            simp only [if_true]
            cases hs : setPrim o (primIdx o.layout i) (w + 1) with
            | error e =>
              refine ⟨fun _ _ h => (by cases h), fun _ _ h h' => ?_⟩
              cases h
              simp only [primInc, hf, if_true] at h'
              cases h'
              left
              simp only [hs, Write.of]
              exact ⟨e, rfl, rfl⟩
            | ok o' =>
              have hm : markSet o' (mask (primIdx o.layout i)) = o' := markSet_of_isSet (by
                simp only [isSet, setPrim_used hs] at hi ⊢; exact hi)
              refine ⟨fun _ _ h => ?_, fun _ _ h h' => ?_⟩
              · cases h
                exact ⟨.int w, rfl, by simp only [primInc, hf, if_true], by simp only [hs, hm, Write.of]⟩
              · cases h
                simp only [primInc, hf, if_true] at h'
                cases h'
                right; left
                simp only [hs, hm, Write.of]
                exact ⟨o', rfl, rfl⟩
    | dbl =>
      simp only [incLoc, readLoc, hl, setField, writeLoc]
      cases hi : isSet o (mask (primIdx o.layout i)) with
      | false =>
        simp only [Bool.false_eq_true, if_false]
        refine ⟨fun _ _ h => (by cases h), fun _ _ h h' => ?_⟩
        cases h
        cases h'
      | true =>
        simp only [if_true]
        cases hg : getPrim o (primIdx o.layout i) with
        | error e => exact ⟨fun _ _ h => (by cases h), fun _ _ h => (by cases h)⟩
        | ok w =>
          simp only [Except.map, bind, Except.bind]
          cases hs : setPrim o (primIdx o.layout i) (toWord (N.dinc (ofWord w))) with
          | error e =>
            refine ⟨fun _ _ h => (by cases h), fun _ _ h h' => ?_⟩
            cases h
            simp only [primInc] at h'
            cases h'
            left
            simp only [hs, Write.of]
            exact ⟨e, rfl, rfl⟩
          | ok o' =>
            have hm : markSet o' (mask (primIdx o.layout i)) = o' := markSet_of_isSet (by
              simp only [isSet, setPrim_used hs] at hi ⊢; exact hi)
            refine ⟨fun _ _ h => ?_, fun _ _ h h' => ?_⟩
            · cases h
              exact ⟨.dbl (ofWord w), rfl, rfl, by simp only [hs, hm, Write.of]⟩
            · cases h
              simp only [primInc] at h'
              cases h'
              right; left
              simp only [hs, hm, Write.of]
              exact ⟨o', rfl, rfl⟩

/-- Numbers up to 2⁶³ - 1. -/
def inc64 : Inc := ⟨fun k => decide (k < 2 ^ 63), fun d => d + 1, fun k => k.toNat, fun n => .ok (.obj (n + 1))⟩

/-- An object with one field that holds `k`. -/
def withInt (k : Int) : Object := { Object.new [.int] with prim := [k, 0, 0, 0, 0], used := 1 }

/-- The field of an object that was set to 41. -/
example : incLoc inc64 (withInt 41) 0 = .ok (.int 42, withInt 42) ∧ readLoc (withInt 41) 0 = .ok (.int 41) ∧
    primInc inc64 (.int 41) = .ok (.int 42) ∧ setField [.int] (withInt 41) 0 (.int 42) = .ok ([.int], withInt 42) := by decide

/-- **C30 is violated**: `f := f + 1` fails when the field holds the largest machine integer, while reading, incrementing and storing gives
the next number. -/
theorem C30_violated_field_overflow :
    incLoc inc64 (withInt (2 ^ 63 - 1)) 0 = .error .notImplemented ∧
    readLoc (withInt (2 ^ 63 - 1)) 0 = .ok (.int (2 ^ 63 - 1)) ∧ primInc inc64 (.int (2 ^ 63 - 1)) = .ok (.obj (2 ^ 63)) ∧
    (setField [.int] (withInt (2 ^ 63 - 1)) 0 (.obj (2 ^ 63))).toOption.map (fun p => readLoc p.2 0) = some (.ok (.obj (2 ^ 63))) := by
  decide

end PySOM.Obj

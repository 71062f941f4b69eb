import Verif.Props.Object
/-!
# Objects that are the only instances of their classes
-/
set_option autoImplicit false
namespace PySOM.Obj

theorem setPtr_layout {o o' : Object} {k : Nat} {v : Val} (h : setPtr o k v = .ok o') : o'.layout = o.layout := by
  unfold setPtr at h
  repeat' split at h
  all_goals first | (cases h; rfl) | cases h

theorem setPrim_layout {o o' : Object} {k : Nat} {w : Int} (h : setPrim o k w = .ok o') : o'.layout = o.layout := by
  unfold setPrim at h
  repeat' split at h
  all_goals first | (cases h; rfl) | cases h

theorem unset_layout {o o' : Object} {m : Nat} {v : Val} (h : unsetOrGeneralize o m v = .done o') : o'.layout = o.layout := by
  unfold unsetOrGeneralize at h
  split at h
  · cases h; exact (markUnset_fields o m).1
  · cases h

theorem writeLoc_layout {o o' : Object} {i : Nat} {v : Val} (h : writeLoc o i v = .done o') : o'.layout = o.layout := by
  have prim : ∀ (k : Nat) (w : Int) (m : Nat), Write.of ((setPrim o k w).map fun o' => markSet o' m) = .done o' → o'.layout = o.layout := fun k w m h => by
    cases e : setPrim o k w with
    | error e' => rw [e] at h; cases h
    | ok o1 => rw [e] at h; cases h; exact (markSet_fields o1 m).1.trans (setPrim_layout e)
  unfold writeLoc at h
  split at h
  · cases h
  · split at h
    · cases h; rfl
    · cases h
  · cases e : setPtr o (ptrIdx o.layout i) v with
    | error e' => rw [e] at h; cases h
    | ok o1 => rw [e] at h; cases h; exact setPtr_layout e
  · split at h
    · exact prim _ _ _ h
    · exact unset_layout h
  · split at h
    · exact prim _ _ _ h
    · exact unset_layout h

theorem setFieldsFrom_layout : ∀ {vs : List (Option Val)} {o o' : Object} {i : Nat}, setFieldsFrom o i vs = .ok o' → o'.layout = o.layout
  | [], _, _, _, h => by cases h; rfl
  | v :: vs, o, o', i, h => by
    unfold setFieldsFrom at h
    cases e : writeLoc o i (v.getD .nil) with
    | done o1 => rw [e] at h; exact (setFieldsFrom_layout h).trans (writeLoc_layout e)
    | _ => rw [e] at h; cases h

theorem transfer_layout {o o' : Object} {L : Layout} (h : transfer o L = .ok o') : o'.layout = L := by
  unfold transfer at h
  cases e : getAllFields o with
  | error _ => rw [e] at h; cases h
  | ok vs => rw [e] at h; exact setFieldsFrom_layout h

theorem setField_layout {K K' : Layout} {o o' : Object} {i : Nat} {v : Val} (hl : o.layout = K) (h : setField K o i v = .ok (K', o')) : o'.layout = K' := by
  have rest : ∀ (x : Except Err Layout), (do
      let L ← x
      if L = o.layout then .error .assertion
      else
        let o ← transfer o L
        match writeLoc o i v with
        | .done o => return (L, o)
        | .err e => .error e
        | _ => .error .other : Except Err (Layout × Object)) = .ok (K', o') → o'.layout = K' := by
    intro x hx
    cases x with
    | error e => cases hx
    | ok L =>
      simp only [bind, Except.bind] at hx
      split at hx
      · cases hx
      · cases e : transfer o L with
        | error _ => rw [e] at hx; cases hx
        | ok o1 =>
          rw [e] at hx
          dsimp only at hx
          cases e2 : writeLoc o1 i v with
          | done o2 => rw [e2] at hx; cases hx; exact (writeLoc_layout e2).trans (transfer_layout e)
          | _ => rw [e2] at hx; cases hx
  unfold setField at h
  cases e : writeLoc o i v with
  | done o1 => rw [e] at h; cases h; exact (writeLoc_layout e).trans hl
  | err _ => rw [e] at h; cases h
  | uninitialized => rw [e] at h; exact rest _ h
  | generalize => rw [e] at h; exact rest _ h

/-- An object that is the only instance of its class is a record: nothing fails. -/
theorem single (n : Nat) (hn : n ≤ 32) (ops : List Op) (hf : ∀ op ∈ ops, Spec.FieldOk n op) (hnew : ∀ op ∈ ops, op ≠ .new) :
    ∃ w, run (World.init n) (.new :: ops) = .ok (Spec.run Spec.S.init (.new :: ops), w) := by
  have gen : ∀ (ops : List Op) w s, Rep n w s → (∀ (o : Nat) ob, w.objs[o]? = some ob → ob.layout = w.cls) → w.objs.length ≤ 1 → (∀ op ∈ ops, Spec.FieldOk n op) → (∀ op ∈ ops, op ≠ .new) →
      ∃ w', run w ops = .ok (Spec.run s ops, w') := by
    intro ops
    induction ops with
    | nil => intro w s _ _ _ _ _; exact ⟨w, rfl⟩
    | cons op ops ih =>
      intro w s h hl hc hf hnew
      rcases step_rep n hn w s h op (hf op List.mem_cons_self) with ⟨⟨o, i, v, ob, he, hob, hs⟩, _⟩ | ⟨_, w1, b, h1⟩
      · exact absurd (hl o ob hob ▸ hs.1) hs.2.2.1
      · have key : (∀ (o : Nat) ob, w1.objs[o]? = some ob → ob.layout = w1.cls) ∧ w1.objs.length ≤ 1 := by
          cases op with
          | new => exact absurd rfl (hnew _ List.mem_cons_self)
          | get o i =>
            simp only [step] at b
            split at b
            · simp only [Except.ok.injEq, Prod.mk.injEq] at b
              rw [← b.2]
              exact ⟨hl, hc⟩
            · rename_i ob _
              cases e : getField ob i with
              | error _ => rw [e] at b; cases b
              | ok x =>
                rw [e] at b
                simp only [bind, Except.bind, pure, Except.pure, Except.ok.injEq, Prod.mk.injEq] at b
                rw [← b.2]
                exact ⟨hl, hc⟩
          | sync o =>
            simp only [step] at b
            split at b
            · simp only [Except.ok.injEq, Prod.mk.injEq] at b
              rw [← b.2]
              exact ⟨hl, hc⟩
            · rename_i ob hob
              have : sync w.cls ob = .ok ob := by unfold sync; rw [if_neg (by simp [hl o ob hob]), if_neg (by simp [hl o ob hob])]
              rw [this] at b
              simp only [bind, Except.bind, pure, Except.pure, Except.ok.injEq, Prod.mk.injEq] at b
              rw [← b.2]
              refine ⟨fun p ob' hp => ?_, by simpa using hc⟩
              simp only [List.getElem?_set] at hp
              split at hp
              · split at hp
                · cases hp; exact hl o ob hob
                · cases hp
              · exact hl p ob' hp
          | set o i v =>
            simp only [step] at b
            split at b
            · simp only [Except.ok.injEq, Prod.mk.injEq] at b
              rw [← b.2]
              exact ⟨hl, hc⟩
            · rename_i ob hob
              cases e : setField w.cls ob i v with
              | error _ => rw [e] at b; cases b
              | ok x =>
                obtain ⟨K, ob1⟩ := x
                rw [e] at b
                simp only [bind, Except.bind, pure, Except.pure, Except.ok.injEq, Prod.mk.injEq] at b
                rw [← b.2]
                refine ⟨fun p ob' hp => ?_, by simpa using hc⟩
                have hp0 : o = p := by
                  have h1 : p < w.objs.length := by simpa using lt_of_get? hp
                  have h2 := lt_of_get? hob
                  omega
                subst hp0
                simp only [List.getElem?_set, if_true, lt_of_get? hob, Option.some.injEq] at hp
                rw [← hp]
                exact setField_layout (hl o ob hob) e
        obtain ⟨w2, e2⟩ := ih w1 _ h1 key.1 key.2 (fun o ho => hf o (List.mem_cons_of_mem _ ho)) fun o ho => hnew o (List.mem_cons_of_mem _ ho)
        exact ⟨w2, by simp only [run, b, e2, bind, Except.bind, pure, Except.pure, Spec.run]⟩
  rcases step_rep n hn (World.init n) Spec.S.init (Rep.init n) .new trivial with ⟨⟨_, _, _, _, he, _⟩, _⟩ | ⟨_, w1, b, h1⟩
  · cases he
  · have e : w1 = ⟨List.replicate n .unwritten, [.new (List.replicate n .unwritten)]⟩ := by
      simp only [step, World.init, Except.ok.injEq, Prod.mk.injEq, List.nil_append] at b
      exact b.2.symm
    subst e
    obtain ⟨w2, e2⟩ := gen ops _ _ h1 (fun o ob ho => by
      cases o with
      | zero => cases ho; rfl
      | succ o => cases ho) (Nat.le_refl _) hf hnew
    exact ⟨w2, by simp only [run, b, e2, bind, Except.bind, pure, Except.pure, Spec.run]⟩

end PySOM.Obj

import Verif.Lemmas.AstApprox
/-!
# The world of an inlined block is like the one outside
-/
set_option autoImplicit false
namespace PySOM.BC
open PySOM

section
variable {W E : Type} {I D F C N : Prop} {A : World Nat W E} {U : Sel → Nat → Src.Rel W E} {lvl : Nat}

/-- The variable outside. -/
def Tgt.pull (env locals : List Nat) : Tgt → Tgt
  | .var n true i l => .var n true i (l - 1)
  | .var n false i 0 => .var n false (movedTo env locals i) 0
  | .var n false i (l + 1) => .var n false i l
  | .fld n i => .fld n i

theorem store_pull (env locals : List Nat) (v : Val) (t : Tgt) :
    Src.store (A.pull lvl env locals) (lvl + 1) v t = Src.lift (Src.store A lvl v (t.pull env locals)) := by
  rcases t with ⟨n, _ | _, i, l⟩ | ⟨n, i⟩
  · cases l <;> exact act_pull _ _ _ _ _
  · exact act_pull _ _ _ _ _
  · exact act_pull _ _ _ _ _

theorem Std.pull (h : Std I D F C N A U lvl) (env locals : List Nat) : Std I D F C N (A.pull lvl env locals) (pullU U) (lvl + 1) where
  glob n hn := by
    rw [act_pull]
    show Src.lift (U n lvl) = Src.lift (Src.glob A n)
    rw [h.glob n hn, Src.glob_eq, if_neg (fun e => hn (.inl e)), if_neg (fun e => hn (.inr (.inl e))), if_neg (fun e => hn (.inr (.inr e)))]
  inc hI v := by
    rw [act_pull, act_pull]
    exact congrArg Src.lift (h.inc hI v)
  dec hD v := by
    rw [act_pull, act_pull]
    exact congrArg Src.lift (h.dec hD v)
  fuse hF := by
    intro i l
    have e : Src.act A (.incFld i (l - 1)) = Src.incField A (Src.machine A) i (l - 1) := Src.rel_ext (h.fuse hF i (l - 1))
    have e2 : Src.incField (A.pull lvl env locals) (Src.machine (A.pull lvl env locals)) i l = Src.lift (Src.incField A (Src.machine A) i (l - 1)) := by
      simp only [Src.incField, Src.machine, Src.lift_bind, Src.lift_pure, act_pull, Act.pull]
    intro w r w'
    rw [act_pull, e2, ← e]
    exact Iff.rfl
  comm hC v t u := by
    have := congrArg Src.lift (h.comm hC v (t.pull env locals) (u.pull env locals))
    simp only [Src.lift_bind, Src.lift_pure] at this
    rw [store_pull, store_pull]
    exact this
  nlr _ := by
    refine .inr fun v w u w' h1 => ?_
    have h1 : Src.lift (if lvl = 0 then Src.answer v else Src.bind (Src.act A (.nlr lvl v)) Src.answer) w (.val u) w' := h1
    obtain ⟨r0, e, h1⟩ := h1
    cases Src.Res.lift_val e
    split at h1
    · cases h1.1
    · rcases h1 with ⟨_, _, _, h1⟩ | ⟨_, h1⟩
      · cases h1.1
      · exact h1

/-- Stores may be exchanged. -/
theorem Std.swap (h : Std I D F C N A U lvl) (hC : C) (v : Val) (t u : Tgt) (k : Src.Rel W E) :
    Src.bind (Src.store A lvl v t) (fun _ => Src.bind (Src.store A lvl v u) fun _ => k) = Src.bind (Src.store A lvl v u) (fun _ => Src.bind (Src.store A lvl v t) fun _ => k) := by
  have := congrArg (fun R => Src.bind R fun _ => k) (h.comm hC v t u)
  simpa only [Src.bind_assoc, Src.pure_bind] using this

/-- Stores from right to left. -/
def storesRev (A : World Nat W E) (lvl : Nat) (v : Val) : List Tgt → Src.Rel W E
  | [] => Src.pure v
  | t :: ts => Src.bind (storesRev A lvl v ts) fun _ => Src.bind (Src.store A lvl v t) fun _ => Src.pure v

theorem storesRev_value (v : Val) : ∀ (ts : List Tgt) (k : Val → Src.Rel W E), Src.bind (storesRev A lvl v ts) k = Src.bind (storesRev A lvl v ts) fun _ => k v
  | [], k => by simp only [storesRev, Src.pure_bind]
  | t :: ts, k => by simp only [storesRev, Src.bind_assoc, Src.pure_bind]

theorem stores_last (h : Std I D F C N A U lvl) (hC : C) (v : Val) (t : Tgt) (k : Src.Rel W E) : ∀ (ts : List Tgt),
    Src.bind (Src.stores A lvl v ts) (fun _ => Src.bind (Src.store A lvl v t) fun _ => k) = Src.bind (Src.store A lvl v t) fun _ => Src.bind (Src.stores A lvl v ts) fun _ => k
  | [] => by simp only [Src.stores, Src.pure_bind]
  | u :: ts => by
    simp only [Src.stores, Src.bind_assoc]
    have : (fun _ : Val => Src.bind (Src.stores A lvl v ts) fun _ => Src.bind (Src.store A lvl v t) fun _ => k) =
        fun _ => Src.bind (Src.store A lvl v t) fun _ => Src.bind (Src.stores A lvl v ts) fun _ => k := by
      funext _; exact stores_last h hC v t k ts
    rw [this]
    exact h.swap hC v u t _

theorem stores_value (v : Val) : ∀ (ts : List Tgt) (k : Val → Src.Rel W E), Src.bind (Src.stores A lvl v ts) k = Src.bind (Src.stores A lvl v ts) fun _ => k v
  | [], k => by simp only [Src.stores, Src.pure_bind]
  | t :: ts, k => by
    simp only [Src.stores, Src.bind_assoc]
    congr 1; funext _
    exact stores_value v ts k

theorem stores_pure (v : Val) (ts : List Tgt) : (Src.bind (Src.stores A lvl v ts) fun _ => Src.pure v) = Src.stores A lvl v ts := by
  rw [← stores_value v ts Src.pure, bind_pure]

theorem storesRev_eq (h : Std I D F C N A U lvl) (v : Val) : ∀ (t : Tgt) (ts : List Tgt), (ts ≠ [] → C) → storesRev A lvl v (t :: ts) = Src.stores A lvl v (t :: ts)
  | t, [], _ => by simp only [storesRev, Src.stores, Src.pure_bind]
  | t, u :: ts, hC => by
    have hC := hC (by simp)
    rw [storesRev, storesRev_eq h v u ts fun _ => hC]
    rw [stores_last h hC v t (Src.pure v) (u :: ts), stores_pure]
    rfl

theorem stores_onMeth (v : Val) : ∀ (ts : List Tgt), Src.stores (onMeth A) lvl v ts = Src.stores A lvl v ts
  | [] => rfl
  | t :: ts => by
    simp only [Src.stores, stores_onMeth v ts]
    cases t <;> rfl

theorem glob_onMeth (n : Sel) : Src.glob (onMeth A) n = Src.glob A n := rfl

/-! ## Assignments -/

/-- The value is an increment of the field. -/
def Node.incOf (e : Node) (t : Tgt) : Prop := ∃ nm i l, t = .fld nm i ∧ e = .inc (.fld i l)

theorem sourceOf_ok {chain : List (List Nat)} {i l s : Nat} (h : sourceOf chain i l = .ok s) : ∃ ls, chain[l]? = some ls ∧ ls[i]? = some s := by
  unfold sourceOf getLocal at h
  cases hl : chain[l]? with
  | none => rw [hl] at h; cases h
  | some ls =>
    rw [hl] at h
    dsimp only at h
    cases hi : ls[i]? with
    | none => rw [hi] at h; cases h
    | some x => rw [hi] at h; cases h; exact ⟨ls, rfl, hi⟩

theorem writeNode_cases {chain : List (List Nat)} {e nd : Node} {t : Tgt} (h : writeNode chain lvl e t = .ok nd) :
    (¬ e.incOf t ∧ (∀ x, nd ≠ .inc x) ∧ nd.throws = e.throws ∧ (e.ok chain → nd.ok chain) ∧ (∀ (W E : Type) (A : World Nat W E) U err, nd.exec A U err = Src.bind (e.exec A U err) fun v =>
      Src.bind (Src.store A lvl v t) fun _ => Src.pure v)) ∨
    (∃ nm i l, t = .fld nm i ∧ e = .inc (.fld i l) ∧ nd = .fldInc i lvl) := by
  rcases t with ⟨nm, _ | _, i, l⟩ | ⟨nm, i⟩
  · simp only [writeNode] at h
    obtain ⟨s, hs, h⟩ := except_bind_ok h
    cases h
    refine .inl ⟨fun h => ?_, fun _ h => (nomatch h), rfl, fun h => ⟨h, ?_⟩, fun _ _ _ _ _ => rfl⟩
    · obtain ⟨_, _, _, h, _⟩ := h; cases h
    · exact sourceOf_ok hs
  · cases h
    refine .inl ⟨fun h => ?_, fun _ h => (nomatch h), rfl, fun h => h, fun _ _ _ _ _ => rfl⟩
    obtain ⟨_, _, _, h, _⟩ := h; cases h
  · by_cases hi : ∃ l, e = .inc (.fld i l)
    · obtain ⟨l, rfl⟩ := hi
      simp only [writeNode, if_true] at h
      cases h
      exact .inr ⟨_, _, _, rfl, rfl, rfl⟩
    · have : writeNode chain lvl e (.fld nm i) = .ok (.fldW i lvl e) := by
        unfold writeNode
        dsimp only
        split
        · rename_i j l
          rw [if_neg]
          rintro rfl
          exact hi ⟨_, rfl⟩
        · rfl
      rw [this] at h
      cases h
      refine .inl ⟨fun h => ?_, fun _ h => (nomatch h), rfl, fun h => h, fun _ _ _ _ _ => rfl⟩
      obtain ⟨_, _, l, h, h2⟩ := h
      cases h
      exact hi ⟨l, h2⟩


theorem writeNodes_ok {chain : List (List Nat)} {e : Node} (hc : chain.length = lvl + 1) (he : e.ok chain) : ∀ (t : Tgt) (ts : List Tgt) (nd : Node),
    writeNodes chain lvl e (t :: ts) = .ok nd → (∀ nm j l, e = .inc (.fld j l) → (t :: ts).getLast? = some (.fld nm j) → F) →
    (∀ x, nd ≠ .inc x) ∧ (nd.throws = true → e.throws = true) ∧ nd.ok chain ∧ (∀ (W E : Type) (A : World Nat W E) U err, Std I D F C N A U lvl →
      nd.exec A U err = Src.bind (e.exec A U err) fun v => storesRev A lvl v (t :: ts))
  | t, [], nd, h, hF => by
    simp only [writeNodes] at h
    obtain ⟨e1, h1, h⟩ := except_bind_ok h
    cases h1
    rcases writeNode_cases h with ⟨_, h1, h2, h3, h4⟩ | ⟨nm, i, l, rfl, rfl, rfl⟩
    · refine ⟨h1, fun h => h2 ▸ h, h3 he, fun W E A U err _ => ?_⟩
      rw [h4]
      simp only [storesRev, Src.pure_bind]
    · refine ⟨fun _ h => (nomatch h), fun h => (nomatch h), trivial, fun W E A U err hs => ?_⟩
      have hl : l = lvl := by
        have : l + 1 = chain.length := he
        omega
      subst hl
      have := hs.fuse (hF nm i l rfl rfl)
      rw [Node.exec, incFld_eq this]
      simp only [Src.incField, Src.machine, Node.exec, Src.bind_assoc, storesRev, Src.pure_bind, Src.store]
  | t, u :: ts, nd, h, hF => by
    rw [writeNodes] at h
    obtain ⟨e1, h1, h⟩ := except_bind_ok h
    obtain ⟨i1, i2, i3, i4⟩ := writeNodes_ok hc he u ts e1 h1 fun nm j l he hl => hF nm j l he (by rw [List.getLast?_cons_cons]; exact hl)
    rcases writeNode_cases h with ⟨_, h1, h2, h3, h4⟩ | ⟨nm, i, l, rfl, rfl, rfl⟩
    · refine ⟨h1, fun h => i2 (h2 ▸ h), h3 i3, fun W E A U err hs => ?_⟩
      rw [h4, i4 W E A U err hs, Src.bind_assoc]
      congr 1
      funext v
      rw [storesRev_value]
      rfl
    · exact absurd rfl (i1 _)

end
end PySOM.BC

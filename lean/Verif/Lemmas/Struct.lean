import Verif.Spec.Struct
/-!
# Structured code and its encoding

The interpreter loop on the bytes of structured code does what the evaluation rules of the structured code say, in both directions.
-/
set_option autoImplicit false
namespace PySOM.BC

section
variable {M W E : Type}

/-- `bs` stands in `B` at position `pc`. -/
def At (B : List Nat) (pc : Nat) (bs : List Nat) : Prop := ∃ pre post, B = pre ++ (bs ++ post) ∧ pre.length = pc

theorem At.left {B : List Nat} {pc : Nat} {x y : List Nat} (h : At B pc (x ++ y)) : At B pc x := by
  obtain ⟨pre, post, h1, h2⟩ := h
  exact ⟨pre, y ++ post, by simpa using h1, h2⟩

theorem At.right {B : List Nat} {pc : Nat} {x y : List Nat} (h : At B pc (x ++ y)) : At B (pc + x.length) y := by
  obtain ⟨pre, post, h1, h2⟩ := h
  exact ⟨pre ++ x, post, by simpa using h1, by simp [h2]⟩

theorem At.decode {B : List Nat} {pc : Nat} {bs : List Nat} (h : At B pc bs) {lits : List (Lit M)} {d : Dec M} (hd : Is lits d bs) :
    decode lits (B.drop pc) = some d := by
  obtain ⟨pre, post, h1, h2⟩ := h
  rw [h1, ← h2, List.drop_left]
  exact hd post

/-! ## Depth -/

theorem Ins.eff_ty (i : Ins M) (s : List Val) (d : Nat) (h : i.ty s.length = some d) :
    (match i.eff s with
      | .pure s' => s'.length = d
      | .act _ (.push s') => s'.length + 1 = d
      | .act _ (.drop s') => s'.length = d
      | .act _ .ret => True
      | .ret _ => True
      | .underflow => False) := by
  cases i <;> cases s <;> simp_all [Ins.ty, Ins.eff] <;> (try split) <;> simp_all <;> (try split) <;> simp_all <;> omega

theorem InsEval.depth {A : World M W E} {i : Ins M} {s s' : List Val} {w w' : W} {d : Nat} (h : InsEval A i s w (.ok s' w'))
    (ht : i.ty s.length = some d) : s'.length = d := by
  have he := Ins.eff_ty i s d ht
  generalize ho : (Out.ok s' w' : Out W E) = o at h
  cases h with
  | pure s'' h => rw [h] at he; cases ho; exact he
  | ret v h => cases ho
  | act a n v w'' h ha =>
    rw [h] at he
    cases n with
    | push t => cases ho; simpa using he
    | drop t => cases ho; exact he
    | ret => cases ho
  | raise a n e w'' h ha => cases ho

theorem SEval.depth {A : World M W E} {c : SC M} {s : List Val} {w : W} {o : Out W E} (h : SEval A c s w o) :
    ∀ (d : Nat) (s' : List Val) (w' : W), c.ty s.length = some d → o = .ok s' w' → s'.length = d := by
  induction h with
  | nop s w => rintro d s' w' ht ho; cases ho; simpa [SC.ty] using ht
  | ins i s w o h => rintro d s' w' ht ho; subst ho; exact h.depth ht
  | seq a b s s1 w w1 o ha hb iha ihb =>
    rintro d s' w' ht ho
    simp only [SC.ty] at ht
    cases hta : a.ty s.length with
    | none => rw [hta] at ht; cases ht
    | some d1 =>
      rw [hta] at ht
      have := iha d1 s1 w1 hta rfl
      exact ihb d s' w' (by rw [this]; exact ht) ho
  | seqStop a b s w o hstop ha iha => rintro d s' w' ht ho; subst ho; exact hstop.elim
  | thenJump c body v s w hc =>
    rintro d s' w' ht ho; cases ho
    simp only [SC.ty] at ht; split at ht
    · cases ht; simp
    · cases ht
  | thenBody c body v s w o hc hb ih =>
    rintro d s' w' ht ho
    simp only [SC.ty] at ht; split at ht
    case isTrue hh => cases ht; exact ih _ s' w' (by simpa using hh.2) ho
    case isFalse => cases ht
  | ifFirst c a b v s w o hc ha ih =>
    rintro d s' w' ht ho
    simp only [SC.ty] at ht; split at ht
    case isTrue hh => exact ih _ s' w' (by simpa using ht) ho
    case isFalse => cases ht
  | ifSecond c a b v s w o hc ha ih =>
    rintro d s' w' ht ho
    simp only [SC.ty] at ht; split at ht
    case isTrue hh => rw [hh.2] at ht; exact ih _ s' w' (by simpa using ht) ho
    case isFalse => cases ht
  | loopExit c cond body v s s1 w w1 hcond hc ih =>
    rintro d s' w' ht ho; cases ho
    simp only [SC.ty] at ht; split at ht
    case isTrue hh => cases ht; have := ih _ _ _ hh.1 rfl; simpa using this
    case isFalse => cases ht
  | loopCondStop c cond body s w o hstop hcond ih => rintro d s' w' ht ho; subst ho; exact hstop.elim
  | loopBodyStop c cond body v s s1 w w1 o hstop hcond hc hbody ih1 ih2 => rintro d s' w' ht ho; subst ho; exact hstop.elim
  | loopNext c cond body v s s1 s2 w w1 w2 o hcond hc hbody hrest ih1 ih2 ih3 =>
    rintro d s' w' ht ho
    have ht' := ht
    simp only [SC.ty] at ht'; split at ht'
    case isTrue hh =>
      cases ht'
      have e1 : s1.length = s.length := by have := ih1 _ _ _ hh.1 rfl; simpa using this
      have e2 := ih2 _ s2 w2 (by rw [e1]; exact hh.2) rfl
      exact ih3 _ s' w' (by rw [e2]; exact ht) ho
    case isFalse => cases ht'

theorem SC.maxd_le_start (c : SC M) (d : Nat) : d ≤ c.maxd d := by
  induction c generalizing d with
  | nop => simp [SC.maxd]
  | ins i => simp only [SC.maxd]; omega
  | seq a b iha ihb => simp only [SC.maxd]; have := iha d; omega
  | thenB c body ih => simp only [SC.maxd]; omega
  | ifElse c a b iha ihb => simp only [SC.maxd]; omega
  | loop c cond body ih1 ih2 => simp only [SC.maxd]; have := ih1 d; omega

theorem SC.ty_le_maxd (c : SC M) (d d' : Nat) (h : c.ty d = some d') : d' ≤ c.maxd d := by
  induction c generalizing d d' with
  | nop => simp_all [SC.ty, SC.maxd]
  | ins i => simp only [SC.ty] at h; simp only [SC.maxd, h, Option.getD_some]; omega
  | seq a b iha ihb =>
    simp only [SC.ty] at h
    cases hta : a.ty d with
    | none => rw [hta] at h; cases h
    | some d1 => rw [hta] at h; simp only [SC.maxd, hta]; have := ihb d1 d' h; omega
  | thenB c body ih =>
    simp only [SC.ty] at h; split at h
    · cases h; simp only [SC.maxd]; omega
    · cases h
  | ifElse c a b iha ihb =>
    simp only [SC.ty] at h; split at h
    · have := iha _ _ h; simp only [SC.maxd]; omega
    · cases h
  | loop c cond body ih1 ih2 =>
    simp only [SC.ty] at h; split at h
    · cases h; simp only [SC.maxd]; have := cond.maxd_le_start d; omega
    · cases h

/-! ## Runs -/

/-- The configuration an outcome leads to, when the code ends at `pc`. -/
def Out.cfg (pc : Nat) : Out W E → Cfg W E
  | .ok s w => .run pc s w
  | .ret v w => .done v w
  | .exc e w => .raised e w

theorem Steps.trans {A : World M W E} {C : Code M} {m n : Nat} {a b c : Cfg W E} (h1 : Steps A C m a b) (h2 : Steps A C n b c) :
    Steps A C (m + n) a c := by
  induction h1 with
  | refl c' => simpa using h2
  | step k x y z h hs ih => rw [Nat.add_right_comm]; exact .step _ _ _ _ h (ih h2)

theorem Steps.one {A : World M W E} {C : Code M} {a b : Cfg W E} (h : Step A C a b) : Steps A C 1 a b := .step 0 _ _ _ h (.refl _)

theorem enter_ok {max pc : Nat} {s : List Val} {w : W} (h : s.length ≤ max) : (enter max pc s w : Cfg W E) = .run pc s w := by
  simp [enter, h]

/-- A single instruction, forwards. -/
theorem InsEval.step {A : World M W E} {C : Code M} {i : Ins M} {s : List Val} {w : W} {o : Out W E} {pc : Nat} {bs : List Nat}
    (h : InsEval A i s w o) (hat : At C.bytes pc bs) (hd : Is C.lits (.ins i bs.length) bs) {d : Nat} (ht : i.ty s.length = some d)
    (hm : d ≤ C.max) : Step A C (.run pc s w) (o.cfg (pc + bs.length)) := by
  have hdec := hat.decode hd
  have he := Ins.eff_ty i s d ht
  cases h with
  | pure s' h =>
    have := Step.pure (A := A) pc s s' w i bs.length hdec h
    rw [h] at he
    rwa [enter_ok (by omega)] at this
  | ret v h => exact Step.ret pc s w i bs.length v hdec h
  | act a n v w' h ha =>
    have := Step.act pc s w w' i bs.length a n v hdec h ha
    rw [h] at he
    cases n with
    | push t => simp only [Next.apply] at this; rwa [enter_ok (by simp; omega)] at this
    | drop t => simp only [Next.apply] at this; rwa [enter_ok (by omega)] at this
    | ret => exact this
  | raise a n e w' h ha => exact Step.raise pc s w w' i bs.length a n e hdec h ha

/-- A single instruction, backwards. -/
theorem step_ins {A : World M W E} {C : Code M} {i : Ins M} {s : List Val} {w : W} {pc : Nat} {bs : List Nat} {c' : Cfg W E}
    (h : Step A C (.run pc s w) c') (hat : At C.bytes pc bs) (hd : Is C.lits (.ins i bs.length) bs) {d : Nat}
    (ht : i.ty s.length = some d) (hm : d ≤ C.max) : ∃ o, InsEval A i s w o ∧ c' = o.cfg (pc + bs.length) := by
  have hdec := hat.decode hd
  have he := Ins.eff_ty i s d ht
  generalize hc : (Cfg.run pc s w : Cfg W E) = c at h
  cases h with
  | bad pc1 s1 w1 h => cases hc; rw [hdec] at h; cases h
  | underflow pc1 s1 w1 j len h hu => cases hc; rw [hdec] at h; cases h; rw [hu] at he; exact he.elim
  | pure pc1 s1 s' w1 j len h hp =>
    cases hc; rw [hdec] at h; cases h; rw [hp] at he
    exact ⟨_, .pure s' hp, by rw [enter_ok (by omega)]; rfl⟩
  | ret pc1 s1 w1 j len v h hr => cases hc; rw [hdec] at h; cases h; exact ⟨_, .ret v hr, rfl⟩
  | act pc1 s1 w1 w' j len a n v h ha hA =>
    cases hc; rw [hdec] at h; cases h; rw [ha] at he
    refine ⟨_, .act a n v w' ha hA, ?_⟩
    cases n with
    | push t => simp only [Next.apply]; rw [enter_ok (by simp; omega)]; rfl
    | drop t => simp only [Next.apply]; rw [enter_ok (by omega)]; rfl
    | ret => rfl
  | raise pc1 s1 w1 w' j len a n e h ha hA => cases hc; rw [hdec] at h; cases h; exact ⟨_, .raise a n e w' ha hA, rfl⟩
  | jump pc1 s1 w1 d1 h hn => cases hc; rw [hdec] at h; cases h; exact absurd rfl (hn _ _)

/-- A jump, forwards and backwards. -/
theorem step_jump {A : World M W E} {C : Code M} {s : List Val} {w : W} {pc : Nat} {bs : List Nat} {c' : Cfg W E} {d : Dec M}
    (hat : At C.bytes pc bs) (hd : Is C.lits d bs) (hn : ∀ i len, d ≠ .ins i len) :
    Step A C (.run pc s w) c' ↔ c' = jumpTo C.max pc s w d := by
  have hdec := hat.decode hd
  constructor
  · intro h
    generalize hc : (Cfg.run pc s w : Cfg W E) = c at h
    cases h with
    | bad pc1 s1 w1 h => cases hc; rw [hdec] at h; cases h
    | underflow pc1 s1 w1 j len h hu => cases hc; rw [hdec] at h; cases h; exact absurd rfl (hn _ _)
    | pure pc1 s1 s' w1 j len h hp => cases hc; rw [hdec] at h; cases h; exact absurd rfl (hn _ _)
    | ret pc1 s1 w1 j len v h hr => cases hc; rw [hdec] at h; cases h; exact absurd rfl (hn _ _)
    | act pc1 s1 w1 w' j len a n v h ha hA => cases hc; rw [hdec] at h; cases h; exact absurd rfl (hn _ _)
    | raise pc1 s1 w1 w' j len a n e h ha hA => cases hc; rw [hdec] at h; cases h; exact absurd rfl (hn _ _)
    | jump pc1 s1 w1 d1 h hn => cases hc; rw [hdec] at h; cases h; rfl
  · rintro rfl; exact .jump pc s w d hdec hn

theorem Out.stops_cfg {o : Out W E} (ho : o.stops) (p q : Nat) : o.cfg p = o.cfg q := by
  cases o with
  | ok s w => exact ho.elim
  | ret v w => rfl
  | exc e w => rfl

/-- **Forwards**: what the rules allow, the interpreter does. -/
theorem SEval.run {A : World M W E} {c : SC M} {s : List Val} {w : W} {o : Out W E} (h : SEval A c s w o) :
    ∀ (C : Code M) (pc : Nat) (bs : List Nat) (d : Nat), Enc C.lits c bs → At C.bytes pc bs → c.ty s.length = some d →
      c.maxd s.length ≤ C.max → ∃ n, Steps A C n (.run pc s w) (o.cfg (pc + bs.length)) := by
  induction h with
  | nop s w => rintro C pc bs d he hat ht hm; cases he; exact ⟨0, .refl _⟩
  | ins i s w o h =>
    rintro C pc bs d he hat ht hm
    have h0 := SC.ty_le_maxd _ _ _ ht
    cases he with
    | ins i bs hd => exact ⟨1, .one (h.step hat hd ht (by omega))⟩
  | seq a b s s1 w w1 o ha hb iha ihb =>
    rintro C pc bs d he hat ht hm
    cases he with
    | seq a b ba bb hea heb =>
      simp only [SC.ty] at ht
      cases hta : a.ty s.length with
      | none => rw [hta] at ht; cases ht
      | some d1 =>
        rw [hta] at ht
        simp only [SC.maxd, hta] at hm
        have hl := ha.depth d1 s1 w1 hta rfl
        obtain ⟨n1, h1⟩ := iha C pc ba d1 hea hat.left hta (by omega)
        obtain ⟨n2, h2⟩ := ihb C (pc + ba.length) bb d heb hat.right (by rw [hl]; exact ht) (by rw [hl]; omega)
        refine ⟨n1 + n2, h1.trans ?_⟩
        rw [List.length_append, ← Nat.add_assoc]; exact h2
  | seqStop a b s w o ho ha iha =>
    rintro C pc bs d he hat ht hm
    cases he with
    | seq a b ba bb hea heb =>
      simp only [SC.ty] at ht
      cases hta : a.ty s.length with
      | none => rw [hta] at ht; cases ht
      | some d1 =>
        simp only [SC.maxd] at hm
        obtain ⟨n1, h1⟩ := iha C pc ba d1 hea hat.left hta (by omega)
        exact ⟨n1, by rw [Out.stops_cfg ho _ (pc + ba.length)]; exact h1⟩
  | thenJump c body v s w hc =>
    rintro C pc bs d he hat ht hm
    cases he with
    | thenB c body j bb hj hb =>
      refine ⟨1, .one ((step_jump hat.left (hj.2 _) (by rintro _ _ ⟨⟩)).2 ?_)⟩
      simp only [SC.maxd, List.length_cons] at hm
      simp only [jumpTo, hc, if_true, Out.cfg]
      rw [enter_ok (by simp; omega)]
      simp [hj.1]
  | thenBody c body v s w o hc hb ih =>
    rintro C pc bs d he hat ht hm
    cases he with
    | thenB c body j bb hj hb' =>
      simp only [SC.maxd, List.length_cons, Nat.add_sub_cancel] at hm
      simp only [SC.ty, List.length_cons, Nat.add_sub_cancel] at ht
      split at ht
      case isFalse => cases ht
      case isTrue hh =>
        obtain ⟨n, h⟩ := ih C (pc + j.length) bb _ hb' hat.right hh.2 (by omega)
        refine ⟨n + 1, .step n _ _ _ ((step_jump (c' := .run (pc + j.length) s w) hat.left (hj.2 _) (by rintro _ _ ⟨⟩)).2 ?_) ?_⟩
        · simp only [jumpTo, hc, Bool.false_eq_true, if_false]
          rw [enter_ok (by omega), hj.1]
        · rw [List.length_append, ← Nat.add_assoc]; exact h
  | ifFirst c a b v s w o hc ha ih =>
    rintro C pc bs d he hat ht hm
    cases he with
    | ifElse c a b j ba k bb hj hea hk heb =>
      simp only [SC.maxd, List.length_cons, Nat.add_sub_cancel] at hm
      simp only [SC.ty, List.length_cons, Nat.add_sub_cancel] at ht
      split at ht
      case isFalse => cases ht
      case isTrue hh =>
        obtain ⟨n, h⟩ := ih C (pc + j.length) ba _ hea hat.right.left ht (by omega)
        have hfirst : Step A C (.run pc (v :: s) w) (.run (pc + j.length) s w) := by
          refine (step_jump hat.left (hj.2 _) (by rintro _ _ ⟨⟩)).2 ?_
          simp only [jumpTo, hc, Bool.false_eq_true, if_false]
          rw [enter_ok (by omega), hj.1]
        cases o with
        | ok s1 w1 =>
          have hl := ha.depth _ s1 w1 ht rfl
          have hle := SC.ty_le_maxd _ _ _ ht
          refine ⟨_, (Steps.one hfirst).trans (h.trans (.one ((step_jump hat.right.right.left (hk.2 _) (by rintro _ _ ⟨⟩)).2 ?_)))⟩
          simp only [jumpTo, Out.cfg]
          rw [enter_ok (by omega)]
          simp [hk.1]; omega
        | ret v' w' => exact ⟨_, (Steps.one hfirst).trans h⟩
        | exc e w' => exact ⟨_, (Steps.one hfirst).trans h⟩
  | ifSecond c a b v s w o hc hb ih =>
    rintro C pc bs d he hat ht hm
    cases he with
    | ifElse c a b j ba k bb hj hea hk heb =>
      simp only [SC.maxd, List.length_cons, Nat.add_sub_cancel] at hm
      simp only [SC.ty, List.length_cons, Nat.add_sub_cancel] at ht
      split at ht
      case isFalse => cases ht
      case isTrue hh =>
        rw [hh.2] at ht
        obtain ⟨n, h⟩ := ih C (pc + j.length + ba.length + k.length) bb _ heb hat.right.right.right ht (by omega)
        refine ⟨n + 1, .step n _ (.run (pc + j.length + ba.length + k.length) s w) _ ((step_jump hat.left (hj.2 _) (by rintro _ _ ⟨⟩)).2 ?_) ?_⟩
        · simp only [jumpTo, hc, if_true]
          rw [enter_ok (by omega), hj.1, hk.1]
          congr 1; omega
        · simp only [List.length_append]
          rw [show pc + (j.length + (ba.length + (k.length + bb.length))) = pc + j.length + ba.length + k.length + bb.length by omega]
          exact h
  | loopExit c cond body v s s1 w w1 hcond hc ih =>
    rintro C pc bs d he hat ht hm
    cases he with
    | loop c cond body bc j bb k hec hj heb hk =>
      simp only [SC.maxd] at hm
      simp only [SC.ty] at ht
      split at ht
      case isFalse => cases ht
      case isTrue hh =>
        obtain ⟨n, h⟩ := ih C pc bc _ hec hat.left hh.1 (by omega)
        have hl := hcond.depth _ _ _ hh.1 rfl
        have := cond.maxd_le_start s.length
        simp only [List.length_cons] at hl
        refine ⟨_, h.trans (.one ((step_jump hat.right.left (hj.2 _) (by rintro _ _ ⟨⟩)).2 ?_))⟩
        simp only [jumpTo, hc, if_true, Out.cfg]
        rw [enter_ok (by omega)]
        simp [hj.1, hk.1]; omega
  | loopCondStop c cond body s w o ho hcond ih =>
    rintro C pc bs d he hat ht hm
    cases he with
    | loop c cond body bc j bb k hec hj heb hk =>
      simp only [SC.maxd] at hm
      simp only [SC.ty] at ht
      split at ht
      case isFalse => cases ht
      case isTrue hh =>
        obtain ⟨n, h⟩ := ih C pc bc _ hec hat.left hh.1 (by omega)
        exact ⟨n, by rw [Out.stops_cfg ho _ (pc + bc.length)]; exact h⟩
  | loopBodyStop c cond body v s s1 w w1 o ho hcond hc hbody ih1 ih2 =>
    rintro C pc bs d he hat ht hm
    cases he with
    | loop c cond body bc j bb k hec hj heb hk =>
      simp only [SC.maxd] at hm
      simp only [SC.ty] at ht
      split at ht
      case isFalse => cases ht
      case isTrue hh =>
        obtain ⟨n1, h1⟩ := ih1 C pc bc _ hec hat.left hh.1 (by omega)
        have hl := hcond.depth _ _ _ hh.1 rfl
        have := cond.maxd_le_start s.length
        simp only [List.length_cons] at hl
        obtain ⟨n2, h2⟩ := ih2 C (pc + bc.length + j.length) bb _ heb hat.right.right.left (by rw [show s1.length = s.length by omega]; exact hh.2)
          (by rw [show s1.length = s.length by omega]; omega)
        refine ⟨n1 + (1 + n2), h1.trans ((Steps.one (b := .run (pc + bc.length + j.length) s1 w1) ((step_jump hat.right.left (hj.2 _) (by rintro _ _ ⟨⟩)).2 ?_)).trans ?_)⟩
        · simp only [jumpTo, hc, Bool.false_eq_true, if_false]
          rw [enter_ok (by omega), hj.1]
        · rw [Out.stops_cfg ho _ (pc + bc.length + j.length + bb.length)]; exact h2
  | loopNext c cond body v s s1 s2 w w1 w2 o hcond hc hbody hrest ih1 ih2 ih3 =>
    rintro C pc bs d he hat ht hm
    have he0 := he; have hat0 := hat; have ht0 := ht; have hm0 := hm
    cases he with
    | loop c cond body bc j bb k hec hj heb hk =>
      simp only [SC.maxd] at hm
      simp only [SC.ty] at ht
      split at ht
      case isFalse => cases ht
      case isTrue hh =>
        obtain ⟨n1, h1⟩ := ih1 C pc bc _ hec hat.left hh.1 (by omega)
        have hl := hcond.depth _ _ _ hh.1 rfl
        have := cond.maxd_le_start s.length
        simp only [List.length_cons] at hl
        have e1 : s1.length = s.length := by omega
        have e2 : s2.length = s.length := hbody.depth _ _ _ (by rw [e1]; exact hh.2) rfl
        obtain ⟨n2, h2⟩ := ih2 C (pc + bc.length + j.length) bb _ heb hat.right.right.left (by rw [e1]; exact hh.2)
          (by rw [e1]; omega)
        obtain ⟨n3, h3⟩ := ih3 C pc _ d he0 hat0 (by rw [e2]; exact ht0) (by rw [e2]; exact hm0)
        refine ⟨_, h1.trans ((Steps.one (b := .run (pc + bc.length + j.length) s1 w1) ((step_jump hat.right.left (hj.2 _) (by rintro _ _ ⟨⟩)).2 ?_)).trans
          (h2.trans ((Steps.one (b := .run pc s2 w2) ((step_jump hat.right.right.right (hk.2 _) (by rintro _ _ ⟨⟩)).2 ?_)).trans h3)))⟩
        · simp only [jumpTo, hc, Bool.false_eq_true, if_false]
          rw [enter_ok (by omega), hj.1]
        · simp only [jumpTo]
          rw [if_pos (by rw [hj.1]; omega), enter_ok (by omega)]
          congr 1; rw [hj.1]; omega

/-- A configuration in which the activation has ended. -/
def Cfg.final : Cfg W E → Prop
  | .run .. => False
  | _ => True

theorem Steps.inv_run {A : World M W E} {C : Code M} {n pc : Nat} {s : List Val} {w : W} {f : Cfg W E} (hf : f.final)
    (h : Steps A C n (.run pc s w) f) : ∃ m d, n = m + 1 ∧ Step A C (.run pc s w) d ∧ Steps A C m d f := by
  generalize hc : (Cfg.run pc s w : Cfg W E) = c at h
  cases h with
  | refl c' => subst hc; exact hf.elim
  | step m c d e h hs => subst hc; exact ⟨m, d, rfl, h, hs⟩

theorem Steps.of_final {A : World M W E} {C : Code M} {n : Nat} {f g : Cfg W E} (hf : f.final) (h : Steps A C n f g) : g = f := by
  cases h with
  | refl c' => rfl
  | step m c d e h hs => cases h <;> exact hf.elim

/-- How a run through a piece of code continues after it. -/
def Out.rest (A : World M W E) (C : Code M) (pc n : Nat) (f : Cfg W E) (o : Out W E) : Prop :=
  match o with
  | .ok s w => ∃ m, m ≤ n ∧ Steps A C m (.run pc s w) f
  | o => o.cfg pc = f

/-- **Backwards**: what the interpreter does, the rules allow. -/
theorem Steps.eval {A : World M W E} {C : Code M} (c : SC M) : ∀ (n pc : Nat) (s : List Val) (w : W) (bs : List Nat) (d : Nat) (f : Cfg W E),
    Enc C.lits c bs → At C.bytes pc bs → c.ty s.length = some d → c.maxd s.length ≤ C.max → f.final →
    Steps A C n (.run pc s w) f → ∃ o, SEval A c s w o ∧ o.rest A C (pc + bs.length) n f := by
  induction c with
  | nop =>
    rintro n pc s w bs d f he hat ht hm hf h
    cases he
    exact ⟨_, .nop s w, n, Nat.le_refl _, h⟩
  | ins i =>
    rintro n pc s w bs d f he hat ht hm hf h
    have h0 := SC.ty_le_maxd _ _ _ ht
    cases he with
    | ins i bs hd =>
      obtain ⟨m, d1, rfl, h1, h2⟩ := h.inv_run hf
      obtain ⟨o, ho, rfl⟩ := step_ins h1 hat hd ht (by omega)
      refine ⟨o, .ins i s w o ho, ?_⟩
      cases o with
      | ok s1 w1 => exact ⟨m, by omega, h2⟩
      | ret v w1 => exact (h2.of_final (by trivial)).symm
      | exc e w1 => exact (h2.of_final (by trivial)).symm
  | seq a b iha ihb =>
    rintro n pc s w bs d f he hat ht hm hf h
    cases he with
    | seq a b ba bb hea heb =>
      simp only [SC.ty] at ht
      cases hta : a.ty s.length with
      | none => rw [hta] at ht; cases ht
      | some d1 =>
        rw [hta] at ht
        simp only [SC.maxd, hta] at hm
        obtain ⟨o1, h1, hr1⟩ := iha n pc s w ba d1 f hea hat.left hta (by omega) hf h
        cases o1 with
        | ok s1 w1 =>
          obtain ⟨m, hmn, h2⟩ := hr1
          have hl := h1.depth _ _ _ hta rfl
          obtain ⟨o2, h3, hr2⟩ := ihb m (pc + ba.length) s1 w1 bb d f heb hat.right (by rw [hl]; exact ht) (by rw [hl]; omega) hf h2
          refine ⟨o2, .seq a b s s1 w w1 o2 h1 h3, ?_⟩
          rw [List.length_append, ← Nat.add_assoc]
          cases o2 with
          | ok s2 w2 => obtain ⟨m2, hm2, h4⟩ := hr2; exact ⟨m2, by omega, h4⟩
          | ret v w1 => exact hr2
          | exc e w1 => exact hr2
        | ret v w1 => exact ⟨_, .seqStop a b s w _ (by trivial) h1, hr1⟩
        | exc e w1 => exact ⟨_, .seqStop a b s w _ (by trivial) h1, hr1⟩
  | thenB c body ih =>
    rintro n pc s w bs d f he hat ht hm hf h
    cases he with
    | thenB c body j bb hj hb =>
      simp only [SC.maxd] at hm
      simp only [SC.ty] at ht
      split at ht
      case isFalse => cases ht
      case isTrue hh =>
        cases s with
        | nil => simp at hh
        | cons v s =>
          simp only [List.length_cons, Nat.add_sub_cancel] at hm hh
          obtain ⟨m, d1, rfl, h1, h2⟩ := h.inv_run hf
          have h3 := (step_jump hat.left (hj.2 _) (by rintro _ _ ⟨⟩)).1 h1
          simp only [jumpTo] at h3
          cases hc : c.holds v with
          | true =>
            rw [hc, if_pos rfl, enter_ok (by simp; omega)] at h3
            subst h3
            refine ⟨_, .thenJump c body v s w hc, m, by omega, ?_⟩
            rw [List.length_append, hj.1]; exact h2
          | false =>
            rw [hc, if_neg (by simp), enter_ok (by omega)] at h3
            subst h3
            obtain ⟨o, h4, hr⟩ := ih m (pc + j.length) s w bb _ f hb hat.right hh.2 (by omega) hf (by rw [hj.1]; exact h2)
            refine ⟨o, .thenBody c body v s w o hc h4, ?_⟩
            rw [List.length_append, ← Nat.add_assoc]
            cases o with
            | ok s2 w2 => obtain ⟨m2, hm2, h4⟩ := hr; exact ⟨m2, by omega, h4⟩
            | ret v w1 => exact hr
            | exc e w1 => exact hr
  | ifElse c a b iha ihb =>
    rintro n pc s w bs d f he hat ht hm hf h
    cases he with
    | ifElse c a b j ba k bb hj hea hk heb =>
      simp only [SC.maxd] at hm
      simp only [SC.ty] at ht
      split at ht
      case isFalse => cases ht
      case isTrue hh =>
        cases s with
        | nil => simp at hh
        | cons v s =>
          simp only [List.length_cons, Nat.add_sub_cancel] at hm hh ht
          obtain ⟨m, d1, rfl, h1, h2⟩ := h.inv_run hf
          have h3 := (step_jump hat.left (hj.2 _) (by rintro _ _ ⟨⟩)).1 h1
          simp only [jumpTo] at h3
          cases hc : c.holds v with
          | true =>
            rw [hc, if_pos rfl, enter_ok (by omega)] at h3
            subst h3
            obtain ⟨o, h4, hr⟩ := ihb m (pc + j.length + ba.length + k.length) s w bb _ f heb hat.right.right.right (by rw [← hh.2]; exact ht) (by omega) hf
              (by rw [hj.1, hk.1, show pc + 3 + ba.length + 3 = pc + (3 + ba.length + 3) by omega]; exact h2)
            refine ⟨o, .ifSecond c a b v s w o hc h4, ?_⟩
            simp only [List.length_append]
            rw [show pc + (j.length + (ba.length + (k.length + bb.length))) = pc + j.length + ba.length + k.length + bb.length by omega]
            cases o with
            | ok s2 w2 => obtain ⟨m2, hm2, h4⟩ := hr; exact ⟨m2, by omega, h4⟩
            | ret v w1 => exact hr
            | exc e w1 => exact hr
          | false =>
            rw [hc, if_neg (by simp), enter_ok (by omega)] at h3
            subst h3
            obtain ⟨o, h4, hr⟩ := iha m (pc + j.length) s w ba _ f hea hat.right.left ht (by omega) hf (by rw [hj.1]; exact h2)
            refine ⟨o, .ifFirst c a b v s w o hc h4, ?_⟩
            cases o with
            | ok s2 w2 =>
              obtain ⟨m2, hm2, h5⟩ := hr
              have hl := h4.depth _ _ _ ht rfl
              have hle := SC.ty_le_maxd _ _ _ ht
              obtain ⟨m3, d2, rfl, h6, h7⟩ := h5.inv_run hf
              have h8 := (step_jump hat.right.right.left (hk.2 _) (by rintro _ _ ⟨⟩)).1 h6
              simp only [jumpTo] at h8
              rw [enter_ok (by omega)] at h8
              subst h8
              refine ⟨m3, by omega, ?_⟩
              simp only [List.length_append, hk.1]
              rw [show pc + (j.length + (ba.length + (3 + bb.length))) = pc + j.length + ba.length + (3 + bb.length) by omega]
              exact h7
            | ret v w1 => exact hr
            | exc e w1 => exact hr
  | loop c cond body ih1 ih2 =>
    intro n
    induction n using Nat.strongRecOn with
    | _ n ihn =>
    rintro pc s w bs d f he hat ht hm hf h
    have he0 := he; have hat0 := hat; have ht0 := ht; have hm0 := hm
    cases he with
    | loop c cond body bc j bb k hec hj heb hk =>
      simp only [SC.maxd] at hm
      simp only [SC.ty] at ht
      split at ht
      case isFalse => cases ht
      case isTrue hh =>
        obtain ⟨o1, h1, hr1⟩ := ih1 n pc s w bc _ f hec hat.left hh.1 (by omega) hf h
        cases o1 with
        | ret v w1 => exact ⟨_, .loopCondStop c cond body s w _ (by trivial) h1, hr1⟩
        | exc e w1 => exact ⟨_, .loopCondStop c cond body s w _ (by trivial) h1, hr1⟩
        | ok s1 w1 =>
          obtain ⟨m, hmn, h2⟩ := hr1
          have hl := h1.depth _ _ _ hh.1 rfl
          have := cond.maxd_le_start s.length
          cases s1 with
          | nil => simp at hl
          | cons v s1 =>
            simp only [List.length_cons] at hl
            have e1 : s1.length = s.length := by omega
            obtain ⟨m1, d1, rfl, h3, h4⟩ := h2.inv_run hf
            have h5 := (step_jump hat.right.left (hj.2 _) (by rintro _ _ ⟨⟩)).1 h3
            simp only [jumpTo] at h5
            cases hc : c.holds v with
            | true =>
              rw [hc, if_pos rfl, enter_ok (by omega)] at h5
              subst h5
              refine ⟨_, .loopExit c cond body v s s1 w w1 h1 hc, m1, by omega, ?_⟩
              simp only [List.length_append, hj.1, hk.1]
              rw [show pc + (bc.length + (3 + (bb.length + 3))) = pc + bc.length + (3 + bb.length + 3) by omega]
              exact h4
            | false =>
              rw [hc, if_neg (by simp), enter_ok (by omega)] at h5
              subst h5
              obtain ⟨o2, h6, hr2⟩ := ih2 m1 (pc + bc.length + j.length) s1 w1 bb _ f heb hat.right.right.left (by rw [e1]; exact hh.2)
                (by rw [e1]; omega) hf (by rw [hj.1]; exact h4)
              cases o2 with
              | ret v' w2 => exact ⟨_, .loopBodyStop c cond body v s s1 w w1 _ (by trivial) h1 hc h6, hr2⟩
              | exc e w2 => exact ⟨_, .loopBodyStop c cond body v s s1 w w1 _ (by trivial) h1 hc h6, hr2⟩
              | ok s2 w2 =>
                obtain ⟨m2, hm2, h7⟩ := hr2
                have e2 : s2.length = s.length := h6.depth _ _ _ (by rw [e1]; exact hh.2) rfl
                obtain ⟨m3, d2, rfl, h8, h9⟩ := h7.inv_run hf
                have h10 := (step_jump hat.right.right.right (hk.2 _) (by rintro _ _ ⟨⟩)).1 h8
                simp only [jumpTo] at h10
                rw [if_pos (by rw [hj.1]; omega), enter_ok (by omega)] at h10
                subst h10
                rw [show pc + bc.length + j.length + bb.length - (bc.length + 3 + bb.length) = pc by rw [hj.1]; omega] at h9
                obtain ⟨o3, h11, hr3⟩ := ihn m3 (by omega) pc s2 w2 _ d f he0 hat0 (by rw [e2]; exact ht0) (by rw [e2]; exact hm0) hf h9
                refine ⟨o3, .loopNext c cond body v s s1 s2 w w1 w2 o3 h1 hc h6 h11, ?_⟩
                cases o3 with
                | ok s2 w2 => obtain ⟨m2, hm2, h4⟩ := hr3; exact ⟨m2, by omega, h4⟩
                | ret v w1 => exact hr3
                | exc e w1 => exact hr3

/-- Code that returns on every path never ends normally. -/
theorem SEval.returns {A : World M W E} {c : SC M} {s : List Val} {w : W} {o : Out W E} (h : SEval A c s w o) :
    c.returns = true → o.stops := by
  induction h with
  | nop s w => intro hr; simp [SC.returns] at hr
  | ins i s w o h =>
    intro hr
    cases h with
    | pure s' h => cases i <;> cases s <;> simp [SC.returns, Ins.eff] at hr h
    | ret v h => trivial
    | act a n v w' h ha => cases i <;> cases s <;> simp [SC.returns, Ins.eff] at hr h <;> (cases h.2; trivial)
    | raise a n e w' h ha => trivial
  | seq a b s s1 w w1 o ha hb iha ihb =>
    intro hr
    simp only [SC.returns, Bool.or_eq_true] at hr
    cases hr with
    | inl h => exact (iha h).elim
    | inr h => exact ihb h
  | seqStop a b s w o ho ha iha => intro _; exact ho
  | thenJump c body v s w hc => intro hr; simp [SC.returns] at hr
  | thenBody c body v s w o hc hb ih => intro hr; simp [SC.returns] at hr
  | ifFirst c a b v s w o hc ha ih => intro hr; simp [SC.returns] at hr
  | ifSecond c a b v s w o hc ha ih => intro hr; simp [SC.returns] at hr
  | loopExit c cond body v s s1 w w1 hcond hc ih => intro hr; simp [SC.returns] at hr
  | loopCondStop c cond body s w o ho hcond ih => intro _; exact ho
  | loopBodyStop c cond body v s s1 w w1 o ho hcond hc hbody ih1 ih2 => intro _; exact ho
  | loopNext c cond body v s s1 s2 w w1 w2 o hcond hc hbody hrest ih1 ih2 ih3 => intro hr; simp [SC.returns] at hr

/-- The interpreter on a whole method: it ends exactly as the rules for structured code say, and never crashes. -/
theorem method_run {A : World M W E} {C : Code M} {c : SC M} (he : Enc C.lits c C.bytes) {d : Nat} (ht : c.ty 0 = some d)
    (hm : c.maxd 0 ≤ C.max) (hr : c.returns = true) (w : W) (f : Cfg W E) (hf : f.final) :
    (∃ n, Steps A C n (Code.start w) f) ↔ ∃ o, SEval A c [] w o ∧ o.stops ∧ o.cfg 0 = f := by
  have hat : At C.bytes 0 C.bytes := ⟨[], [], by simp, rfl⟩
  constructor
  · rintro ⟨n, h⟩
    obtain ⟨o, h1, h2⟩ := Steps.eval c n 0 [] w C.bytes d f he hat ht hm hf h
    have hs := h1.returns hr
    refine ⟨o, h1, hs, ?_⟩
    cases o with
    | ok s w => exact hs.elim
    | ret v w => exact h2
    | exc e w => exact h2
  · rintro ⟨o, h1, hs, rfl⟩
    obtain ⟨n, h⟩ := h1.run C 0 C.bytes d he hat ht hm
    exact ⟨n, by rw [Out.stops_cfg hs 0 (0 + C.bytes.length)]; exact h⟩

end
end PySOM.BC

import Verif.Lemmas.Returns
import Verif.Spec.Super
/-!
# Code in two worlds that agree on some states
-/
set_option autoImplicit false
namespace PySOM.BC
open PySOM

section
variable {W E : Type} {I : W → Prop}

/-- From states of a kind, what the first does the second does too, and it ends in a state of the kind. -/
def Thru (I : W → Prop) (R2 R1 : Src.Rel W E) : Prop := ∀ w r w', I w → R2 w r w' → R1 w r w' ∧ I w'

theorem Thru.pure (v : Val) : Thru I (Src.pure v : Src.Rel W E) (Src.pure v) := by
  rintro w r w' h ⟨rfl, rfl⟩
  exact ⟨⟨rfl, rfl⟩, h⟩

theorem Thru.answer (v : Val) : Thru I (Src.answer v : Src.Rel W E) (Src.answer v) := by
  rintro w r w' h ⟨rfl, rfl⟩
  exact ⟨⟨rfl, rfl⟩, h⟩

theorem Thru.raises (err : Err → E) (e : Err) : Thru I (Cond.raises err e : Src.Rel W E) (Cond.raises err e) := by
  rintro w r w' h ⟨rfl, rfl⟩
  exact ⟨⟨rfl, rfl⟩, h⟩

theorem Thru.bind {p2 p1 : Src.Rel W E} {k2 k1 : Val → Src.Rel W E} (hp : Thru I p2 p1) (hk : ∀ v, Thru I (k2 v) (k1 v)) : Thru I (Src.bind p2 k2) (Src.bind p1 k1) := by
  rintro w r w' h (⟨v, w1, h1, h2⟩ | ⟨h1, hr⟩)
  · obtain ⟨h1, hi⟩ := hp _ _ _ h h1
    obtain ⟨h2, hj⟩ := hk v _ _ _ hi h2
    exact ⟨.inl ⟨v, w1, h1, h2⟩, hj⟩
  · obtain ⟨h1, hi⟩ := hp _ _ _ h h1
    exact ⟨.inr ⟨h1, hr⟩, hi⟩

theorem Thru.ite {c : Prop} [Decidable c] {a2 a1 b2 b1 : Src.Rel W E} (ha : Thru I a2 a1) (hb : Thru I b2 b1) : Thru I (if c then a2 else b2) (if c then a1 else b1) := by
  split
  · exact ha
  · exact hb

theorem Thru.while {stop : Val → Bool} {c2 c1 b2 b1 : Src.Rel W E} (hc : Thru I c2 c1) (hb : Thru I b2 b1) : Thru I (Src.While stop c2 b2) (Src.While stop c1 b1) := by
  intro w r w' hi h
  induction h with
  | exit w w1 v h hs =>
    obtain ⟨h, hi⟩ := hc _ _ _ hi h
    exact ⟨.exit _ _ v h hs, hi⟩
  | condStop w w1 r h hr =>
    obtain ⟨h, hi⟩ := hc _ _ _ hi h
    exact ⟨.condStop _ _ _ h hr, hi⟩
  | bodyStop w w1 w2 v r h hs h2 hr =>
    obtain ⟨h, hi⟩ := hc _ _ _ hi h
    obtain ⟨h2, hi⟩ := hb _ _ _ hi h2
    exact ⟨.bodyStop _ _ _ v _ h hs h2 hr, hi⟩
  | next w w1 w2 w3 v u r h hs h2 _ ih =>
    obtain ⟨h, hi⟩ := hc _ _ _ hi h
    obtain ⟨h2, hi⟩ := hb _ _ _ hi h2
    obtain ⟨h3, hi⟩ := ih hi
    exact ⟨.next _ _ _ _ v u _ h hs h2 h3, hi⟩

theorem Thru.answers {R2 R1 : Src.Rel W E} (h : Thru I R2 R1) (c : Bool) (err : Err → E) : Thru I (answers c err R2) (answers c err R1) := by
  intro w r w' hi h2
  cases r with
  | val v => exact h2.elim
  | ret v =>
    rcases h2 with h2 | ⟨hc, h2⟩
    · obtain ⟨h1, hj⟩ := h _ _ _ hi h2
      exact ⟨.inl h1, hj⟩
    · obtain ⟨h1, hj⟩ := h _ _ _ hi h2
      exact ⟨.inr ⟨hc, h1⟩, hj⟩
  | exc e =>
    rcases h2 with h2 | ⟨hc, he, v, h2⟩
    · obtain ⟨h1, hj⟩ := h _ _ _ hi h2
      exact ⟨.inl h1, hj⟩
    · obtain ⟨h1, hj⟩ := h _ _ _ hi h2
      exact ⟨.inr ⟨hc, he, v, h1⟩, hj⟩

/-- The blocks that the action makes are of a kind. -/
def Makes (Q : Nat → Prop) (a : Act Nat) : Prop := ∀ c id, a = .mkBlock c id → Q id

/-- Actions that make only blocks of a kind do the same in both worlds. -/
def Acts (I : W → Prop) (Q : Nat → Prop) (A2 A1 : World Nat W E) : Prop := ∀ a, Makes Q a → ∀ w r w', I w → A2 a w r w' → A1 a w r w' ∧ I w'

variable {Q : Nat → Prop} {A2 A1 : World Nat W E} {U2 U1 : Sel → Nat → Src.Rel W E} {err : Err → E}

theorem Acts.act (h : Acts I Q A2 A1) {a : Act Nat} (ha : Makes Q a) : Thru I (Src.act A2 a) (Src.act A1 a) := by
  intro w r w' hi h2
  rcases h2 with ⟨v, rfl, h2⟩ | ⟨e, rfl, h2⟩
  · obtain ⟨h1, hj⟩ := h a ha _ _ _ hi h2
    exact ⟨.inl ⟨v, rfl, h1⟩, hj⟩
  · obtain ⟨h1, hj⟩ := h a ha _ _ _ hi h2
    exact ⟨.inr ⟨e, rfl, h1⟩, hj⟩

/-! ## Trees -/

theorem Inl1.thru (k : Inl1) {r2 r1 a2 a1 : Src.Rel W E} (hr : Thru I r2 r1) (ha : Thru I a2 a1) : Thru I (k.exec err r2 a2) (k.exec err r1 a1) := by
  cases k with
  | ifBool b => exact hr.bind fun v => .ite ha (.ite (.pure _) (.raises _ _))
  | ifNil => exact hr.bind fun v => .ite ha (.pure _)
  | ifNotNil => exact hr.bind fun v => .ite (.pure _) ha
  | and => exact hr.bind fun v => .ite ha (.ite (.pure _) (.raises _ _))
  | or => exact hr.bind fun v => .ite (.pure _) (.ite ha (.raises _ _))

theorem Inl2.thru (k : Inl2) {r2 r1 a2 a1 b2 b1 : Src.Rel W E} (hr : Thru I r2 r1) (ha : Thru I a2 a1) (hb : Thru I b2 b1) : Thru I (k.exec err r2 a2 b2) (k.exec err r1 a1 b1) := by
  cases k with
  | ifElse b => exact hr.bind fun v => .ite ha (.ite hb (.raises _ _))
  | ifNil b =>
    cases b
    · exact hr.bind fun v => .ite hb ha
    · exact hr.bind fun v => .ite ha hb

mutual
theorem Node.exec_thru (hA : Acts I Q A2 A1) (hU : ∀ g l, Thru I (U2 g l) (U1 g l)) : ∀ (t : Node), (∀ p ∈ t.blks, Q p.2.id) → Thru I (t.exec A2 U2 err) (t.exec A1 U1 err)
  | .lit v, _ => .pure v
  | .globK n, _ => hA.act fun _ _ h => nomatch h
  | .globU n l, _ => hU n l
  | .readArg i l, _ => hA.act fun _ _ h => nomatch h
  | .readLoc i _ l, _ => hA.act fun _ _ h => nomatch h
  | .self l, _ => hA.act fun _ _ h => nomatch h
  | .writeArg i l e, h => (Node.exec_thru hA hU e h).bind fun v => (hA.act (a := .wrVar true i l v) fun _ _ h => nomatch h).bind fun _ => .pure _
  | .writeLoc i _ l e, h => (Node.exec_thru hA hU e h).bind fun v => (hA.act (a := .wrVar false i l v) fun _ _ h => nomatch h).bind fun _ => .pure _
  | .fld i l, _ => hA.act fun _ _ h => nomatch h
  | .fldW i l e, h => (Node.exec_thru hA hU e h).bind fun v => (hA.act (a := .wrFld i l v) fun _ _ h => nomatch h).bind fun _ => .pure _
  | .fldInc i l, _ => hA.act fun _ _ h => nomatch h
  | .inc e, h => (Node.exec_thru hA hU e h).bind fun v => hA.act fun _ _ h => nomatch h
  | .blk c m, h => hA.act fun _ _ e => by cases e; exact h (c, m) (List.mem_singleton.mpr rfl)
  | .send sel r as, h => (Node.exec_thru hA hU r fun p hp => h p (List.mem_append_left _ hp)).bind fun v =>
      Nodes.exec_thru hA hU as _ _ (fun p hp => h p (List.mem_append_right _ hp)) fun vs => hA.act fun _ _ h => nomatch h
  | .superSend sel r as, h => (Node.exec_thru hA hU r fun p hp => h p (List.mem_append_left _ hp)).bind fun v =>
      Nodes.exec_thru hA hU as _ _ (fun p hp => h p (List.mem_append_right _ hp)) fun vs => hA.act fun _ _ h => nomatch h
  | .inl1 k r a, h => k.thru (Node.exec_thru hA hU r fun p hp => h p (List.mem_append_left _ hp)) (Node.exec_thru hA hU a fun p hp => h p (List.mem_append_right _ hp))
  | .inl2 k r a b, h => k.thru (Node.exec_thru hA hU r fun p hp => h p (List.mem_append_left _ hp))
      (Node.exec_thru hA hU a fun p hp => h p (List.mem_append_right _ (List.mem_append_left _ hp)))
      (Node.exec_thru hA hU b fun p hp => h p (List.mem_append_right _ (List.mem_append_right _ hp)))
  | .while b c body, h => .while ((Node.exec_thru hA hU c fun p hp => h p (List.mem_append_left _ hp)).bind fun _ => .ite (.pure _) (.raises _ _))
      (Node.exec_thru hA hU body fun p hp => h p (List.mem_append_right _ hp))
  | .seq es, h => Nodes.execSeq_thru hA hU es h
  | .retNL l e, h => (Node.exec_thru hA hU e h).bind fun v => hA.act fun _ _ h => nomatch h
  | .retL e, h => (Node.exec_thru hA hU e h).bind fun v => .answer v
theorem Nodes.exec_thru (hA : Acts I Q A2 A1) (hU : ∀ g l, Thru I (U2 g l) (U1 g l)) : ∀ (es : Nodes) (k2 k1 : List Val → Src.Rel W E), (∀ p ∈ es.blks, Q p.2.id) →
    (∀ vs, Thru I (k2 vs) (k1 vs)) → Thru I (es.exec A2 U2 err k2) (es.exec A1 U1 err k1)
  | .nil, _, _, _, hk => hk []
  | .cons e es, _, _, h, hk => (Node.exec_thru hA hU e fun p hp => h p (List.mem_append_left _ hp)).bind fun v =>
      Nodes.exec_thru hA hU es _ _ (fun p hp => h p (List.mem_append_right _ hp)) fun vs => hk (v :: vs)
theorem Nodes.execSeq_thru (hA : Acts I Q A2 A1) (hU : ∀ g l, Thru I (U2 g l) (U1 g l)) : ∀ (es : Nodes), (∀ p ∈ es.blks, Q p.2.id) →
    Thru I (es.execSeq A2 U2 err) (es.execSeq A1 U1 err)
  | .nil, _ => .pure _
  | .cons e .nil, h => Node.exec_thru hA hU e fun p hp => h p (List.mem_append_left _ hp)
  | .cons e (.cons f es), h => (Node.exec_thru hA hU e fun p hp => h p (List.mem_append_left _ hp)).bind fun _ =>
      Nodes.execSeq_thru hA hU (.cons f es) fun p hp => h p (List.mem_append_right _ hp)
end

theorem ATriv.run_thru (hA : Acts I Q A2 A1) (hU : ∀ g l, Thru I (U2 g l) (U1 g l)) (t : ATriv) : Thru I (t.run A2 U2) (t.run A1 U1) := by
  have h : ∀ {a}, (∀ c id, a ≠ .mkBlock c id) → Thru I (Src.act A2 a) (Src.act A1 a) := fun ha => hA.act fun c id e => absurd e (ha c id)
  cases t with
  | lit v => exact .answer v
  | globK n => exact (h fun _ _ => by simp).bind .answer
  | globU n l => exact (hU n l).bind .answer
  | fldRead i l => exact (h fun _ _ => by simp).bind .answer
  | fldWrite i j => exact (h fun _ _ => by simp).bind fun _ => (h fun _ _ => by simp).bind fun _ => (h fun _ _ => by simp).bind .answer

theorem AMeth.run_thru (hA : Acts I Q A2 A1) (hU : ∀ g l, Thru I (U2 g l) (U1 g l)) (m : AMeth) (h : ∀ p ∈ m.makes, Q p.2.id) : Thru I (m.run A2 U2 err) (m.run A1 U1 err) := by
  cases m with
  | ast id args ls body => exact (Node.exec_thru hA hU body h).answers _ _
  | triv id t => exact t.run_thru hA hU

theorem AMethod.run_thru (hA : Acts I Q A2 A1) (hU : ∀ g l, Thru I (U2 g l) (U1 g l)) (m : AMethod) (h : ∀ p ∈ m.makes, Q p.2.id) : Thru I (m.run A2 U2 err) (m.run A1 U1 err) := by
  cases m with
  | ast ls c body => exact (Node.exec_thru hA hU body h).answers _ _
  | triv t => exact t.run_thru hA hU

/-! ## Bytecode -/

def Out.last : Out W E → W
  | .ok _ w => w
  | .ret _ w => w
  | .exc _ w => w

theorem eff_makes {i : Ins Meth} (hi : ∀ c m, i = .pushBlock c m → Q m.id) {s : List Val} {a : Act Meth} {n : Next} (h : i.eff s = .act a n) : Makes Q (a.map Meth.id) := by
  have key : ∀ {a : Act Meth}, (∀ c m, a ≠ .mkBlock c m) → Makes Q (a.map Meth.id) := by
    intro a ha c id e
    cases a with
    | mkBlock c m => exact absurd rfl (ha c m)
    | _ => cases e
  cases i with
  | pushBlock c m =>
    simp only [Ins.eff, Eff.act.injEq] at h
    obtain ⟨rfl, _⟩ := h
    intro c' id e
    cases e
    exact hi c m rfl
  | send sel k =>
    simp only [Ins.eff] at h
    split at h
    · simp only [Eff.act.injEq] at h; obtain ⟨rfl, _⟩ := h; exact key fun _ _ => by simp
    · cases h
  | superSend sel k =>
    simp only [Ins.eff] at h
    split at h
    · simp only [Eff.act.injEq] at h; obtain ⟨rfl, _⟩ := h; exact key fun _ _ => by simp
    · cases h
  | pushVar x i l => simp only [Ins.eff, Eff.act.injEq] at h; obtain ⟨rfl, _⟩ := h; exact key fun _ _ => by simp
  | pushFld i l => simp only [Ins.eff, Eff.act.injEq] at h; obtain ⟨rfl, _⟩ := h; exact key fun _ _ => by simp
  | incFld i l => simp only [Ins.eff, Eff.act.injEq] at h; obtain ⟨rfl, _⟩ := h; exact key fun _ _ => by simp
  | incFldPush i l => simp only [Ins.eff, Eff.act.injEq] at h; obtain ⟨rfl, _⟩ := h; exact key fun _ _ => by simp
  | pushConst v => simp only [Ins.eff, reduceCtorEq] at h
  | pushGlobal g => simp only [Ins.eff, Eff.act.injEq] at h; obtain ⟨rfl, _⟩ := h; exact key fun _ _ => by simp
  | retSelf => simp only [Ins.eff, Eff.act.injEq] at h; obtain ⟨rfl, _⟩ := h; exact key fun _ _ => by simp
  | retFld i => simp only [Ins.eff, Eff.act.injEq] at h; obtain ⟨rfl, _⟩ := h; exact key fun _ _ => by simp
  | popVar x i l => cases s <;> simp only [Ins.eff, Eff.act.injEq, reduceCtorEq] at h; obtain ⟨rfl, _⟩ := h; exact key fun _ _ => by simp
  | popFld i l => cases s <;> simp only [Ins.eff, Eff.act.injEq, reduceCtorEq] at h; obtain ⟨rfl, _⟩ := h; exact key fun _ _ => by simp
  | retNonLocal l => cases s <;> simp only [Ins.eff, Eff.act.injEq, reduceCtorEq] at h; obtain ⟨rfl, _⟩ := h; exact key fun _ _ => by simp
  | inc => cases s <;> simp only [Ins.eff, Eff.act.injEq, reduceCtorEq] at h; obtain ⟨rfl, _⟩ := h; exact key fun _ _ => by simp
  | dec => cases s <;> simp only [Ins.eff, Eff.act.injEq, reduceCtorEq] at h; obtain ⟨rfl, _⟩ := h; exact key fun _ _ => by simp
  | dup => cases s <;> simp only [Ins.eff, reduceCtorEq] at h
  | pop => cases s <;> simp only [Ins.eff, reduceCtorEq] at h
  | retLocal => cases s <;> simp only [Ins.eff, reduceCtorEq] at h

theorem insEval_thru (hA : Acts I Q A2 A1) {i : Ins Meth} (hi : ∀ c m, i = .pushBlock c m → Q m.id) {s : List Val} {w : W} {o : Out W E} (hw : I w)
    (h : InsEval (onMeth A2) i s w o) : InsEval (onMeth A1) i s w o ∧ I o.last := by
  cases h with
  | pure s' h => exact ⟨.pure s' h, hw⟩
  | ret v h => exact ⟨.ret v h, hw⟩
  | act a n v w' h ha =>
    obtain ⟨h1, hj⟩ := hA _ (eff_makes hi h) _ _ _ hw ha
    exact ⟨.act a n v w' h h1, by cases n <;> exact hj⟩
  | raise a n e w' h ha =>
    obtain ⟨h1, hj⟩ := hA _ (eff_makes hi h) _ _ _ hw ha
    exact ⟨.raise a n e w' h h1, hj⟩

theorem seval_thru (hA : Acts I Q A2 A1) {c : SC Meth} {s : List Val} {w : W} {o : Out W E} (h : SEval (onMeth A2) c s w o) :
    (∀ p ∈ c.blks, Q p.2.id) → I w → SEval (onMeth A1) c s w o ∧ I o.last := by
  induction h with
  | nop s w => exact fun _ hw => ⟨.nop s w, hw⟩
  | ins i s w o h =>
    intro hi hw
    obtain ⟨h1, hj⟩ := insEval_thru hA (fun c m e => hi (c, m) (SC.mem_blks.mpr (e ▸ List.mem_singleton.mpr rfl))) hw h
    exact ⟨.ins i s w o h1, hj⟩
  | seq a b s s' w w' o _ _ ih1 ih2 =>
    intro hi hw
    rw [SC.blks_seq] at hi
    obtain ⟨h1, hj⟩ := ih1 (fun i h => hi i (List.mem_append_left _ h)) hw
    obtain ⟨h2, hj⟩ := ih2 (fun i h => hi i (List.mem_append_right _ h)) hj
    exact ⟨.seq _ _ _ _ _ _ _ h1 h2, hj⟩
  | seqStop a b s w o ho _ ih =>
    intro hi hw
    rw [SC.blks_seq] at hi
    obtain ⟨h1, hj⟩ := ih (fun i h => hi i (List.mem_append_left _ h)) hw
    exact ⟨.seqStop _ _ _ _ _ ho h1, hj⟩
  | thenJump c body v s w hc => exact fun _ hw => ⟨.thenJump _ _ _ _ _ hc, hw⟩
  | thenBody c body v s w o hc _ ih =>
    intro hi hw
    rw [SC.blks_thenB] at hi
    obtain ⟨h1, hj⟩ := ih hi hw
    exact ⟨.thenBody _ _ _ _ _ _ hc h1, hj⟩
  | ifFirst c a b v s w o hc _ ih =>
    intro hi hw
    rw [SC.blks_ifElse] at hi
    obtain ⟨h1, hj⟩ := ih (fun i h => hi i (List.mem_append_left _ h)) hw
    exact ⟨.ifFirst _ _ _ _ _ _ _ hc h1, hj⟩
  | ifSecond c a b v s w o hc _ ih =>
    intro hi hw
    rw [SC.blks_ifElse] at hi
    obtain ⟨h1, hj⟩ := ih (fun i h => hi i (List.mem_append_right _ h)) hw
    exact ⟨.ifSecond _ _ _ _ _ _ _ hc h1, hj⟩
  | loopExit c cond body v s s' w w' _ hc ih =>
    intro hi hw
    rw [SC.blks_loop] at hi
    obtain ⟨h1, hj⟩ := ih (fun i h => hi i (List.mem_append_left _ h)) hw
    exact ⟨.loopExit _ _ _ _ _ _ _ _ h1 hc, hj⟩
  | loopCondStop c cond body s w o ho _ ih =>
    intro hi hw
    rw [SC.blks_loop] at hi
    obtain ⟨h1, hj⟩ := ih (fun i h => hi i (List.mem_append_left _ h)) hw
    exact ⟨.loopCondStop _ _ _ _ _ _ ho h1, hj⟩
  | loopBodyStop c cond body v s s' w w' o ho _ hc _ ih1 ih2 =>
    intro hi hw
    rw [SC.blks_loop] at hi
    obtain ⟨h1, hj⟩ := ih1 (fun i h => hi i (List.mem_append_left _ h)) hw
    obtain ⟨h2, hj⟩ := ih2 (fun i h => hi i (List.mem_append_right _ h)) hj
    exact ⟨.loopBodyStop _ _ _ _ _ _ _ _ _ ho h1 hc h2, hj⟩
  | loopNext c cond body v s s' s'' w w' w'' o _ hc _ _ ih1 ih2 ih3 =>
    intro hi hw
    have hi' := hi
    rw [SC.blks_loop] at hi'
    obtain ⟨h1, hj⟩ := ih1 (fun i h => hi' i (List.mem_append_left _ h)) hw
    obtain ⟨h2, hj⟩ := ih2 (fun i h => hi' i (List.mem_append_right _ h)) hj
    obtain ⟨h3, hj⟩ := ih3 hi hj
    exact ⟨.loopNext _ _ _ _ _ _ _ _ _ _ _ h1 hc h2 h3, hj⟩

theorem run_thru (hA : Acts I Q A2 A1) {C : Code Meth} {c : SC Meth} (he : Enc C.lits c C.bytes) {d : Nat} (ht : c.ty 0 = some d) (hm : c.maxd 0 ≤ C.max) (hr : c.returns = true)
    (hq : ∀ p ∈ C.makes, Q p.2.id) : Thru I (bcRun (onMeth A2) C) (bcRun (onMeth A1) C) := by
  rw [Code.makes_enc he] at hq
  intro w r w' hi h
  rcases run_seval he ht hm hr h with ⟨v, rfl, hs⟩ | ⟨e, rfl, hs⟩
  · obtain ⟨h1, hj⟩ := seval_thru hA hs hq hi
    exact ⟨(method_run he ht hm hr w (.done v w') trivial).mpr ⟨_, h1, trivial, rfl⟩, hj⟩
  · obtain ⟨h1, hj⟩ := seval_thru hA hs hq hi
    exact ⟨(method_run he ht hm hr w (.raised e w') trivial).mpr ⟨_, h1, trivial, rfl⟩, hj⟩

theorem Code.run_thru (hA : Acts I Q A2 A1) {known : Sel → Bool} {n : Nat} {s : SMethod} {g : G Meth (List Nat)} {C : Code Meth} (hw : s.Wf) (hc : s.compile known n = .ok g)
    (hC : assemble g = .ok C) (hq : ∀ p ∈ C.makes, Q p.2.id) : Thru I (bcRun (onMeth A2) C) (bcRun (onMeth A1) C) := by
  obtain ⟨b, hb, hs, hg⟩ := SMethod.compile_sourced hw hc
  obtain ⟨_, rfl⟩ := assemble_ok hC
  obtain ⟨he, d, ht, hm⟩ := compile_ok (inliner_ok n) hs.good (by decide) hg
  exact BC.run_thru hA (C := ⟨g.lits, g.bytes, (g.maxDepth + 2 + 2).toNat⟩) he ht (by show _ ≤ (g.maxDepth + 2 + 2).toNat; omega) (genBody_returns (inliner n) false 0 b (false, s.env)) hq

theorem Meth.run_thru (hA : Acts I Q A2 A1) {l : Nat} {m : Meth} (hs : Sound l m) (hq : ∀ p ∈ m.makes, Q p.2.id) : Thru I (m.run (onMeth A2)) (m.run (onMeth A1)) := by
  cases m with
  | triv id x =>
    have h : ∀ {a : Act Meth}, (∀ c id, a.map Meth.id ≠ .mkBlock c id) → Thru I (Src.act (onMeth A2) a) (Src.act (onMeth A1) a) := by
      intro a ha w r w' hi h2
      rcases h2 with ⟨v, rfl, h2⟩ | ⟨e, rfl, h2⟩
      · obtain ⟨h1, hj⟩ := hA (a.map Meth.id) (fun c id e => absurd e (ha c id)) _ _ _ hi h2
        exact ⟨.inl ⟨v, rfl, h1⟩, hj⟩
      · obtain ⟨h1, hj⟩ := hA (a.map Meth.id) (fun c id e => absurd e (ha c id)) _ _ _ hi h2
        exact ⟨.inr ⟨e, rfl, h1⟩, hj⟩
    cases x with
    | lit v => cases v with
      | val v => exact .answer v
      | meth m => exact fun w r w' _ h => h.elim
    | glob s q => exact (h (a := .glob s) fun _ _ => by simp [Act.map]).bind .answer
    | fldRead i l => exact (h (a := .rdFld i l) fun _ _ => by simp [Act.map]).bind .answer
    | fldWrite i j => exact (h (a := .rdVar true j 0) fun _ _ => by simp [Act.map]).bind fun v => (h (a := .wrFld i 0 v) fun _ _ => by simp [Act.map]).bind fun _ =>
        (h (a := .self) fun _ _ => by simp [Act.map]).bind .answer
  | bc id lits bytes loops args locals stack code =>
    cases hs with
    | bc _ _ _ _ _ _ _ _ _ enc ty std size small ends ins ids inner closed =>
      exact BC.run_thru hA (C := ⟨lits, bytes, stack⟩) enc (ty 0) size (returns_of_ends code ends) hq

end

/-! ## Literals -/

/-- A block that is pushed is a literal. -/
def FromLits (lits : List (Lit Meth)) (r : Option (Dec Meth)) : Prop := ∀ c m len, r = some (.ins (.pushBlock c m) len) → .meth m ∈ lits

theorem FromLits.ite {lits : List (Lit Meth)} {c : Prop} [Decidable c] {x y : Option (Dec Meth)} (h1 : FromLits lits x) (h2 : FromLits lits y) : FromLits lits (if c then x else y) := by
  split
  · exact h1
  · exact h2

theorem decode_block {lits : List (Lit Meth)} {op : Nat} {a b : Option Nat} : ∀ {c m len}, decodeOp lits op a b = some (.ins (.pushBlock c m) len) → .meth m ∈ lits := by
  have key : ∀ (i : Nat) m, constMeth lits i = some m → .meth m ∈ lits := by
    intro i m h
    unfold constMeth at h
    split at h
    · cases h
      rename_i h
      exact List.mem_of_getElem? h
    · cases h
  suffices h : FromLits lits (decodeOp lits op a b) from fun {c m len} => h c m len
  unfold decodeOp
  repeat' apply FromLits.ite
  all_goals
    intro c m len h
    cases a <;> cases b <;> simp [Option.bind_eq_some_iff] at h
  all_goals
    obtain ⟨x, h, ⟨_, rfl⟩, _⟩ := h
    exact key _ _ h

theorem makesIn_lits {lits : List (Lit Meth)} : ∀ (n : Nat) (bs : List Nat) (c : Bool) (m : Meth), (c, m) ∈ makesIn lits n bs → .meth m ∈ lits
  | 0, _, _, _, h => nomatch h
  | n + 1, bs, c, m, h => by
    unfold makesIn at h
    split at h
    · cases h
    · rename_i c' m' len hd
      rcases List.mem_cons.mp h with h | h
      · cases h
        cases bs with
        | nil => cases hd
        | cons op rest => exact decode_block hd
      · exact makesIn_lits n _ c m h
    · exact makesIn_lits n _ c m h

end PySOM.BC

namespace PySOM.Mach
open PySOM BC

/-! ## The machine -/

section
variable {ι X Y P : Type} {Has : Nat → Nat → Prop} {own : ι → Nat}

/-- The class that is noted in a block is that of its code. -/
def Held (Has : Nat → Nat → Prop) (w : St X Y) : Prop := ∀ (a id : Nat) (ctx : Option Nat) (h : Nat), w.sh.objs[a]? = some (.block id ctx h) → Has id h

/-- The current frame is that of code of the class `h`. -/
def In (w : St X Y) (h : Nat) : Prop := ∃ x, w.frames[w.cur]? = some x ∧ x.holder = h

/-- The frames that were there have the same classes. -/
structure Stays (Has : Nat → Nat → Prop) (w w' : St X Y) : Prop where
  held : Held Has w'
  cur : w'.cur = w.cur
  old : ∀ (f : Nat) (x : Frame), w.frames[f]? = some x → ∃ x', w'.frames[f]? = some x' ∧ x'.holder = x.holder

theorem Stays.refl {w : St X Y} (h : Held Has w) : Stays Has w w := ⟨h, rfl, fun _ x h => ⟨x, h, rfl⟩⟩

theorem Stays.trans {w w1 w2 : St X Y} (h1 : Stays Has w w1) (h2 : Stays Has w1 w2) : Stays Has w w2 := by
  refine ⟨h2.held, h2.cur.trans h1.cur, fun f x hx => ?_⟩
  obtain ⟨x1, a1, a2⟩ := h1.old f x hx
  obtain ⟨x2, b1, b2⟩ := h2.old f x1 a1
  exact ⟨x2, b1, b2.trans a2⟩

theorem Stays.inside {w w' : St X Y} (h : Stays Has w w') {c : Nat} (hc : In w c) : In w' c := by
  obtain ⟨x, hx, e⟩ := hc
  obtain ⟨x', h1, h2⟩ := h.old _ x hx
  exact ⟨x', by rw [h.cur]; exact h1, h2.trans e⟩

theorem Held.shared {w : St X Y} (h : Held Has w) {s : Shared X Y} (hs : Kept w.sh s) : Held Has { w with sh := s } := by
  intro a id ctx c hx
  obtain ⟨a', ha⟩ := hs a id ctx c hx
  exact h a' id ctx c ha

theorem Stays.ofShared {w : St X Y} (h : Held Has w) {s : Shared X Y} (hs : Kept w.sh s) : Stays Has w { w with sh := s } := ⟨h.shared hs, rfl, fun _ x h => ⟨x, h, rfl⟩⟩

/-- Methods and blocks do the same. -/
structure Alike (own : ι → Nat) (Has : Nat → Nat → Prop) (b2 b1 : Behaviour ι (St X Y) Esc) : Prop where
  meth : ∀ (i : ι) (w : St X Y), Held Has w → In w (own i) → ∀ r w', b2.meth i w r w' → b1.meth i w r w' ∧ Stays Has w w'
  blk : ∀ (id h : Nat), Has id h → ∀ (w : St X Y), Held Has w → In w h → ∀ r w', b2.blk id w r w' → b1.blk id w r w' ∧ Stays Has w w'

def Fit (own : ι → Nat) (Has : Nat → Nat → Prop) : Target ι P → Prop
  | .meth h i _ => own i = h
  | .blk id _ h _ => Has id h
  | _ => True

variable {G : Prog ι X Y P}

theorem look_fit (ho : Owns G own) (chain : List Nat) (sel : Sel) (vs : List Val) : Fit own Has (G.enter vs (G.look chain sel)) := by
  cases hl : G.look chain sel with
  | none => trivial
  | some x =>
    obtain ⟨h, e⟩ := x
    cases e with
    | prim n => trivial
    | meth i =>
      obtain ⟨c, _, hc⟩ := List.exists_of_findSome?_eq_some hl
      cases ht : G.table c sel with
      | none => rw [ht] at hc; cases hc
      | some e =>
        rw [ht] at hc
        simp only [Option.map_some, Option.some.injEq, Prod.mk.injEq] at hc
        obtain ⟨rfl, rfl⟩ := hc
        exact ho _ _ _ ht

theorem resolve_fit (ho : Owns G own) {w : St X Y} (hw : Held Has w) (c : Call) : Stays Has w (G.resolve w c).2 ∧ Fit own Has (G.resolve w c).1 := by
  have same : Stays Has w w := .refl hw
  cases c with
  | send sel vs =>
    cases vs with
    | nil => exact ⟨same, trivial⟩
    | cons r as =>
      simp only [Prog.resolve]
      cases hc : G.classOf w.sh r with
      | none => exact ⟨same, trivial⟩
      | some c =>
        dsimp only
        cases hl : G.look (G.chain c) sel with
        | some x => exact ⟨same, (by have := look_fit (Has := Has) ho (G.chain c) sel (r :: as); rwa [hl] at this)⟩
        | none => exact ⟨.ofShared hw (kept_append (fun _ _ _ => by simp)), look_fit ho _ _ _⟩
  | own sel vs =>
    cases vs with
    | nil => exact ⟨same, trivial⟩
    | cons r as =>
      simp only [Prog.resolve]
      cases hc : G.classOf w.sh r with
      | none => exact ⟨same, trivial⟩
      | some c => exact ⟨same, look_fit ho _ _ _⟩
  | «from» chain sel vs =>
    cases vs with
    | nil => exact ⟨same, trivial⟩
    | cons r as => exact ⟨same, look_fit ho _ _ _⟩
  | value vs =>
    cases vs with
    | nil => exact ⟨same, trivial⟩
    | cons r as =>
      cases r with
      | obj a =>
        simp only [Prog.resolve]
        cases hx : w.sh.objs[a]? with
        | none => exact ⟨same, trivial⟩
        | some o =>
          cases o with
          | block id ctx h => exact ⟨same, hw a id ctx h hx⟩
          | _ => exact ⟨same, trivial⟩
      | _ => exact ⟨same, trivial⟩

theorem push_held {w : St X Y} (h : Held Has w) (vs : List Val) (ctx : Option Nat) (c : Nat) (home : Bool) : Held Has (w.push vs ctx c home) := h

theorem push_in {w : St X Y} (vs : List Val) (ctx : Option Nat) (c : Nat) (home : Bool) : In (w.push vs ctx c home) c := ⟨_, push_new, rfl⟩

theorem left_stays {w w0 : St X Y} {vs : List Val} {ctx : Option Nat} {c : Nat} {home : Bool} {r0 : Src.Res Esc} (h : Stays Has (w.push vs ctx c home) w0) :
    Stays Has w (left home w.frames.length w.cur r0 w0).2 := by
  have hst : (left home w.frames.length w.cur r0 w0).2 = w0.pop w.frames.length w.cur := by
    unfold left
    repeat' split
    all_goals rfl
  rw [hst]
  refine ⟨h.held, rfl, fun f x hx => ?_⟩
  obtain ⟨x1, h1, h2⟩ := h.old f x (push_shape f x hx)
  simp only [St.pop, List.getElem?_modify, h1, Option.map_eq_map, Option.map_some]
  by_cases hf : w.frames.length = f
  · rw [if_pos hf]; exact ⟨_, rfl, h2⟩
  · rw [if_neg hf]; exact ⟨_, rfl, h2⟩

theorem Do.alike (hG : Tame G) (ho : Owns G own) {b2 b1 : Behaviour ι (St X Y) Esc} (hb : Alike own Has b2 b1) {t : Target ι P} {w : St X Y} {r : Res Esc} {w' : St X Y}
    (h : Do G b2 t w r w') : Held Has w → Fit own Has t → Do G b1 t w r w' ∧ Stays Has w w' := by
  induction h with
  | meth h i vs w r0 w0 hm =>
    intro hw hf
    obtain ⟨h1, h2⟩ := hb.meth i _ (push_held hw vs none h _) (by rw [show own i = h from hf]; exact push_in vs none h _) _ _ hm
    exact ⟨.meth h i vs w r0 w0 h1, left_stays h2⟩
  | blk id ctx h vs w r0 w0 hm =>
    intro hw hf
    obtain ⟨h1, h2⟩ := hb.blk id h hf _ (push_held hw vs ctx h _) (push_in vs ctx h _) _ _ hm
    exact ⟨.blk id ctx h vs w r0 w0 h1, left_stays h2⟩
  | fail e w => exact fun hw _ => ⟨.fail e w, .refl hw⟩
  | done q w s v hs => exact fun hw _ => ⟨.done q w s v hs, .ofShared hw (by have := hG q w.sh; rwa [hs] at this)⟩
  | raise q w s e hs => exact fun hw _ => ⟨.raise q w s e hs, .ofShared hw (by have := hG q w.sh; rwa [hs] at this)⟩
  | next q w s q' r w' hs hq ih =>
    intro hw _
    have h0 : Stays Has w { w with sh := s } := .ofShared hw (by have := hG q w.sh; rwa [hs] at this)
    obtain ⟨h1, h2⟩ := ih h0.held trivial
    exact ⟨.next q w s q' r w' hs h1, h0.trans h2⟩
  | callVal q w s c k v w1 r w' hs hc hk ih1 ih2 =>
    intro hw _
    have h0 : Stays Has w { w with sh := s } := .ofShared hw (by have := hG q w.sh; rwa [hs] at this)
    obtain ⟨h1, h2⟩ := resolve_fit ho h0.held c
    obtain ⟨h3, h4⟩ := ih1 h1.held h2
    obtain ⟨h5, h6⟩ := ih2 h4.held trivial
    exact ⟨.callVal q w s c k v w1 r w' hs h3 h5, ((h0.trans h1).trans h4).trans h6⟩
  | callExc q w s c k e w1 hs hc ih =>
    intro hw _
    have h0 : Stays Has w { w with sh := s } := .ofShared hw (by have := hG q w.sh; rwa [hs] at this)
    obtain ⟨h1, h2⟩ := resolve_fit ho h0.held c
    obtain ⟨h3, h4⟩ := ih h1.held h2
    exact ⟨.callExc q w s c k e w1 hs h3, (h0.trans h1).trans h4⟩

/-! ## Actions -/

/-- Carrying out a plan. -/
def Prog.carry (G : Prog ι X Y P) (b : Behaviour ι (St X Y) Esc) (x : Now X Y ⊕ Call × St X Y) (r : Res Esc) (w' : St X Y) : Prop :=
  match x with
  | .inl x => r = x.1 ∧ w' = x.2
  | .inr x => Do G b (G.resolve x.2 x.1).1 (G.resolve x.2 x.1).2 r w'

theorem planIn_eq {K : Incs X Y} {h : Nat} {w : St X Y} (hw : In w h) (a : Act Nat) : G.planIn K h w a = G.plan K w a := by
  obtain ⟨x, hx, rfl⟩ := hw
  cases a <;> first | rfl | simp only [Prog.planIn, Prog.plan, hx]

theorem modify_stays {w : St X Y} (hw : Held Has w) (n : Nat) (f : Frame → Frame) (hf : ∀ x, (f x).holder = x.holder) : Stays Has w { w with frames := w.frames.modify n f } := by
  refine ⟨hw, rfl, fun k x hx => ?_⟩
  simp only [List.getElem?_modify, hx, Option.map_eq_map, Option.map_some]
  by_cases hn : n = k
  · rw [if_pos hn]; exact ⟨_, rfl, hf x⟩
  · rw [if_neg hn]; exact ⟨_, rfl, rfl⟩

theorem shared_stays {w : St X Y} (hw : Held Has w) {x : Shared X Y × Except Err Val} (hx : Kept w.sh x.1) : Stays Has w (w.shared x).2 := by
  unfold St.shared
  split <;> exact .ofShared hw hx

theorem plan_stays {K : Incs X Y} (hK : K.Tame) {h : Nat} {w : St X Y} (hw : Held Has w) (hi : In w h) {a : Act Nat} (ha : Makes (fun id => Has id h) a) :
    match G.plan K w a with
    | .inl x => Stays Has w x.2
    | .inr x => x.2 = w := by
  have same : Stays Has w w := .refl hw
  obtain ⟨f, hf, rfl⟩ := hi
  cases a with
  | rdVar a i l =>
    simp only [Prog.plan, St.rdVar]
    repeat' split
    all_goals exact same
  | wrVar a i l v =>
    simp only [Prog.plan, St.wrVar]
    split
    · exact same
    · exact modify_stays hw _ _ fun x => by split <;> rfl
  | rdFld i l =>
    simp only [Prog.plan, St.rdFld]
    repeat' split
    all_goals exact same
  | wrFld i l v =>
    simp only [Prog.plan, St.wrFld]
    repeat' split
    all_goals first | exact same | exact .ofShared hw (kept_set fun _ _ _ => by simp)
  | incFld i l =>
    simp only [Prog.plan]
    cases w.selfAt l with
    | none => exact same
    | some v => cases v with
      | obj a => exact shared_stays hw (hK.2.2 a i w.sh)
      | _ => exact same
  | glob g =>
    simp only [Prog.plan]
    cases w.sh.globals g with
    | some v => exact same
    | none => cases w.outerSelf w.frames.length w.cur with
      | some s => rfl
      | none => exact same
  | mkBlock c id =>
    simp only [Prog.plan, hf]
    refine ⟨?_, rfl, fun _ x h => ⟨x, h, rfl⟩⟩
    intro a id' ctx h hx
    simp only [List.getElem?_append] at hx
    split at hx
    · exact hw a id' ctx h hx
    · cases hk : a - w.sh.objs.length with
      | zero =>
        rw [hk] at hx
        simp only [List.getElem?_cons_zero, Option.some.injEq, Obj.block.injEq] at hx
        obtain ⟨rfl, _, rfl⟩ := hx
        exact ha c id rfl
      | succ k => rw [hk] at hx; simp at hx
  | send sel vs => rfl
  | superSend sel vs => simp only [Prog.plan, hf]
  | inc v => exact shared_stays hw (hK.1 v w.sh)
  | dec v => exact shared_stays hw (hK.2.1 v w.sh)
  | self =>
    simp only [Prog.plan, St.rdVar]
    repeat' split
    all_goals exact same
  | nlr l v =>
    simp only [Prog.plan]
    cases w.frameAt l with
    | none => exact same
    | some x => cases w.frameAt 0 with
      | none => exact same
      | some y =>
        dsimp only
        by_cases hon : x.2.on = true
        · rw [if_pos hon]; exact same
        · rw [if_neg hon]
          cases x.2.args[0]? with
          | none => exact same
          | some s => cases y.2.args[0]? with
            | none => exact same
            | some b => rfl

theorem carry_alike (hG : Tame G) (ho : Owns G own) {K : Incs X Y} (hK : K.Tame) {b2 b1 : Behaviour ι (St X Y) Esc} (hb : Alike own Has b2 b1) {h : Nat} {a : Act Nat}
    (ha : Makes (fun id => Has id h) a) {w : St X Y} (hw : Held Has w) (hi : In w h) {r : Res Esc} {w' : St X Y} (hc : G.carry b2 (G.plan K w a) r w') :
    G.carry b1 (G.plan K w a) r w' ∧ Stays Has w w' := by
  have hp := plan_stays (G := G) hK hw hi ha
  cases hx : G.plan K w a with
  | inl x =>
    rw [hx] at hp hc
    exact ⟨hc, by rw [hc.2]; exact hp⟩
  | inr x =>
    rw [hx] at hp hc
    obtain ⟨c, w1⟩ := x
    obtain rfl : w1 = w := hp
    obtain ⟨h1, h2⟩ := resolve_fit ho hw c
    obtain ⟨h3, h4⟩ := hc.alike hG ho hb h1.held h2
    exact ⟨h3, h1.trans h4⟩

/-- The two worlds, for code of the class `h`. -/
theorem world_in (hG : Tame G) (ho : Owns G own) {K : Incs X Y} (hK : K.Tame) {b2 b1 : Behaviour ι (St X Y) Esc} (hb : Alike own Has b2 b1) {h : Nat} {w0 : St X Y} (h0 : In w0 h) :
    Acts (Stays Has w0) (fun id => Has id h) (G.world K b2) (G.worldIn K h b1) := by
  intro a ha w r w' hw hc
  have hi := hw.inside h0
  obtain ⟨h1, h2⟩ := carry_alike hG ho hK hb ha hw.held hi hc
  refine ⟨?_, hw.trans h2⟩
  rw [← planIn_eq hi] at h1
  exact h1

theorem in_world (hG : Tame G) (ho : Owns G own) {K : Incs X Y} (hK : K.Tame) {b2 b1 : Behaviour ι (St X Y) Esc} (hb : Alike own Has b2 b1) {h : Nat} {w0 : St X Y} (h0 : In w0 h) :
    Acts (Stays Has w0) (fun id => Has id h) (G.worldIn K h b2) (G.world K b1) := by
  intro a ha w r w' hw hc
  have hi := hw.inside h0
  have hc' : G.carry b2 (G.planIn K h w a) r w' := hc
  rw [planIn_eq hi] at hc'
  obtain ⟨h1, h2⟩ := carry_alike hG ho hK hb ha hw.held hi hc'
  exact ⟨h1, hw.trans h2⟩

end
end PySOM.Mach

import Verif.Spec.Machine
import Verif.Lemmas.AstWhole
/-!
# The machine passes exceptions on, and has at most one outcome
-/
set_option autoImplicit false
namespace PySOM.BC
open PySOM

/-! ## At most one outcome -/

section
variable {W E : Type}

/-- Two relations never give different outcomes. -/
def Agree (R S : Src.Rel W E) : Prop := ∀ w r1 w1 r2 w2, R w r1 w1 → S w r2 w2 → r1 = r2 ∧ w1 = w2

theorem Agree.pure (v : Val) : Agree (W := W) (E := E) (Src.pure v) (Src.pure v) := by
  rintro w r1 w1 r2 w2 ⟨rfl, rfl⟩ ⟨rfl, rfl⟩; exact ⟨rfl, rfl⟩

theorem Agree.answer (v : Val) : Agree (W := W) (E := E) (Src.answer v) (Src.answer v) := by
  rintro w r1 w1 r2 w2 ⟨rfl, rfl⟩ ⟨rfl, rfl⟩; exact ⟨rfl, rfl⟩

theorem Agree.raises (err : Err → E) (e : Err) : Agree (W := W) (Cond.raises err e) (Cond.raises err e) := by
  rintro w r1 w1 r2 w2 ⟨rfl, rfl⟩ ⟨rfl, rfl⟩; exact ⟨rfl, rfl⟩

theorem Agree.ite {c : Prop} [Decidable c] {a2 a1 b2 b1 : Src.Rel W E} (ha : Agree a2 a1) (hb : Agree b2 b1) : Agree (if c then a2 else b2) (if c then a1 else b1) := by
  split
  · exact ha
  · exact hb

theorem Agree.bind {R S : Src.Rel W E} {f g : Val → Src.Rel W E} (h : Agree R S) (hk : ∀ v, Agree (f v) (g v)) : Agree (Src.bind R f) (Src.bind S g) := by
  rintro w r1 w1 r2 w2 (⟨v, u, h1, k1⟩ | ⟨h1, s1⟩) (⟨v', u', h2, k2⟩ | ⟨h2, s2⟩)
  · obtain ⟨e, rfl⟩ := h _ _ _ _ _ h1 h2
    cases e
    exact hk v _ _ _ _ _ k1 k2
  · obtain ⟨rfl, _⟩ := h _ _ _ _ _ h1 h2
    exact s2.elim
  · obtain ⟨rfl, _⟩ := h _ _ _ _ _ h1 h2
    exact s1.elim
  · exact h _ _ _ _ _ h1 h2

theorem Agree.while {st : Val → Bool} {c c' b b' : Src.Rel W E} (hc : Agree c c') (hb : Agree b b') : Agree (Src.While st c b) (Src.While st c' b') := by
  intro w r1 w1 r2 w2 h1 h2
  induction h1 generalizing r2 w2 with
  | exit w u v h hs =>
    cases h2 with
    | exit _ _ v' h' hs' => exact ⟨rfl, (hc _ _ _ _ _ h h').2⟩
    | condStop _ _ _ h' hr => have := (hc _ _ _ _ _ h h').1; subst this; exact hr.elim
    | bodyStop _ _ _ v' _ h' hs' => have := (hc _ _ _ _ _ h h').1; cases this; rw [hs] at hs'; cases hs'
    | next _ _ _ _ v' _ _ h' hs' => have := (hc _ _ _ _ _ h h').1; cases this; rw [hs] at hs'; cases hs'
  | condStop w u r h hr =>
    cases h2 with
    | exit _ _ v' h' hs' => have := (hc _ _ _ _ _ h h').1; subst this; exact hr.elim
    | condStop _ _ _ h' hr' => exact hc _ _ _ _ _ h h'
    | bodyStop _ _ _ v' _ h' hs' => have := (hc _ _ _ _ _ h h').1; subst this; exact hr.elim
    | next _ _ _ _ v' _ _ h' hs' => have := (hc _ _ _ _ _ h h').1; subst this; exact hr.elim
  | bodyStop w u u2 v r h hs hbd hr =>
    cases h2 with
    | exit _ _ v' h' hs' => have := (hc _ _ _ _ _ h h').1; cases this; rw [hs] at hs'; cases hs'
    | condStop _ _ _ h' hr' => have := (hc _ _ _ _ _ h h').1; subst this; exact hr'.elim
    | bodyStop _ _ _ v' _ h' hs' hb' hr' => obtain ⟨e, rfl⟩ := hc _ _ _ _ _ h h'; exact hb _ _ _ _ _ hbd hb'
    | next _ _ _ _ v' _ _ h' hs' hb' _ => obtain ⟨e, rfl⟩ := hc _ _ _ _ _ h h'; have := (hb _ _ _ _ _ hbd hb').1; subst this; exact hr.elim
  | next w u u2 u3 v x r h hs hbd _ ih =>
    cases h2 with
    | exit _ _ v' h' hs' => have := (hc _ _ _ _ _ h h').1; cases this; rw [hs] at hs'; cases hs'
    | condStop _ _ _ h' hr' => have := (hc _ _ _ _ _ h h').1; subst this; exact hr'.elim
    | bodyStop _ _ _ v' _ h' hs' hb' hr' => obtain ⟨e, rfl⟩ := hc _ _ _ _ _ h h'; have := (hb _ _ _ _ _ hbd hb').1; subst this; exact hr'.elim
    | next _ _ _ _ v' _ _ h' hs' hb' hn' => obtain ⟨e, rfl⟩ := hc _ _ _ _ _ h h'; obtain ⟨e, rfl⟩ := hb _ _ _ _ _ hbd hb'; exact ih _ _ hn'

theorem Agree.answers {R2 R1 : Src.Rel W E} (h : Agree R2 R1) (c : Bool) (err : Err → E) : Agree (answers c err R2) (answers c err R1) := by
  intro w r1 w1 r2 w2 h1 h2
  cases r1 with
  | val v => exact h1.elim
  | ret v =>
    cases r2 with
    | val v => exact h2.elim
    | ret u =>
      rcases h1 with h1 | ⟨_, h1⟩ <;> rcases h2 with h2 | ⟨_, h2⟩ <;> obtain ⟨e, rfl⟩ := h _ _ _ _ _ h1 h2 <;> cases e <;> exact ⟨rfl, rfl⟩
    | exc e =>
      rcases h1 with h1 | ⟨hc, h1⟩ <;> rcases h2 with h2 | ⟨hc', _, _, h2⟩ <;> have := (h _ _ _ _ _ h1 h2).1 <;> cases this
      rw [hc] at hc'; cases hc'
  | exc e =>
    cases r2 with
    | val v => exact h2.elim
    | ret u =>
      rcases h1 with h1 | ⟨hc, _, _, h1⟩ <;> rcases h2 with h2 | ⟨hc', h2⟩ <;> have := (h _ _ _ _ _ h1 h2).1 <;> cases this
      rw [hc] at hc'; cases hc'
    | exc e' =>
      rcases h1 with h1 | ⟨hc, he, _, h1⟩ <;> rcases h2 with h2 | ⟨hc', he', _, h2⟩ <;> obtain ⟨ee, rfl⟩ := h _ _ _ _ _ h1 h2 <;> cases ee
      · exact ⟨rfl, rfl⟩
      · exact ⟨by rw [he, he'], rfl⟩

/-- Two worlds never give different outcomes. -/
def AgreeW {M : Type} (A B : World M W E) : Prop := ∀ a w r1 w1 r2 w2, A a w r1 w1 → B a w r2 w2 → r1 = r2 ∧ w1 = w2

theorem AgreeW.act {M : Type} {A B : World M W E} (h : AgreeW A B) (a : Act M) : Agree (Src.act A a) (Src.act B a) := by
  rintro w r1 w1 r2 w2 (⟨v, rfl, h1⟩ | ⟨v, rfl, h1⟩) (⟨v', rfl, h2⟩ | ⟨v', rfl, h2⟩) <;> obtain ⟨e, rfl⟩ := h _ _ _ _ _ _ h1 h2 <;> cases e <;> exact ⟨rfl, rfl⟩

theorem Step.agree {M : Type} {A B : World M W E} (hA : AgreeW A B) {C : Code M} {c d d' : Cfg W E} (h : Step A C c d) (h' : Step B C c d') : d = d' := by
  cases h <;> cases h' <;> simp_all
  all_goals first
    | (have := hA _ _ _ _ _ _ ‹A _ _ _ _› ‹B _ _ _ _›; simp_all)
    | grind

theorem Steps.agree {M : Type} {A B : World M W E} (hA : AgreeW A B) {C : Code M} {fin : Cfg W E → Prop} (hfA : ∀ c d, fin c → ¬ Step A C c d) (hfB : ∀ c d, fin c → ¬ Step B C c d)
    {n m : Nat} {c d d' : Cfg W E} (h : Steps A C n c d) (h' : Steps B C m c d') (hd : fin d) (hd' : fin d') : d = d' := by
  induction h generalizing m with
  | refl c =>
    cases h' with
    | refl => rfl
    | step _ _ _ _ hs _ => exact absurd hs (hfB _ _ hd)
  | step n c u e hs _ ih =>
    cases h' with
    | refl => exact absurd hs (hfA _ _ hd')
    | step _ _ u' _ hs' ht' =>
      cases hs.agree hA hs'
      exact ih ht' hd

/-- Running bytecode has at most one outcome. -/
theorem bcRun_agree {M : Type} {A B : World M W E} (hA : AgreeW A B) (C : Code M) : Agree (bcRun A C) (bcRun B C) := by
  intro w r1 w1 r2 w2 h1 h2
  let fin : Cfg W E → Prop := fun c => match c with | .run _ _ _ => False | _ => True
  have hf : ∀ (A : World M W E) c d, fin c → ¬ Step A C c d := by
    intro A c d hc hs
    cases hs <;> exact hc
  cases r1 with
  | val v => exact h1.elim
  | ret v =>
    obtain ⟨n, h1⟩ := h1
    cases r2 with
    | val v => exact h2.elim
    | ret v => obtain ⟨m, h2⟩ := h2; cases h1.agree hA (hf A) (hf B) h2 trivial trivial; exact ⟨rfl, rfl⟩
    | exc e => obtain ⟨m, h2⟩ := h2; cases h1.agree hA (hf A) (hf B) h2 trivial trivial
  | exc e =>
    obtain ⟨n, h1⟩ := h1
    cases r2 with
    | val v => exact h2.elim
    | ret v => obtain ⟨m, h2⟩ := h2; cases h1.agree hA (hf A) (hf B) h2 trivial trivial
    | exc e => obtain ⟨m, h2⟩ := h2; cases h1.agree hA (hf A) (hf B) h2 trivial trivial; exact ⟨rfl, rfl⟩

theorem AgreeW.onMeth {A B : World Nat W E} (h : AgreeW A B) : AgreeW (onMeth A) (onMeth B) := fun a => h (a.map Meth.id)

theorem Meth.run_agree {A B : World Meth W E} (h : AgreeW A B) (m : Meth) : Agree (m.run A) (m.run B) := by
  cases m with
  | bc => exact bcRun_agree h _
  | triv id t =>
    cases t with
    | lit l =>
      cases l with
      | val v => exact .answer v
      | meth m => intro w r1 w1 r2 w2 h; exact h.elim
    | glob n g => exact (h.act _).bind fun _ => .answer _
    | fldRead i l => exact (h.act _).bind fun _ => .answer _
    | fldWrite i j => exact (h.act _).bind fun _ => (h.act _).bind fun _ => (h.act _).bind fun _ => .answer _

variable {A2 A1 : World Nat W E} {U2 U1 : Sel → Nat → Src.Rel W E} {err : Err → E}

theorem Inl1.agree (k : Inl1) {r2 r1 a2 a1 : Src.Rel W E} (hr : Agree r2 r1) (ha : Agree a2 a1) : Agree (k.exec err r2 a2) (k.exec err r1 a1) := by
  cases k with
  | ifBool b => exact hr.bind fun v => .ite ha (.ite (.pure _) (.raises _ _))
  | ifNil => exact hr.bind fun v => .ite ha (.pure _)
  | ifNotNil => exact hr.bind fun v => .ite (.pure _) ha
  | and => exact hr.bind fun v => .ite ha (.ite (.pure _) (.raises _ _))
  | or => exact hr.bind fun v => .ite (.pure _) (.ite ha (.raises _ _))

theorem Inl2.agree (k : Inl2) {r2 r1 a2 a1 b2 b1 : Src.Rel W E} (hr : Agree r2 r1) (ha : Agree a2 a1) (hb : Agree b2 b1) :
    Agree (k.exec err r2 a2 b2) (k.exec err r1 a1 b1) := by
  cases k with
  | ifElse b => exact hr.bind fun v => .ite ha (.ite hb (.raises _ _))
  | ifNil b =>
    cases b
    · exact hr.bind fun v => .ite hb ha
    · exact hr.bind fun v => .ite ha hb

mutual
theorem Node.exec_agree (hA : ∀ a, Agree (Src.act A2 a) (Src.act A1 a)) (hU : ∀ g l, Agree (U2 g l) (U1 g l)) : ∀ (t : Node), Agree (t.exec A2 U2 err) (t.exec A1 U1 err)
  | .lit v => .pure _
  | .globK n => hA _
  | .globU n l => hU n l
  | .readArg i l => hA _
  | .readLoc i _ l => hA _
  | .self l => hA _
  | .writeArg i l e => (Node.exec_agree hA hU e).bind fun v => (hA _).bind fun _ => .pure _
  | .writeLoc i _ l e => (Node.exec_agree hA hU e).bind fun v => (hA _).bind fun _ => .pure _
  | .fld i l => hA _
  | .fldW i l e => (Node.exec_agree hA hU e).bind fun v => (hA _).bind fun _ => .pure _
  | .fldInc i l => hA _
  | .inc e => (Node.exec_agree hA hU e).bind fun v => hA _
  | .blk c m => hA _
  | .send sel r as => (Node.exec_agree hA hU r).bind fun v => Nodes.exec_agree hA hU as _ _ fun vs => hA _
  | .superSend sel r as => (Node.exec_agree hA hU r).bind fun v => Nodes.exec_agree hA hU as _ _ fun vs => hA _
  | .inl1 k r a => k.agree (Node.exec_agree hA hU r) (Node.exec_agree hA hU a)
  | .inl2 k r a b => k.agree (Node.exec_agree hA hU r) (Node.exec_agree hA hU a) (Node.exec_agree hA hU b)
  | .while b c body => .while ((Node.exec_agree hA hU c).bind fun _ => .ite (.pure _) (.raises _ _)) (Node.exec_agree hA hU body)
  | .seq es => Nodes.execSeq_agree hA hU es
  | .retNL l e => (Node.exec_agree hA hU e).bind fun v => hA _
  | .retL e => (Node.exec_agree hA hU e).bind fun v => .answer _
theorem Nodes.exec_agree (hA : ∀ a, Agree (Src.act A2 a) (Src.act A1 a)) (hU : ∀ g l, Agree (U2 g l) (U1 g l)) : ∀ (es : Nodes) (k2 k1 : List Val → Src.Rel W E),
    (∀ vs, Agree (k2 vs) (k1 vs)) → Agree (es.exec A2 U2 err k2) (es.exec A1 U1 err k1)
  | .nil, _, _, hk => hk []
  | .cons e es, _, _, hk => (Node.exec_agree hA hU e).bind fun v => Nodes.exec_agree hA hU es _ _ fun vs => hk (v :: vs)
theorem Nodes.execSeq_agree (hA : ∀ a, Agree (Src.act A2 a) (Src.act A1 a)) (hU : ∀ g l, Agree (U2 g l) (U1 g l)) : ∀ (es : Nodes),
    Agree (es.execSeq A2 U2 err) (es.execSeq A1 U1 err)
  | .nil => .pure _
  | .cons e .nil => Node.exec_agree hA hU e
  | .cons e (.cons f es) => (Node.exec_agree hA hU e).bind fun _ => Nodes.execSeq_agree hA hU (.cons f es)
end

theorem ATriv.run_agree (hA : ∀ a, Agree (Src.act A2 a) (Src.act A1 a)) (hU : ∀ g l, Agree (U2 g l) (U1 g l)) (t : ATriv) : Agree (t.run A2 U2) (t.run A1 U1) := by
  cases t with
  | lit v => exact .answer _
  | globK n => exact (hA _).bind fun _ => .answer _
  | globU n l => exact (hU n l).bind fun _ => .answer _
  | fldRead i l => exact (hA _).bind fun _ => .answer _
  | fldWrite i j => exact (hA _).bind fun _ => (hA _).bind fun _ => (hA _).bind fun _ => .answer _

theorem AMeth.run_agree (hA : ∀ a, Agree (Src.act A2 a) (Src.act A1 a)) (hU : ∀ g l, Agree (U2 g l) (U1 g l)) (m : AMeth) : Agree (m.run A2 U2 err) (m.run A1 U1 err) := by
  cases m with
  | ast id args ls body => exact (Node.exec_agree hA hU body).answers _ _
  | triv id t => exact t.run_agree hA hU

theorem AMethod.run_agree (hA : ∀ a, Agree (Src.act A2 a) (Src.act A1 a)) (hU : ∀ g l, Agree (U2 g l) (U1 g l)) (m : AMethod) : Agree (m.run A2 U2 err) (m.run A1 U1 err) := by
  cases m with
  | ast ls c body => exact (Node.exec_agree hA hU body).answers _ _
  | triv t => exact t.run_agree hA hU

end
end PySOM.BC

namespace PySOM.Mach
open PySOM BC

section
variable {ι X Y P : Type} {G : Prog ι X Y P}

/-! ## Exceptions are passed on -/

/-- Only Python errors. -/
def Errors (bad : Esc → Prop) : Prop := ∀ e, bad e → ∃ x, e = .err x

variable {bad : Esc → Prop}

theorem left_bad (hbad : Errors bad) {home : Bool} {f cur : Nat} {e : Esc} {w : St X Y} (h : bad e) : (left home f cur (.exc e) w).1 = .exc e := by
  obtain ⟨x, rfl⟩ := hbad e h; rfl

theorem Do.passes (hbad : Errors bad) {b2 b1 : Behaviour ι (St X Y) Esc} (hm : ∀ i, Approx (bad) (b2.meth i) (b1.meth i)) (hb : ∀ id, Approx (bad) (b2.blk id) (b1.blk id))
    {t : Target ι P} {w : St X Y} {r : Res Esc} {w' : St X Y} (h : Do G b2 t w r w') : Do G b1 t w r w' ∨ ∃ e, r = .exc e ∧ bad e := by
  induction h with
  | meth h i vs w r0 w0 h0 =>
    rcases (hm i).1 _ _ _ h0 with h1 | ⟨e, rfl, he⟩
    · exact .inl (.meth _ _ _ _ _ _ h1)
    · exact .inr ⟨e, left_bad hbad he, he⟩
  | blk id ctx h vs w r0 w0 h0 =>
    rcases (hb id).1 _ _ _ h0 with h1 | ⟨e, rfl, he⟩
    · exact .inl (.blk _ _ _ _ _ _ _ h1)
    · exact .inr ⟨e, left_bad hbad he, he⟩
  | fail e w => exact .inl (.fail e w)
  | done p w s v hs => exact .inl (.done _ _ _ _ hs)
  | raise p w s e hs => exact .inl (.raise _ _ _ _ hs)
  | next p w s q r w' hs _ ih => exact ih.imp (fun h => .next _ _ _ _ _ _ hs h) fun h => h
  | callVal p w s c k v w1 r w' hs _ _ ih1 ih2 =>
    rcases ih1 with h1 | ⟨e, he, _⟩
    · exact ih2.imp (fun h => .callVal _ _ _ _ _ _ _ _ _ hs h1 h) fun h => h
    · cases he
  | callExc p w s c k e w1 hs _ ih =>
    rcases ih with h1 | ⟨e', he, hb'⟩
    · exact .inl (.callExc _ _ _ _ _ _ _ hs h1)
    · cases he; exact .inr ⟨e, rfl, hb'⟩

theorem Do.passes' (hbad : Errors bad) {b2 b1 : Behaviour ι (St X Y) Esc} (hm : ∀ i, Approx (bad) (b2.meth i) (b1.meth i)) (hb : ∀ id, Approx (bad) (b2.blk id) (b1.blk id))
    {t : Target ι P} {w : St X Y} {r : Res Esc} {w' : St X Y} (h : Do G b1 t w r w') : Do G b2 t w r w' ∨ ∃ e w2, bad e ∧ Do G b2 t w (.exc e) w2 := by
  induction h with
  | meth h i vs w r0 w0 h0 =>
    rcases (hm i).2 _ _ _ h0 with h1 | ⟨e, w2, he, h1⟩
    · exact .inl (.meth _ _ _ _ _ _ h1)
    · have := Do.meth (G := G) h i vs w _ _ h1
      rw [left_bad hbad he] at this
      exact .inr ⟨e, _, he, this⟩
  | blk id ctx h vs w r0 w0 h0 =>
    rcases (hb id).2 _ _ _ h0 with h1 | ⟨e, w2, he, h1⟩
    · exact .inl (.blk _ _ _ _ _ _ _ h1)
    · have := Do.blk (G := G) id ctx h vs w _ _ h1
      rw [left_bad hbad he] at this
      exact .inr ⟨e, _, he, this⟩
  | fail e w => exact .inl (.fail e w)
  | done p w s v hs => exact .inl (.done _ _ _ _ hs)
  | raise p w s e hs => exact .inl (.raise _ _ _ _ hs)
  | next p w s q r w' hs _ ih => exact ih.imp (fun h => .next _ _ _ _ _ _ hs h) fun ⟨e, w2, he, h⟩ => ⟨e, w2, he, .next _ _ _ _ _ _ hs h⟩
  | callVal p w s c k v w1 r w' hs _ _ ih1 ih2 =>
    rcases ih1 with h1 | ⟨e, w2, he, h1⟩
    · exact ih2.imp (fun h => .callVal _ _ _ _ _ _ _ _ _ hs h1 h) fun ⟨e, w2, he, h⟩ => ⟨e, w2, he, .callVal _ _ _ _ _ _ _ _ _ hs h1 h⟩
    · exact .inr ⟨e, w2, he, .callExc _ _ _ _ _ _ _ hs h1⟩
  | callExc p w s c k e w1 hs _ ih => exact ih.imp (fun h => .callExc _ _ _ _ _ _ _ hs h) fun ⟨e, w2, he, h⟩ => ⟨e, w2, he, .callExc _ _ _ _ _ _ _ hs h⟩

theorem approx_of {M W E : Type} {A2 A1 : World M W E} {bad : E → Prop} {a2 a1 : Act M} (one : ∀ w r w', A2 a2 w r w' → A1 a1 w r w' ∨ ∃ e, r = .exc e ∧ bad e)
    (two : ∀ w r w', A1 a1 w r w' → A2 a2 w r w' ∨ ∃ e w2, bad e ∧ A2 a2 w (.exc e) w2) : Approx bad (Src.act A2 a2) (Src.act A1 a1) := by
  refine ⟨?_, ?_⟩
  · rintro w r w' (⟨v, rfl, h⟩ | ⟨e, rfl, h⟩)
    · rcases one _ _ _ h with h | ⟨e, he, _⟩
      · exact .inl (.inl ⟨v, rfl, h⟩)
      · cases he
    · rcases one _ _ _ h with h | ⟨e', he, hb⟩
      · exact .inl (.inr ⟨e, rfl, h⟩)
      · cases he; exact .inr ⟨e, rfl, hb⟩
  · rintro w r w' (⟨v, rfl, h⟩ | ⟨e, rfl, h⟩)
    · exact (two _ _ _ h).imp (fun h => .inl ⟨v, rfl, h⟩) fun ⟨e, w2, he, h⟩ => ⟨e, w2, he, .inr ⟨e, rfl, h⟩⟩
    · exact (two _ _ _ h).imp (fun h => .inr ⟨e, rfl, h⟩) fun ⟨e, w2, he, h⟩ => ⟨e, w2, he, .inr ⟨e, rfl, h⟩⟩

/-- Actions for which the two interpreters have the same plan. -/
theorem world_passes (hbad : Errors bad) {b2 b1 : Behaviour ι (St X Y) Esc} (hm : ∀ i, Approx bad (b2.meth i) (b1.meth i)) (hb : ∀ id, Approx bad (b2.blk id) (b1.blk id))
    {K2 K1 : Incs X Y} {a2 a1 : Act Nat} (hp : ∀ w, G.plan K2 w a2 = G.plan K1 w a1) : Approx bad (Src.act (G.world K2 b2) a2) (Src.act (G.world K1 b1) a1) := by
  refine approx_of (fun w r w' h => ?_) fun w r w' h => ?_
  · unfold Prog.world at h ⊢
    rw [hp] at h
    split at h
    · exact .inl h
    · exact h.passes hbad hm hb
  · unfold Prog.world at h ⊢
    rw [hp]
    split at h
    · exact .inl h
    · exact h.passes' hbad hm hb

/-! ## At most one outcome -/

theorem Do.agree {b b' : Behaviour ι (St X Y) Esc} (hm : ∀ i, Agree (b.meth i) (b'.meth i)) (hb : ∀ id, Agree (b.blk id) (b'.blk id)) {t : Target ι P} {w : St X Y} {r r' : Res Esc}
    {w1 w2 : St X Y} (h : Do G b t w r w1) (h' : Do G b' t w r' w2) : r = r' ∧ w1 = w2 := by
  induction h generalizing r' w2 with
  | meth h i vs w r0 w0 h0 =>
    cases h' with
    | meth _ _ _ _ _ _ h0' => obtain ⟨rfl, rfl⟩ := hm i _ _ _ _ _ h0 h0'; exact ⟨rfl, rfl⟩
  | blk id ctx h vs w r0 w0 h0 =>
    cases h' with
    | blk _ _ _ _ _ _ _ h0' => obtain ⟨rfl, rfl⟩ := hb id _ _ _ _ _ h0 h0'; exact ⟨rfl, rfl⟩
  | fail e w => cases h'; exact ⟨rfl, rfl⟩
  | done p w s v hs => cases h' <;> simp_all
  | raise p w s e hs => cases h' <;> simp_all
  | next p w s q r w' hs _ ih =>
    cases h' with
    | next _ _ _ _ _ _ hs' hq => rw [hs] at hs'; cases hs'; exact ih hq
    | _ => simp_all
  | callVal p w s c k v w1 r w' hs _ _ ih1 ih2 =>
    cases h' with
    | callVal _ _ _ _ _ _ _ _ _ hs' hc hk => rw [hs] at hs'; cases hs'; obtain ⟨e, rfl⟩ := ih1 hc; cases e; exact ih2 hk
    | callExc _ _ _ _ _ _ _ hs' hc => rw [hs] at hs'; cases hs'; cases (ih1 hc).1
    | _ => simp_all
  | callExc p w s c k e w1 hs _ ih =>
    cases h' with
    | callVal _ _ _ _ _ _ _ _ _ hs' hc hk => rw [hs] at hs'; cases hs'; cases (ih hc).1
    | callExc _ _ _ _ _ _ _ hs' hc => rw [hs] at hs'; cases hs'; exact ih hc
    | _ => simp_all

theorem world_agree {K : Incs X Y} {b b' : Behaviour ι (St X Y) Esc} (hm : ∀ i, Agree (b.meth i) (b'.meth i)) (hb : ∀ id, Agree (b.blk id) (b'.blk id)) :
    AgreeW (G.world K b) (G.world K b') := by
  intro a w r1 w1 r2 w2 h1 h2
  unfold Prog.world at h1 h2
  cases hp : G.plan K w a with
  | inl x =>
    simp only [hp] at h1 h2
    obtain ⟨rfl, rfl⟩ := h1
    obtain ⟨rfl, rfl⟩ := h2
    exact ⟨rfl, rfl⟩
  | inr x =>
    simp only [hp] at h1 h2
    exact h1.agree hm hb h2

theorem bcBehaviour_agree {K : Incs X Y} {p : Compiled2 ι} (hd : Distinct Meth.makes Meth.id p.code Code.makes) (k k' : Nat) :
    (∀ i, Agree ((bcBehaviour p (G.system K) k).meth i) ((bcBehaviour p (G.system K) k').meth i)) ∧
    ∀ id, Agree ((bcBehaviour p (G.system K) k).blk id) ((bcBehaviour p (G.system K) k').blk id) := by
  induction k generalizing k' with
  | zero => exact ⟨fun i w r1 w1 r2 w2 h => h.elim, fun i w r1 w1 r2 w2 h => h.elim⟩
  | succ k ih =>
    cases k' with
    | zero => exact ⟨fun i w r1 w1 r2 w2 _ h => h.elim, fun i w r1 w1 r2 w2 _ h => h.elim⟩
    | succ k' =>
      have hA := (world_agree (G := G) (K := K) (ih k').1 (ih k').2).onMeth
      refine ⟨fun i => bcRun_agree hA _, fun id => ?_⟩
      rintro w r1 w1 r2 w2 ⟨i, m, hc, hid, h⟩ ⟨i', m', hc', hid', h'⟩
      cases hd i i' m m' hc hc' (hid.trans hid'.symm)
      exact Meth.run_agree hA m _ _ _ _ _ h h'

theorem astBehaviour_agree {K : Incs X Y} {p : Compiled2 ι} (hd : Distinct AMeth.makes AMeth.id p.tree AMethod.makes) (k k' : Nat) :
    (∀ i, Agree ((astBehaviour p (G.system K) Esc.err k).meth i) ((astBehaviour p (G.system K) Esc.err k').meth i)) ∧
    ∀ id, Agree ((astBehaviour p (G.system K) Esc.err k).blk id) ((astBehaviour p (G.system K) Esc.err k').blk id) := by
  induction k generalizing k' with
  | zero => exact ⟨fun i w r1 w1 r2 w2 h => h.elim, fun i w r1 w1 r2 w2 h => h.elim⟩
  | succ k ih =>
    cases k' with
    | zero => exact ⟨fun i w r1 w1 r2 w2 _ h => h.elim, fun i w r1 w1 r2 w2 _ h => h.elim⟩
    | succ k' =>
      have hA := world_agree (G := G) (K := K) (ih k').1 (ih k').2
      refine ⟨fun i => (p.tree i).run_agree hA.act fun _ _ => hA.act _, fun id => ?_⟩
      rintro w r1 w1 r2 w2 ⟨i, m, hc, hid, h⟩ ⟨i', m', hc', hid', h'⟩
      cases hd i i' m m' hc hc' (hid.trans hid'.symm)
      exact AMeth.run_agree hA.act (fun _ _ => hA.act _) m _ _ _ _ _ h h'

end
end PySOM.Mach

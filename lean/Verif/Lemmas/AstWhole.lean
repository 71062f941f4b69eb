import Verif.Lemmas.AstPairs
import Verif.Props.Ast
/-!
# Trees in worlds that agree
-/
set_option autoImplicit false
namespace PySOM.BC
open PySOM

section
variable {W E : Type} {bad : E → Prop}

theorem Approx.trans {R3 R2 R1 : Src.Rel W E} (h : Approx bad R3 R2) (h' : Approx bad R2 R1) : Approx bad R3 R1 := by
  refine ⟨fun w r w' h3 => ?_, fun w r w' h1 => ?_⟩
  · rcases h.1 _ _ _ h3 with h2 | h2
    · exact h'.1 _ _ _ h2
    · exact .inr h2
  · rcases h'.2 _ _ _ h1 with h2 | ⟨e, w2, hb, h2⟩
    · exact h.2 _ _ _ h2
    · rcases h.2 _ _ _ h2 with h3 | h3
      · exact .inr ⟨e, w2, hb, h3⟩
      · exact .inr h3

theorem Approx.ite {c : Prop} [Decidable c] {a2 a1 b2 b1 : Src.Rel W E} (ha : Approx bad a2 a1) (hb : Approx bad b2 b1) : Approx bad (if c then a2 else b2) (if c then a1 else b1) := by
  split
  · exact ha
  · exact hb

theorem Approx.answers {R2 R1 : Src.Rel W E} (h : Approx bad R2 R1) (c : Bool) (err : Err → E) : Approx bad (answers c err R2) (answers c err R1) := by
  refine ⟨fun w r w' h2 => ?_, fun w r w' h1 => ?_⟩
  · cases r with
    | val v => exact h2.elim
    | ret v =>
      rcases h2 with h2 | ⟨hc, h2⟩
      · rcases h.1 _ _ _ h2 with h1 | ⟨e, he, _⟩
        · exact .inl (.inl h1)
        · cases he
      · rcases h.1 _ _ _ h2 with h1 | ⟨e, he, _⟩
        · exact .inl (.inr ⟨hc, h1⟩)
        · cases he
    | exc e =>
      rcases h2 with h2 | ⟨hc, he, v, h2⟩
      · rcases h.1 _ _ _ h2 with h1 | h1
        · exact .inl (.inl h1)
        · exact .inr h1
      · rcases h.1 _ _ _ h2 with h1 | ⟨e, he, _⟩
        · exact .inl (.inr ⟨hc, he, v, h1⟩)
        · cases he
  · have fin : ∀ {e w2}, bad e → R2 w (.exc e) w2 → ∃ e w2, bad e ∧ BC.answers c err R2 w (.exc e) w2 := fun hb h => ⟨_, _, hb, .inl h⟩
    cases r with
    | val v => exact h1.elim
    | ret v =>
      rcases h1 with h1 | ⟨hc, h1⟩
      · rcases h.2 _ _ _ h1 with h2 | ⟨e, w2, hb, h2⟩
        · exact .inl (.inl h2)
        · exact .inr (fin hb h2)
      · rcases h.2 _ _ _ h1 with h2 | ⟨e, w2, hb, h2⟩
        · exact .inl (.inr ⟨hc, h2⟩)
        · exact .inr (fin hb h2)
    | exc e =>
      rcases h1 with h1 | ⟨hc, he, v, h1⟩
      · rcases h.2 _ _ _ h1 with h2 | ⟨e, w2, hb, h2⟩
        · exact .inl (.inl h2)
        · exact .inr (fin hb h2)
      · rcases h.2 _ _ _ h1 with h2 | ⟨e, w2, hb, h2⟩
        · exact .inl (.inr ⟨hc, he, v, h2⟩)
        · exact .inr (fin hb h2)

/-- One of several. -/
theorem Approx.union {α β : Type} {P2 : α → Prop} {P1 : β → Prop} {R2 : α → Src.Rel W E} {R1 : β → Src.Rel W E} (h2 : ∀ a, P2 a → ∃ b, P1 b ∧ Approx bad (R2 a) (R1 b))
    (h1 : ∀ b, P1 b → ∃ a, P2 a ∧ Approx bad (R2 a) (R1 b)) : Approx bad (fun w r w' => ∃ a, P2 a ∧ R2 a w r w') (fun w r w' => ∃ b, P1 b ∧ R1 b w r w') := by
  refine ⟨?_, ?_⟩
  · rintro w r w' ⟨a, ha, h⟩
    obtain ⟨b, hb, hab⟩ := h2 a ha
    exact (hab.1 _ _ _ h).imp (fun h => ⟨b, hb, h⟩) id
  · rintro w r w' ⟨b, hb, h⟩
    obtain ⟨a, ha, hab⟩ := h1 b hb
    exact (hab.2 _ _ _ h).imp (fun h => ⟨a, ha, h⟩) fun ⟨e, w2, he, h⟩ => ⟨e, w2, he, a, ha, h⟩

variable {A2 A1 : World Nat W E} {U2 U1 : Sel → Nat → Src.Rel W E} {err : Err → E}

theorem Inl1.approx (k : Inl1) {r2 r1 a2 a1 : Src.Rel W E} (hr : Approx bad r2 r1) (ha : Approx bad a2 a1) : Approx bad (k.exec err r2 a2) (k.exec err r1 a1) := by
  cases k with
  | ifBool b => exact hr.bind fun v => .ite ha (.refl _)
  | ifNil => exact hr.bind fun v => .ite ha (.refl _)
  | ifNotNil => exact hr.bind fun v => .ite (.refl _) ha
  | and => exact hr.bind fun v => .ite ha (.refl _)
  | or => exact hr.bind fun v => .ite (.refl _) (.ite ha (.refl _))

theorem Inl2.approx (k : Inl2) {r2 r1 a2 a1 b2 b1 : Src.Rel W E} (hr : Approx bad r2 r1) (ha : Approx bad a2 a1) (hb : Approx bad b2 b1) :
    Approx bad (k.exec err r2 a2 b2) (k.exec err r1 a1 b1) := by
  cases k with
  | ifElse b => exact hr.bind fun v => .ite ha (.ite hb (.refl _))
  | ifNil b =>
    cases b
    · exact hr.bind fun v => .ite hb ha
    · exact hr.bind fun v => .ite ha hb

mutual
theorem Node.exec_approx (hA : ∀ a, Approx bad (Src.act A2 a) (Src.act A1 a)) (hU : ∀ g l, Approx bad (U2 g l) (U1 g l)) : ∀ (t : Node), Approx bad (t.exec A2 U2 err) (t.exec A1 U1 err)
  | .lit v => .refl _
  | .globK n => hA _
  | .globU n l => hU n l
  | .readArg i l => hA _
  | .readLoc i _ l => hA _
  | .self l => hA _
  | .writeArg i l e => (Node.exec_approx hA hU e).bind fun v => (hA _).bind fun _ => .refl _
  | .writeLoc i _ l e => (Node.exec_approx hA hU e).bind fun v => (hA _).bind fun _ => .refl _
  | .fld i l => hA _
  | .fldW i l e => (Node.exec_approx hA hU e).bind fun v => (hA _).bind fun _ => .refl _
  | .fldInc i l => hA _
  | .inc e => (Node.exec_approx hA hU e).bind fun v => hA _
  | .blk c m => hA _
  | .send sel r as => (Node.exec_approx hA hU r).bind fun v => Nodes.exec_approx hA hU as _ _ fun vs => hA _
  | .superSend sel r as => (Node.exec_approx hA hU r).bind fun v => Nodes.exec_approx hA hU as _ _ fun vs => hA _
  | .inl1 k r a => k.approx (Node.exec_approx hA hU r) (Node.exec_approx hA hU a)
  | .inl2 k r a b => k.approx (Node.exec_approx hA hU r) (Node.exec_approx hA hU a) (Node.exec_approx hA hU b)
  | .while b c body => .while ((Node.exec_approx hA hU c).bind fun _ => .refl _) (Node.exec_approx hA hU body)
  | .seq es => Nodes.execSeq_approx hA hU es
  | .retNL l e => (Node.exec_approx hA hU e).bind fun v => hA _
  | .retL e => (Node.exec_approx hA hU e).bind fun v => .refl _
theorem Nodes.exec_approx (hA : ∀ a, Approx bad (Src.act A2 a) (Src.act A1 a)) (hU : ∀ g l, Approx bad (U2 g l) (U1 g l)) : ∀ (es : Nodes) (k2 k1 : List Val → Src.Rel W E),
    (∀ vs, Approx bad (k2 vs) (k1 vs)) → Approx bad (es.exec A2 U2 err k2) (es.exec A1 U1 err k1)
  | .nil, _, _, hk => hk []
  | .cons e es, _, _, hk => (Node.exec_approx hA hU e).bind fun v => Nodes.exec_approx hA hU es _ _ fun vs => hk (v :: vs)
theorem Nodes.execSeq_approx (hA : ∀ a, Approx bad (Src.act A2 a) (Src.act A1 a)) (hU : ∀ g l, Approx bad (U2 g l) (U1 g l)) : ∀ (es : Nodes),
    Approx bad (es.execSeq A2 U2 err) (es.execSeq A1 U1 err)
  | .nil => .refl _
  | .cons e .nil => Node.exec_approx hA hU e
  | .cons e (.cons f es) => (Node.exec_approx hA hU e).bind fun _ => Nodes.execSeq_approx hA hU (.cons f es)
end

theorem ATriv.run_approx (hA : ∀ a, Approx bad (Src.act A2 a) (Src.act A1 a)) (hU : ∀ g l, Approx bad (U2 g l) (U1 g l)) (t : ATriv) : Approx bad (t.run A2 U2) (t.run A1 U1) := by
  cases t with
  | lit v => exact .refl _
  | globK n => exact (hA _).bind fun _ => .refl _
  | globU n l => exact (hU n l).bind fun _ => .refl _
  | fldRead i l => exact (hA _).bind fun _ => .refl _
  | fldWrite i j => exact (hA _).bind fun _ => (hA _).bind fun _ => (hA _).bind fun _ => .refl _

theorem AMeth.run_approx (hA : ∀ a, Approx bad (Src.act A2 a) (Src.act A1 a)) (hU : ∀ g l, Approx bad (U2 g l) (U1 g l)) (m : AMeth) :
    Approx bad (m.run A2 U2 err) (m.run A1 U1 err) := by
  cases m with
  | ast id args ls body => exact (Node.exec_approx hA hU body).answers _ _
  | triv id t => exact t.run_approx hA hU

theorem AMethod.run_approx (hA : ∀ a, Approx bad (Src.act A2 a) (Src.act A1 a)) (hU : ∀ g l, Approx bad (U2 g l) (U1 g l)) (m : AMethod) :
    Approx bad (m.run A2 U2 err) (m.run A1 U1 err) := by
  cases m with
  | ast ls c body => exact (Node.exec_approx hA hU body).answers _ _
  | triv t => exact t.run_approx hA hU
end

section
variable {W E : Type} {I D F C N : Prop} {known : Sel → Bool} {alloc : LitTs → Val} {n : Nat}

/-- Twins do the same. -/
theorem Twin.sem {ch : List (List Nat)} {m : Meth} {am : AMeth} (h : Twin I D F C N known alloc n ch m am) {A : World Nat W E} {U : Sel → Nat → Src.Rel W E}
    (hS : ∀ l, Std I D F C N A U l) (err : Err → E) : Approx (NoBoolean err) (am.run A U err) (m.run (onMeth A)) := by
  induction h generalizing A with
  | orig env outer s m am wf ids fair bc ast => exact C34_block_partial wf ids fair bc ast (hS _) err
  | mono ch ch' m am _ _ ih => exact ih hS
  | adapt pre ls env0 new rest j m m' am am' ht hp hn hb ha ih =>
    have ok := ht.ok
    have hs := ok.sound
    rw [show (pre ++ ls :: env0 :: rest).length - 1 = rest.length + (pre.length + 1) by simp only [List.length_append, List.length_cons]; omega] at hs
    rw [Meth.run_adapt (by omega) hs hb A, AMeth.run_adapt (bchain := m.locals :: (pre ++ [ls])) hn (by omega) (by simp) (by simp) ok.okA ha A U err]
    exact ih fun l => Std.adj hS (by omega) _ _ _

/-- The same blocks come from twins. -/
theorem comes_twin {xs : List (Bool × Meth)} {ys : List (Bool × AMeth)} (h : Match (fun p q => ∃ ch, Twin I D F C N known alloc n ch p.2 q.2) xs ys) :
    (∀ am, Comes AMeth.makes ys am → ∃ m, Comes Meth.makes xs m ∧ ∃ ch, Twin I D F C N known alloc n ch m am) ∧
    ∀ m, Comes Meth.makes xs m → ∃ am, Comes AMeth.makes ys am ∧ ∃ ch, Twin I D F C N known alloc n ch m am := by
  have inner : ∀ {ch m am}, Twin I D F C N known alloc n ch m am → Match (fun p q => ∃ ch, Twin I D F C N known alloc n ch p.2 q.2) m.makes am.makes := fun h =>
    h.inner.mono fun p q hpq => by
      cases hc : p.1 with
      | true => exact ⟨_, hpq.here hc⟩
      | false => exact hpq.far hc
  refine ⟨fun am ha => ?_, fun m hm => ?_⟩
  · induction ha with
    | here c am hy =>
      obtain ⟨⟨c', m⟩, hx, ht⟩ := h.2 _ hy
      exact ⟨m, .here c' m hx, ht⟩
    | deeper am c am' _ h' ih =>
      obtain ⟨m, hm, ch, ht⟩ := ih
      obtain ⟨⟨c', m'⟩, hx, ht'⟩ := (inner ht).2 _ h'
      exact ⟨m', .deeper m c' m' hm hx, ht'⟩
  · induction hm with
    | here c m hx =>
      obtain ⟨⟨c', am⟩, hy, ht⟩ := h.1 _ hx
      exact ⟨am, .here c' am hy, ht⟩
    | deeper m c m' _ h' ih =>
      obtain ⟨am, ha, ch, ht⟩ := ih
      obtain ⟨⟨c', am'⟩, hy, ht'⟩ := (inner ht).1 _ h'
      exact ⟨am', .deeper am c' am' ha hy, ht'⟩

/-- The blocks that the two forms of a method create. -/
theorem method_makes {s : SMethod} {g : G Meth (List Nat)} {Cd : Code Meth} {am : AMethod} (hw : s.Wf) (hn : s.env.Nodup) (hf : s.body.fair I D F C N false)
    (hc : s.compile known n = .ok g) (hC : assemble g = .ok Cd) (ha : s.ast known alloc = .ok am) :
    Match (fun p q => ∃ ch, Twin I D F C N known alloc n ch p.2 q.2) Cd.makes am.makes := by
  obtain ⟨b, hb, hs, hg⟩ := SMethod.compile_sourced hw hc
  unfold SMethod.ast at ha
  obtain ⟨⟨es, env2⟩, hes, h2⟩ := except_bind_ok ha
  have hpos := (compile_ok (inliner_ok n) hs.good (by decide) hg).1.possible
  have ht := Body.twin (I := I) (D := D) (F := F) (C := C) (N := N) (known := known) (alloc := alloc) [] false false s.body b s.env es env2 hw.body hw.fits hw.ids hf (.inl rfl) hn hb hes false hpos
  have hm : am.makes = es.blks := by
    dsimp only at h2
    split at h2
    · cases h2; exact seqNode_blks es
    · split at h2
      · rename_i hx
        cases h2; rw [← seqNode_blks]; exact (triv_blks hx).symm
      · cases h2; exact seqNode_blks es
  have hcode : Cd.makes = (genBody (inliner n) false 0 b (false, s.env)).blks := by
    obtain ⟨_, rfl⟩ := assemble_ok hC
    exact Code.makes_enc (compile_ok (inliner_ok n) hs.good (by decide) hg).1
  rw [hm, hcode]
  exact ht.mono fun p q hpq => by
    cases hc : p.1 with
    | true => exact ⟨_, hpq.here hc⟩
    | false => exact hpq.far hc
end
end PySOM.BC

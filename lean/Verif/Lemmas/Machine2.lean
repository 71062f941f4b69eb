import Verif.Lemmas.Machine
import Verif.Props.Whole
/-!
# The machine and the language
-/
set_option autoImplicit false
namespace PySOM.BC
open PySOM

section
variable {W E : Type} {bad : E → Prop}

theorem Approx.weaken {bad' : E → Prop} (hb : ∀ e, bad e → bad' e) {R2 R1 : Src.Rel W E} (h : Approx bad R2 R1) : Approx bad' R2 R1 :=
  ⟨fun w r w' h2 => (h.1 w r w' h2).imp (fun h => h) fun ⟨e, he, hx⟩ => ⟨e, he, hb e hx⟩, fun w r w' h1 => (h.2 w r w' h1).imp (fun h => h) fun ⟨e, w2, he, hx⟩ => ⟨e, w2, hb e he, hx⟩⟩

/-- Bytecode in two worlds. -/
theorem bcRun_approx {M : Type} {A2 A1 : World M W E} (hA : ∀ a, Approx bad (Src.act A2 a) (Src.act A1 a)) (C : Code M) : Approx bad (bcRun A2 C) (bcRun A1 C) := by
  have one : ∀ {n c d}, Steps A2 C n c d → (∃ n, Steps A1 C n c d) ∨ (∃ e w, d = .raised e w ∧ bad e) := by
    intro n c d h
    induction h with
    | refl c => exact .inl ⟨0, .refl c⟩
    | step n c u d hs ht ih =>
      have hs1 : Step A1 C c u ∨ ∃ e w, u = .raised e w ∧ bad e := by
        cases hs with
        | bad pc s w h => exact .inl (.bad pc s w h)
        | underflow pc s w i len h he => exact .inl (.underflow pc s w i len h he)
        | pure pc s s' w i len h he => exact .inl (.pure pc s s' w i len h he)
        | ret pc s w i len v h he => exact .inl (.ret pc s w i len v h he)
        | jump pc s w d h hd => exact .inl (.jump pc s w d h hd)
        | act pc s w w' i len a m v h he ha =>
          rcases (hA a).1 w (.val v) w' (.inl ⟨v, rfl, ha⟩) with (⟨v', hv, ha'⟩ | ⟨e, hv, _⟩) | ⟨e, hv, _⟩
          · cases hv; exact .inl (.act pc s w w' i len a m v h he ha')
          · cases hv
          · cases hv
        | raise pc s w w' i len a m e h he ha =>
          rcases (hA a).1 w (.exc e) w' (.inr ⟨e, rfl, ha⟩) with (⟨v', hv, _⟩ | ⟨e', hv, ha'⟩) | ⟨e', hv, hb⟩
          · cases hv
          · cases hv; exact .inl (.raise pc s w w' i len a m e h he ha')
          · cases hv; exact .inr ⟨e, w', rfl, hb⟩
      rcases hs1 with hs1 | ⟨e, w, rfl, hb⟩
      · exact ih.imp (fun ⟨n, h⟩ => ⟨n + 1, .step _ _ _ _ hs1 h⟩) fun h => h
      · cases ht with
        | refl => exact .inr ⟨e, w, rfl, hb⟩
        | step _ _ _ _ h _ => cases h
  have two : ∀ {n c d}, Steps A1 C n c d → (∃ n, Steps A2 C n c d) ∨ ∃ n e w, bad e ∧ Steps A2 C n c (.raised e w) := by
    intro n c d h
    induction h with
    | refl c => exact .inl ⟨0, .refl c⟩
    | step n c u d hs ht ih =>
      have hs2 : Step A2 C c u ∨ ∃ e w, bad e ∧ Step A2 C c (.raised e w) := by
        cases hs with
        | bad pc s w h => exact .inl (.bad pc s w h)
        | underflow pc s w i len h he => exact .inl (.underflow pc s w i len h he)
        | pure pc s s' w i len h he => exact .inl (.pure pc s s' w i len h he)
        | ret pc s w i len v h he => exact .inl (.ret pc s w i len v h he)
        | jump pc s w d h hd => exact .inl (.jump pc s w d h hd)
        | act pc s w w' i len a m v h he ha =>
          rcases (hA a).2 w (.val v) w' (.inl ⟨v, rfl, ha⟩) with (⟨v', hv, ha'⟩ | ⟨e, hv, _⟩) | ⟨e, w2, hb, (⟨v', hv, _⟩ | ⟨e', hv, ha'⟩)⟩
          · cases hv; exact .inl (.act pc s w w' i len a m v h he ha')
          · cases hv
          · cases hv
          · cases hv; exact .inr ⟨e, w2, hb, .raise pc s w w2 i len a m e h he ha'⟩
        | raise pc s w w' i len a m e h he ha =>
          rcases (hA a).2 w (.exc e) w' (.inr ⟨e, rfl, ha⟩) with (⟨v', hv, _⟩ | ⟨e', hv, ha'⟩) | ⟨e', w2, hb, (⟨v', hv, _⟩ | ⟨e'', hv, ha'⟩)⟩
          · cases hv
          · cases hv; exact .inl (.raise pc s w w' i len a m e h he ha')
          · cases hv
          · cases hv; exact .inr ⟨e', w2, hb, .raise pc s w w2 i len a m e' h he ha'⟩
      rcases hs2 with hs2 | ⟨e, w, hb, hs2⟩
      · exact ih.imp (fun ⟨n, h⟩ => ⟨n + 1, .step _ _ _ _ hs2 h⟩) fun ⟨n, e, w, hb, h⟩ => ⟨n + 1, e, w, hb, .step _ _ _ _ hs2 h⟩
      · exact .inr ⟨1, e, w, hb, .step _ _ _ _ hs2 (.refl _)⟩
  refine ⟨fun w r w' h => ?_, fun w r w' h => ?_⟩
  · cases r with
    | val v => exact h.elim
    | ret v =>
      obtain ⟨n, h⟩ := h
      rcases one h with h | ⟨e, u, he, _⟩
      · exact .inl h
      · cases he
    | exc e =>
      obtain ⟨n, h⟩ := h
      rcases one h with h | ⟨e', u, he, hb⟩
      · exact .inl h
      · cases he; exact .inr ⟨e, rfl, hb⟩
  · cases r with
    | val v => exact h.elim
    | ret v =>
      obtain ⟨n, h⟩ := h
      exact (two h).imp (fun h => h) fun ⟨n, e, u, hb, h⟩ => ⟨e, u, hb, n, h⟩
    | exc e =>
      obtain ⟨n, h⟩ := h
      exact (two h).imp (fun h => h) fun ⟨n, e, u, hb, h⟩ => ⟨e, u, hb, n, h⟩

theorem Meth.run_approx {A2 A1 : World Meth W E} (hA : ∀ a, Approx bad (Src.act A2 a) (Src.act A1 a)) (m : Meth) : Approx bad (m.run A2) (m.run A1) := by
  cases m with
  | bc => exact bcRun_approx hA _
  | triv id t =>
    cases t with
    | lit l =>
      cases l with
      | val v => exact .refl _
      | meth m => exact .refl _
    | glob n g => exact (hA _).bind fun _ => .refl _
    | fldRead i l => exact (hA _).bind fun _ => .refl _
    | fldWrite i j => exact (hA _).bind fun _ => (hA _).bind fun _ => (hA _).bind fun _ => .refl _

theorem onMeth_approx {A2 A1 : World Nat W E} (hA : ∀ a, Approx bad (Src.act A2 a) (Src.act A1 a)) (a : Act Meth) : Approx bad (Src.act (onMeth A2) a) (Src.act (onMeth A1) a) :=
  hA (a.map Meth.id)

variable {ι : Type}

/-- One system does what the other does, except that it may raise something `bad`. -/
def System.approx (bad : E → Prop) (Φ2 Φ1 : System ι W E) : Prop :=
  ∀ b2 b1 : Behaviour ι W E, (∀ i, Approx bad (b2.meth i) (b1.meth i)) → (∀ id, Approx bad (b2.blk id) (b1.blk id)) →
    (∀ a, Approx bad (Src.act (Φ2 b2).1 a) (Src.act (Φ1 b1).1 a)) ∧ ∀ n l, Approx bad ((Φ2 b2).2 n l) ((Φ1 b1).2 n l)

theorem bcBehaviour_approx {Φ2 Φ1 : System ι W E} (h : Φ2.approx bad Φ1) (p : Compiled2 ι) (k : Nat) :
    (∀ i, Approx bad ((bcBehaviour p Φ2 k).meth i) ((bcBehaviour p Φ1 k).meth i)) ∧ ∀ id, Approx bad ((bcBehaviour p Φ2 k).blk id) ((bcBehaviour p Φ1 k).blk id) := by
  induction k with
  | zero => exact ⟨fun i => .refl _, fun id => .refl _⟩
  | succ k ih =>
    obtain ⟨hA, hU⟩ := h _ _ ih.1 ih.2
    refine ⟨fun i => bcRun_approx (onMeth_approx hA) _, fun id => ⟨?_, ?_⟩⟩
    · rintro w r w' ⟨i, m, hc, hid, h⟩
      exact ((Meth.run_approx (onMeth_approx hA) m).1 _ _ _ h).imp (fun h => ⟨i, m, hc, hid, h⟩) fun h => h
    · rintro w r w' ⟨i, m, hc, hid, h⟩
      exact ((Meth.run_approx (onMeth_approx hA) m).2 _ _ _ h).imp (fun h => ⟨i, m, hc, hid, h⟩) fun ⟨e, w2, he, h⟩ => ⟨e, w2, he, i, m, hc, hid, h⟩

theorem astBehaviour_approx {Φ2 Φ1 : System ι W E} (h : Φ2.approx bad Φ1) (p : Compiled2 ι) (err : Err → E) (k : Nat) :
    (∀ i, Approx bad ((astBehaviour p Φ2 err k).meth i) ((astBehaviour p Φ1 err k).meth i)) ∧ ∀ id, Approx bad ((astBehaviour p Φ2 err k).blk id) ((astBehaviour p Φ1 err k).blk id) := by
  induction k with
  | zero => exact ⟨fun i => .refl _, fun id => .refl _⟩
  | succ k ih =>
    obtain ⟨hA, hU⟩ := h _ _ ih.1 ih.2
    refine ⟨fun i => (p.tree i).run_approx hA hU, fun id => ⟨?_, ?_⟩⟩
    · rintro w r w' ⟨i, m, hc, hid, h⟩
      exact ((AMeth.run_approx hA hU m).1 _ _ _ h).imp (fun h => ⟨i, m, hc, hid, h⟩) fun h => h
    · rintro w r w' ⟨i, m, hc, hid, h⟩
      exact ((AMeth.run_approx hA hU m).2 _ _ _ h).imp (fun h => ⟨i, m, hc, hid, h⟩) fun ⟨e, w2, he, h⟩ => ⟨e, w2, he, i, m, hc, hid, h⟩

end
end PySOM.BC

namespace PySOM.Mach
open PySOM BC

section
variable {ι X Y P : Type} {G : Prog ι X Y P} {D : Prop} {K : Incs X Y} {bad : Esc → Prop}

theorem errors_noBoolean : Errors (NoBoolean Esc.err) := by
  rintro e (rfl | rfl) <;> exact ⟨_, rfl⟩

theorem errors_quirk : Errors Quirk := by
  rintro e (rfl | rfl | rfl) <;> exact ⟨_, rfl⟩

/-- What `f := f + 1` means. -/
def fieldPlus (G : Prog ι X Y P) (K : Incs X Y) (b : Behaviour ι (St X Y) Esc) (i l : Nat) : Src.Rel (St X Y) Esc :=
  Src.bind (Src.act (G.world K b) (.rdFld i l)) (fun v => Src.bind (Src.act (G.world K b) (.send "+".toList [v, .int 1])) fun u =>
    Src.bind (Src.act (G.world K b) (.wrFld i l u)) fun _ => Src.pure u)

theorem fieldPlus_ret {b : Behaviour ι (St X Y) Esc} {i l : Nat} {w w' : St X Y} {v : Val} : ¬ fieldPlus G K b i l w (.ret v) w' := by
  have noact : ∀ {a w v w'}, ¬ Src.act (G.world K b) a w (.ret v) w' := by
    rintro a w v w' (⟨_, h, _⟩ | ⟨_, h, _⟩) <;> cases h
  rintro (⟨_, _, _, (⟨_, _, _, (⟨_, _, _, h⟩ | ⟨h, _⟩)⟩ | ⟨h, _⟩)⟩ | ⟨h, _⟩)
  · cases h.1
  · exact noact h
  · exact noact h
  · exact noact h

theorem ideal_incFld (b : Behaviour ι (St X Y) Esc) (i l : Nat) : Src.act (G.ideal D K b) (.incFld i l) = fieldPlus G K b i l := by
  funext w r w'
  apply propext
  refine ⟨?_, fun h => ?_⟩
  · rintro (⟨v, rfl, h⟩ | ⟨v, rfl, h⟩) <;> exact h
  · cases r with
    | val v => exact .inl ⟨v, rfl, h⟩
    | ret v => exact (fieldPlus_ret h).elim
    | exc e => exact .inr ⟨e, rfl, h⟩

theorem ideal_inc (b : Behaviour ι (St X Y) Esc) (v : Val) : Src.act (G.ideal D K b) (.inc v) = Src.act (G.world K b) (.send "+".toList [v, .int 1]) := rfl

theorem ideal_dec (hD : D) (b : Behaviour ι (St X Y) Esc) (v : Val) : Src.act (G.ideal D K b) (.dec v) = Src.act (G.world K b) (.send "-".toList [v, .int 1]) := by
  funext w r w'
  simp only [Src.act, Prog.ideal, if_pos hD]

theorem ideal_dec_not (hD : ¬ D) (b : Behaviour ι (St X Y) Esc) (v : Val) : Src.act (G.ideal D K b) (.dec v) = Src.act (G.world K b) (.dec v) := by
  funext w r w'
  simp only [Src.act, Prog.ideal, if_neg hD]

/-- All other actions are the same. -/
theorem ideal_other (b : Behaviour ι (St X Y) Esc) {a : Act Nat} (h1 : ∀ v, a ≠ .inc v) (h2 : ∀ v, a ≠ .dec v) (h3 : ∀ i l, a ≠ .incFld i l) :
    Src.act (G.ideal D K b) a = Src.act (G.world K b) a := by
  cases a with
  | inc v => exact (h1 v rfl).elim
  | dec v => exact (h2 v rfl).elim
  | incFld i l => exact (h3 i l rfl).elim
  | _ => rfl

theorem plan_other {K K' : Incs X Y} (w : St X Y) {a : Act Nat} (h1 : ∀ v, a ≠ .inc v) (h2 : ∀ v, a ≠ .dec v) (h3 : ∀ i l, a ≠ .incFld i l) : G.plan K w a = G.plan K' w a := by
  cases a with
  | inc v => exact (h1 v rfl).elim
  | dec v => exact (h2 v rfl).elim
  | incFld i l => exact (h3 i l rfl).elim
  | _ => rfl

theorem language_approx (hbad : Errors bad) : (G.language D K).approx bad (G.language D K) := by
  intro b2 b1 hm hb
  have same : ∀ a, Approx bad (Src.act (G.world K b2) a) (Src.act (G.world K b1) a) := fun a => world_passes hbad hm hb fun _ => rfl
  have all : ∀ a, Approx bad (Src.act (G.ideal D K b2) a) (Src.act (G.ideal D K b1) a) := by
    intro a
    cases a with
    | inc v => rw [ideal_inc, ideal_inc]; exact same _
    | dec v =>
      by_cases hD : D
      · rw [ideal_dec hD, ideal_dec hD]; exact same _
      · rw [ideal_dec_not hD, ideal_dec_not hD]; exact same _
    | incFld i l =>
      rw [ideal_incFld, ideal_incFld]
      exact (same _).bind fun v => (same _).bind fun u => (same _).bind fun _ => .refl _
    | _ => rw [ideal_other b2 (by simp) (by simp) (by simp), ideal_other b1 (by simp) (by simp) (by simp)]; exact same _
  exact ⟨all, fun n l => all _⟩

theorem send_prim {sel : Sel} {v : Val} {w : St X Y} {c h n : Nat} (hc : G.classOf w.sh v = some c) (hl : G.look (G.chain c) sel = some (h, .prim n)) :
    G.resolve w (.send sel [v, .int 1]) = (.prim (G.start n [v, .int 1]), w) := by
  simp only [Prog.resolve, hc, hl, Prog.enter]

theorem Do.prim_done {b : Behaviour ι (St X Y) Esc} {p : P} {w w' : St X Y} {r : Res Esc} {s : Shared X Y} {v : Val} (h : Do G b (.prim p) w r w') (hs : G.step p w.sh = (s, .done v)) :
    r = .val v ∧ w' = { w with sh := s } := by
  cases h <;> simp_all

/-- A shortcut instead of a message. -/
theorem shortcut_approx {sel : Sel} {f : Val → Shared X Y → Shared X Y × Except Err Val} (hf : Shortcut G sel f) {K2 K1 : Incs X Y} {b2 b1 : Behaviour ι (St X Y) Esc} {a : Act Nat} {v : Val}
    (ha : ∀ w, G.plan K2 w a = .inl (w.shared (f v w.sh))) : Approx Quirk (Src.act (G.world K2 b2) a) (Src.act (G.world K1 b1) (.send sel [v, .int 1])) := by
  refine approx_of (fun w r w' h => ?_) fun w r w' h => ?_
  · have hv := hf v w.sh
    simp only [Prog.world, ha] at h
    obtain ⟨rfl, rfl⟩ := h
    cases hx : f v w.sh with
    | mk sh' x =>
      rw [hx] at hv
      cases x with
      | error e => exact .inr ⟨.err e, rfl, hv⟩
      | ok u =>
        obtain ⟨c, h, n, hc, hl, hs⟩ := hv
        left
        simp only [Prog.world, Prog.plan, send_prim hc hl, St.shared]
        exact .done _ _ _ _ hs
  · have hv := hf v w.sh
    cases hx : f v w.sh with
    | mk sh' x =>
      rw [hx] at hv
      cases x with
      | error e => exact .inr ⟨.err e, { w with sh := sh' }, hv, by simp only [Prog.world, ha, hx, St.shared, and_self]⟩
      | ok u =>
        obtain ⟨c, hh, n, hc, hl, hs⟩ := hv
        left
        simp only [Prog.world, Prog.plan, send_prim hc hl] at h
        simp only [Prog.world, ha, hx, St.shared]
        exact h.prim_done hs

/-- Incrementing a field instead of reading, sending `+ 1`, and writing. -/
theorem fieldShortcut_approx (hi : Shortcut G "+".toList K.inc) (hf : FieldShortcut K) {K1 : Incs X Y} {b2 b1 : Behaviour ι (St X Y) Esc} (i l : Nat) :
    Approx Quirk (Src.act (G.world K b2) (.incFld i l)) (fieldPlus G K1 b1 i l) := by
  have rd : ∀ {w r w'}, Src.act (G.world K1 b1) (.rdFld i l) w r w' ↔ r = toSrc (w.rdFld i l).1 ∧ w' = (w.rdFld i l).2 := by
    intro w r w'
    refine ⟨?_, ?_⟩
    · rintro (⟨v, rfl, h, rfl⟩ | ⟨v, rfl, h, rfl⟩)
      · exact ⟨by rw [show (w.rdFld i l).1 = _ from h.symm]; rfl, rfl⟩
      · exact ⟨by rw [show (w.rdFld i l).1 = _ from h.symm]; rfl, rfl⟩
    · rintro ⟨rfl, rfl⟩
      cases h : (w.rdFld i l).1 with
      | val v => exact .inl ⟨v, rfl, h.symm, rfl⟩
      | exc v => exact .inr ⟨v, rfl, h.symm, rfl⟩
  have wr : ∀ {w u r w'}, Src.act (G.world K1 b1) (.wrFld i l u) w r w' ↔ r = toSrc (w.wrFld i l u).1 ∧ w' = (w.wrFld i l u).2 := by
    intro w u r w'
    refine ⟨?_, ?_⟩
    · rintro (⟨v, rfl, h, rfl⟩ | ⟨v, rfl, h, rfl⟩)
      · exact ⟨by rw [show (w.wrFld i l u).1 = _ from h.symm]; rfl, rfl⟩
      · exact ⟨by rw [show (w.wrFld i l u).1 = _ from h.symm]; rfl, rfl⟩
    · rintro ⟨rfl, rfl⟩
      cases h : (w.wrFld i l u).1 with
      | val v => exact .inl ⟨v, rfl, h.symm, rfl⟩
      | exc v => exact .inr ⟨v, rfl, h.symm, rfl⟩
  -- either an error, or the same as the steps of the message
  have key : ∀ w, (∃ e w2, Quirk (.err e) ∧ G.plan K w (.incFld i l) = .inl (.exc (.err e), w2)) ∨
      ∃ u w2, G.plan K w (.incFld i l) = .inl (u, w2) ∧ ∀ r w', fieldPlus G K1 b1 i l w r w' ↔ r = toSrc u ∧ w' = w2 := by
    intro w
    cases hs : w.selfAt l with
    | none =>
      have hr : w.rdFld i l = (.exc .lost, w) := by simp only [St.rdFld, hs, gone]
      refine .inr ⟨.exc .lost, w, by simp only [Prog.plan, hs, gone], fun r w' => ⟨?_, ?_⟩⟩
      · rintro (⟨v', w1, h1, h2⟩ | ⟨h1, hstop⟩)
        · obtain ⟨g1, rfl⟩ := rd.mp h1
          rw [hr] at g1; cases g1
        · obtain ⟨g1, rfl⟩ := rd.mp h1
          rw [hr] at g1 ⊢; exact ⟨g1, rfl⟩
      · rintro ⟨rfl, rfl⟩
        exact .inr ⟨rd.mpr (by rw [hr]; exact ⟨rfl, rfl⟩), trivial⟩
    | some s =>
      cases s with
      | obj a =>
        have hv := hf a i w.sh
        cases hx : K.incFld a i w.sh with
        | mk sh' x =>
          rw [hx] at hv
          cases x with
          | error e => exact .inl ⟨e, { w with sh := sh' }, hv, by simp only [Prog.plan, hs, hx, St.shared]⟩
          | ok u =>
            obtain ⟨c, fs, v, sh1, ho, hfi, hin, ho1, rfl⟩ := hv
            have hin' := hi v w.sh
            rw [hin] at hin'
            obtain ⟨cc, hh, n, hc, hl, hst⟩ := hin'
            refine .inr ⟨.val u, _, by simp only [Prog.plan, hs, hx, St.shared]; rfl, fun r w' => ?_⟩
            have hr : w.rdFld i l = (.val v, w) := by simp only [St.rdFld, hs, ho, hfi]
            have hlt : i < fs.length := (List.getElem?_eq_some_iff.mp hfi).1
            have hs1 : ({ w with sh := sh1 } : St X Y).selfAt l = some (.obj a) := by
              have : ∀ l, ({ w with sh := sh1 } : St X Y).level l = w.level l := by
                intro l; induction l with
                | zero => rfl
                | succ l ih => simp only [St.level, ih]
              rw [← hs]; simp only [St.selfAt, St.frameAt, this]
            have hw : ({ w with sh := sh1 } : St X Y).wrFld i l u = (.val u, { w with sh := { sh1 with objs := sh1.objs.set a (.inst c (fs.set i u)) } }) := by
              simp only [St.wrFld, hs1, ho1, if_pos hlt]
            refine ⟨?_, ?_⟩
            · rintro (⟨v', w1, h1, h2⟩ | ⟨h1, hstop⟩)
              · obtain ⟨g1, rfl⟩ := rd.mp h1
                simp only [hr, toSrc, Src.Res.val.injEq] at g1 h2
                subst g1
                rcases h2 with ⟨u', w2, h2, h3⟩ | ⟨h2, hstop⟩
                · have h2' : Do G b1 (.prim (G.start n [v', .int 1])) w (.val u') w2 := by
                    rcases h2 with ⟨_, hx, h2⟩ | ⟨_, hx, _⟩
                    · cases hx; simp only [Prog.world, Prog.plan, send_prim hc hl] at h2; exact h2
                    · cases hx
                  obtain ⟨e, rfl⟩ := h2'.prim_done hst
                  cases e
                  rcases h3 with ⟨_, w3, h3, h4⟩ | ⟨h3, hstop⟩
                  · obtain ⟨_, rfl⟩ := wr.mp h3
                    rw [hw] at h4
                    exact h4
                  · obtain ⟨g3, rfl⟩ := wr.mp h3
                    rw [hw] at g3; subst g3; exact hstop.elim
                · rcases h2 with ⟨_, rfl, h2⟩ | ⟨_, rfl, h2⟩
                  · exact hstop.elim
                  · simp only [Prog.world, Prog.plan, send_prim hc hl] at h2
                    cases (h2.prim_done hst).1
              · obtain ⟨g1, rfl⟩ := rd.mp h1
                rw [hr] at g1; subst g1; exact hstop.elim
            · rintro ⟨rfl, rfl⟩
              refine .inl ⟨v, w, rd.mpr (by rw [hr]; exact ⟨rfl, rfl⟩), .inl ⟨u, { w with sh := sh1 }, .inl ⟨u, rfl, ?_⟩, .inl ⟨u, _, wr.mpr (by rw [hw]; exact ⟨rfl, rfl⟩), rfl, rfl⟩⟩⟩
              simp only [Prog.world, Prog.plan, send_prim hc hl]
              exact .done _ _ _ _ hst
      | _ => exact .inl ⟨.attribute, w, .inr (.inr rfl), by simp only [Prog.plan, hs, raised]⟩
  refine ⟨fun w r w' h => ?_, fun w r w' h => ?_⟩
  · rcases key w with ⟨e, w2, hq, hp⟩ | ⟨u, w2, hp, hx⟩
    · rcases h with ⟨v, rfl, h⟩ | ⟨v, rfl, h⟩ <;> simp only [Prog.world, hp] at h <;> obtain ⟨h, rfl⟩ := h <;> cases h
      exact .inr ⟨.err e, rfl, hq⟩
    · rcases h with ⟨v, rfl, h⟩ | ⟨v, rfl, h⟩ <;> simp only [Prog.world, hp] at h <;> obtain ⟨h, rfl⟩ := h <;> cases h <;>
      exact .inl ((hx _ _).mpr ⟨rfl, rfl⟩)
  · rcases key w with ⟨e, w2, hq, hp⟩ | ⟨u, w2, hp, hx⟩
    · exact .inr ⟨.err e, w2, hq, .inr ⟨_, rfl, by simp only [Prog.world, hp, and_self]⟩⟩
    · obtain ⟨rfl, rfl⟩ := (hx _ _).mp h
      cases u with
      | val v => exact .inl (.inl ⟨_, rfl, by simp only [Prog.world, hp, and_self]⟩)
      | exc e => exact .inl (.inr ⟨_, rfl, by simp only [Prog.world, hp, and_self]⟩)

/-- An interpreter does what the language says, except that it may raise an error. -/
theorem system_approx (hK : K.Ok G D) {K1 : Incs X Y} (hdec : ¬ D → K.dec = K1.dec) : (G.system K).approx Quirk (G.language D K1) := by
  intro b2 b1 hm hb
  have all : ∀ a, Approx Quirk (Src.act (G.world K b2) a) (Src.act (G.ideal D K1 b1) a) := by
    intro a
    cases a with
    | inc v => rw [ideal_inc]; exact shortcut_approx hK.inc fun _ => rfl
    | dec v =>
      by_cases hD : D
      · rw [ideal_dec hD]; exact shortcut_approx (hK.dec hD) fun _ => rfl
      · rw [ideal_dec_not hD]
        exact world_passes errors_quirk hm hb fun w => by simp only [Prog.plan, hdec hD]
    | incFld i l => rw [ideal_incFld]; exact fieldShortcut_approx hK.inc hK.incFld i l
    | _ =>
      rw [ideal_other b1 (by simp) (by simp) (by simp)]
      exact world_passes errors_quirk hm hb fun w => rfl
  exact ⟨all, fun n l => all _⟩

theorem language_std {N : Prop} (hN : N → ∀ c, G.look (G.chain c) escapedBlock = none) (b : Behaviour ι (St X Y) Esc) (l : Nat) :
    Std True D True False N (G.language D K b).1 (G.language D K b).2 l where
  glob := fun _ _ => rfl
  inc := fun _ v => by show Src.act (G.ideal D K b) _ = Src.act (G.ideal D K b) _; rw [ideal_inc, ideal_other b (by simp) (by simp) (by simp)]
  dec := fun hD v => by show Src.act (G.ideal D K b) _ = Src.act (G.ideal D K b) _; rw [ideal_dec hD, ideal_other b (by simp) (by simp) (by simp)]
  fuse := fun _ i l w r w' => by
    show Src.act (G.ideal D K b) _ w r w' ↔ _
    rw [ideal_incFld]
    exact Iff.rfl
  comm := fun h => h.elim
  nlr := fun hn => .inr fun v w u w' h => by
    change G.world K b (.nlr l v) w (.val u) w' at h
    unfold Prog.world at h
    have hp : ∀ x, G.plan K w (.nlr l v) = .inl x → ∃ e, x.1 = .exc e := by
      intro x hx
      simp only [Prog.plan] at hx
      split at hx
      · split at hx
        · cases hx; exact ⟨_, rfl⟩
        · split at hx
          · cases hx
          · cases hx; exact ⟨_, rfl⟩
      · cases hx; exact ⟨_, rfl⟩
    have hq : ∀ x, G.plan K w (.nlr l v) = .inr x → ∃ s q, x = (.own escapedBlock [s, q], w) := by
      intro x hx
      simp only [Prog.plan] at hx
      split at hx
      · split at hx
        · cases hx
        · split at hx
          · cases hx; exact ⟨_, _, rfl⟩
          · cases hx
      · cases hx
    cases hpl : G.plan K w (.nlr l v) with
    | inl x =>
      simp only [hpl] at h
      obtain ⟨e, he⟩ := hp x hpl
      rw [he] at h; cases h.1
    | inr x =>
      obtain ⟨s, q, rfl⟩ := hq x hpl
      simp only [hpl] at h
      have : ∃ e, (G.resolve w (.own escapedBlock [s, q])).1 = .fail e := by
        simp only [Prog.resolve]
        split
        · exact ⟨_, rfl⟩
        · rw [hN hn]; exact ⟨_, rfl⟩
      obtain ⟨e, he⟩ := this
      rw [he] at h
      cases h

end
end PySOM.Mach

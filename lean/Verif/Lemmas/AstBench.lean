import Verif.Lemmas.AstRun
/-!
# Running examples in both interpreters

A world in which every action has exactly one outcome, with which the bytecode can be run, and which is used in the examples and counterexamples of `Props/Ast`.
-/
set_option autoImplicit false
namespace PySOM.BC
open PySOM

section
variable {M W E : Type}

/-- The world in which actions do what `f` says. -/
def World.of (f : Act M → W → Res E × W) : World M W E := fun a w r w' => f a w = (r, w')

/-- One instruction in such a world. -/
def stepOf (f : Act M → W → Res E × W) (C : Code M) : Cfg W E → Option (Cfg W E)
  | .run pc s w =>
    match decode C.lits (C.bytes.drop pc) with
    | none => some (.crash .badCode w)
    | some (.ins i len) =>
      match i.eff s with
      | .underflow => some (.crash .underflow w)
      | .pure s' => some (enter C.max (pc + len) s' w)
      | .ret v => some (.done v w)
      | .act a n =>
        match f a w with
        | (.val v, w') => some (n.apply C.max (pc + len) v w')
        | (.exc e, w') => some (.raised e w')
    | some d => some (jumpTo C.max pc s w d)
  | _ => none

theorem stepOf_iff {f : Act M → W → Res E × W} {C : Code M} {c d : Cfg W E} : Step (World.of f) C c d ↔ stepOf f C c = some d := by
  constructor
  · intro h
    cases h with
    | bad pc s w h => simp only [stepOf, h]
    | underflow pc s w i len h he => simp only [stepOf, h, he]
    | pure pc s s' w i len h he => simp only [stepOf, h, he]
    | ret pc s w i len v h he => simp only [stepOf, h, he]
    | act pc s w w' i len a n v h he ha => have ha : f a w = _ := ha; simp only [stepOf, h, he, ha]
    | raise pc s w w' i len a n v h he ha => have ha : f a w = _ := ha; simp only [stepOf, h, he, ha]
    | jump pc s w d h hd => cases d <;> first | exact absurd rfl (hd _ _) | simp only [stepOf, h]
  · intro h
    cases c with
    | run pc s w =>
      simp only [stepOf] at h
      cases hd : decode C.lits (C.bytes.drop pc) with
      | none => simp only [hd, Option.some.injEq] at h; subst h; exact .bad _ _ _ hd
      | some x =>
        cases x with
        | ins i len =>
          simp only [hd] at h
          cases he : i.eff s with
          | underflow => simp only [he, Option.some.injEq] at h; subst h; exact .underflow _ _ _ _ _ hd he
          | pure s' => simp only [he, Option.some.injEq] at h; subst h; exact .pure _ _ _ _ _ _ hd he
          | ret v => simp only [he, Option.some.injEq] at h; subst h; exact .ret _ _ _ _ _ _ hd he
          | act a n =>
            simp only [he] at h
            rcases hf : f a w with ⟨r, w'⟩
            cases r with
            | val v => simp only [hf, Option.some.injEq] at h; subst h; exact .act _ _ _ _ _ _ _ _ _ hd he hf
            | exc e => simp only [hf, Option.some.injEq] at h; subst h; exact .raise _ _ _ _ _ _ _ _ _ hd he hf
        | _ => simp only [hd, Option.some.injEq] at h; subst h; exact .jump _ _ _ _ hd (fun _ _ h => nomatch h)
    | _ => cases h

/-- At most `n` instructions. -/
def runOf (f : Act M → W → Res E × W) (C : Code M) : Nat → Cfg W E → Cfg W E
  | 0, c => c
  | n + 1, c => match stepOf f C c with
    | some d => runOf f C n d
    | none => c

theorem runOf_steps {f : Act M → W → Res E × W} {C : Code M} : ∀ (n : Nat) (c : Cfg W E), ∃ k, Steps (World.of f) C k c (runOf f C n c)
  | 0, c => ⟨0, .refl c⟩
  | n + 1, c => by
    cases h : stepOf f C c with
    | none => simp only [runOf, h]; exact ⟨0, .refl c⟩
    | some d =>
      simp only [runOf, h]
      obtain ⟨k, hk⟩ := runOf_steps n d
      exact ⟨k + 1, .step _ _ _ _ (stepOf_iff.mpr h) hk⟩

/-- There is one end at most. -/
theorem steps_unique {f : Act M → W → Res E × W} {C : Code M} {j : Nat} {c d : Cfg W E} (h : Steps (World.of f) C j c d) :
    stepOf f C d = none → ∀ {k : Nat} {e : Cfg W E}, Steps (World.of f) C k c e → stepOf f C e = none → d = e := by
  induction h with
  | refl c =>
    intro hd k e h2 _
    cases h2 with
    | refl => rfl
    | step _ _ _ _ h _ => exact nomatch hd.symm.trans (stepOf_iff.mp h)
  | step n c d e h _ ih =>
    intro hd k e' h2 he
    cases h2 with
    | refl => exact nomatch he.symm.trans (stepOf_iff.mp h)
    | step _ _ _ _ h' hs' =>
      have := (stepOf_iff.mp h').symm.trans (stepOf_iff.mp h)
      cases this
      exact ih hd hs' he

/-- The only outcome of `R` from `w` is `r`, in the state `w'`. -/
def Gives (R : Src.Rel W E) (w : W) (r : Src.Res E) (w' : W) : Prop := ∀ r1 w1, R w r1 w1 ↔ r1 = r ∧ w1 = w'

theorem gives_done {f : Act M → W → Res E × W} {C : Code M} {w w' : W} {v : Val} (n : Nat) (h : runOf f C n (Code.start w) = .done v w') : Gives (bcRun (World.of f) C) w (.ret v) w' := by
  obtain ⟨k, hk⟩ := runOf_steps (f := f) (C := C) n (Code.start w)
  rw [h] at hk
  intro r1 w1
  cases r1 with
  | val u => exact ⟨fun h => h.elim, fun h => nomatch h.1⟩
  | ret u =>
    refine ⟨fun ⟨j, hj⟩ => ?_, fun ⟨h1, h2⟩ => ?_⟩
    · cases steps_unique hk rfl hj rfl; exact ⟨rfl, rfl⟩
    · cases h1; cases h2; exact ⟨k, hk⟩
  | exc e =>
    refine ⟨fun ⟨j, hj⟩ => ?_, fun h => nomatch h.1⟩
    cases steps_unique hk rfl hj rfl

theorem gives_raised {f : Act M → W → Res E × W} {C : Code M} {w w' : W} {e : E} (n : Nat) (h : runOf f C n (Code.start w) = .raised e w') : Gives (bcRun (World.of f) C) w (.exc e) w' := by
  obtain ⟨k, hk⟩ := runOf_steps (f := f) (C := C) n (Code.start w)
  rw [h] at hk
  intro r1 w1
  cases r1 with
  | val u => exact ⟨fun h => h.elim, fun h => nomatch h.1⟩
  | ret u =>
    refine ⟨fun ⟨j, hj⟩ => ?_, fun h => nomatch h.1⟩
    cases steps_unique hk rfl hj rfl
  | exc u =>
    refine ⟨fun ⟨j, hj⟩ => ?_, fun ⟨h1, h2⟩ => ?_⟩
    · cases steps_unique hk rfl hj rfl; exact ⟨rfl, rfl⟩
    · cases h1; cases h2; exact ⟨k, hk⟩

/-! ## Trees -/

theorem gives_pure (v : Val) (w : W) : Gives (Src.pure v : Src.Rel W E) w (.val v) w := fun _ _ => Iff.rfl
theorem gives_answer (v : Val) (w : W) : Gives (Src.answer v : Src.Rel W E) w (.ret v) w := fun _ _ => Iff.rfl

theorem gives_val {f : Act M → W → Res E × W} {a : Act M} {w w' : W} {v : Val} (h : f a w = (.val v, w')) : Gives (Src.act (World.of f) a) w (.val v) w' := by
  intro r1 w1
  unfold Src.act World.of
  rw [h]
  constructor
  · rintro (⟨u, rfl, hu⟩ | ⟨e, rfl, he⟩)
    · cases hu; exact ⟨rfl, rfl⟩
    · cases he
  · rintro ⟨rfl, rfl⟩
    exact .inl ⟨v, rfl, rfl⟩

theorem gives_exc {f : Act M → W → Res E × W} {a : Act M} {w w' : W} {e : E} (h : f a w = (.exc e, w')) : Gives (Src.act (World.of f) a) w (.exc e) w' := by
  intro r1 w1
  unfold Src.act World.of
  rw [h]
  constructor
  · rintro (⟨u, rfl, hu⟩ | ⟨e, rfl, he⟩)
    · cases hu
    · cases he; exact ⟨rfl, rfl⟩
  · rintro ⟨rfl, rfl⟩
    exact .inr ⟨e, rfl, rfl⟩

theorem Gives.bind {p : Src.Rel W E} {k : Val → Src.Rel W E} {w w1 w' : W} {v : Val} {r : Src.Res E} (h1 : Gives p w (.val v) w1) (h2 : Gives (k v) w1 r w') :
    Gives (Src.bind p k) w r w' := by
  intro r2 w2
  unfold Src.bind
  constructor
  · rintro (⟨u, wu, h3, h4⟩ | ⟨h3, h4⟩)
    · obtain ⟨h5, rfl⟩ := (h1 _ _).mp h3
      cases h5
      exact (h2 _ _).mp h4
    · obtain ⟨rfl, _⟩ := (h1 _ _).mp h3
      exact h4.elim
  · intro h
    exact .inl ⟨v, w1, (h1 _ _).mpr ⟨rfl, rfl⟩, (h2 _ _).mpr h⟩

theorem Gives.stop {p : Src.Rel W E} {k : Val → Src.Rel W E} {w w' : W} {r : Src.Res E} (h1 : Gives p w r w') (hr : r.stops) : Gives (Src.bind p k) w r w' := by
  intro r2 w2
  unfold Src.bind
  constructor
  · rintro (⟨u, wu, h3, h4⟩ | ⟨h3, h4⟩)
    · obtain ⟨rfl, rfl⟩ := (h1 _ _).mp h3
      exact hr.elim
    · exact (h1 _ _).mp h3
  · rintro ⟨rfl, rfl⟩
    exact .inr ⟨(h1 _ _).mpr ⟨rfl, rfl⟩, hr⟩

theorem Gives.unique {R : Src.Rel W E} {w w1 w2 : W} {r1 r2 : Src.Res E} (h1 : Gives R w r1 w1) (h2 : Gives R w r2 w2) : r1 = r2 ∧ w1 = w2 := (h2 _ _).mp ((h1 _ _).mpr ⟨rfl, rfl⟩)

theorem answers_val {c : Bool} {err : Err → E} {R : Src.Rel W E} {w w' : W} {v : Val} (h : Gives R w (.val v) w') : Gives (answers c err R) w (.ret v) w' := by
  intro r1 w1
  cases r1 with
  | val u => exact ⟨fun h => h.elim, fun h => nomatch h.1⟩
  | ret u =>
    simp only [answers, h _ _, Src.Res.val.injEq, Src.Res.ret.injEq]
    exact ⟨fun h => h.elim id fun h => (nomatch h.2.1), .inl⟩
  | exc u =>
    simp only [answers, h _ _]
    exact ⟨fun h => h.elim (fun h => nomatch h.1) (fun ⟨_, _, _, h, _⟩ => nomatch h), fun h => nomatch h.1⟩

theorem answers_exc {c : Bool} {err : Err → E} {R : Src.Rel W E} {w w' : W} {e : E} (h : Gives R w (.exc e) w') : Gives (answers c err R) w (.exc e) w' := by
  intro r1 w1
  cases r1 with
  | val u => exact ⟨fun h => h.elim, fun h => nomatch h.1⟩
  | ret u =>
    simp only [answers, h _ _]
    exact ⟨fun h => h.elim (fun h => nomatch h.1) (fun h => nomatch h.2.1), fun h => nomatch h.1⟩
  | exc u =>
    simp only [answers, h _ _, Src.Res.exc.injEq]
    exact ⟨fun h => h.elim id (fun ⟨_, _, _, h, _⟩ => nomatch h), .inl⟩
end

/-! ## A world -/

/-- The variables and fields of one activation and the messages that were sent. -/
structure Desk where
  vars : Bool → Nat → Nat → Val
  flds : Nat → Val
  sent : List (Sel × List Val)

/-- Messages: `+` and `-` of integers; all others are recorded and answer 42. -/
def Desk.send (sel : Sel) (vs : List Val) (w : Desk) : Res Err × Desk :=
  match vs with
  | [.int a, .int b] => if sel = "+".toList then (.val (.int (a + b)), w) else if sel = "-".toList then (.val (.int (a - b)), w) else (.val (.int 42), { w with sent := (sel, vs) :: w.sent })
  | _ => (.val (.int 42), { w with sent := (sel, vs) :: w.sent })

/-- What actions do.  If `strict`, incrementing and decrementing fails with everything that is not an integer, as in the interpreters; otherwise it is the same as the message.
If the home method of the block is not active any more, `escaped` is what `escapedBlock:` answers. -/
def desk (strict : Bool) (escaped : Option Val) : Act Nat → Desk → Res Err × Desk
  | .rdVar a i l, w => (.val (w.vars a i l), w)
  | .wrVar a i l v, w => (.val v, { w with vars := fun a' i' l' => if a' = a ∧ i' = i ∧ l' = l then v else w.vars a' i' l' })
  | .rdFld i _, w => (.val (w.flds i), w)
  | .wrFld i _ v, w => (.val v, { w with flds := fun i' => if i' = i then v else w.flds i' })
  | .incFld i _, w =>
    match inc strict (w.flds i) w with
    | (.val v, w') => (.val v, { w' with flds := fun i' => if i' = i then v else w'.flds i' })
    | o => o
  | .glob _, w => (.val .nil, w)
  | .mkBlock _ m, w => (.val (.obj m), w)
  | .send sel vs, w => w.send sel vs
  | .superSend sel vs, w => w.send sel vs
  | .inc v, w => inc strict v w
  | .dec v, w =>
    match strict, v with
    | true, .int i => (.val (.int (i - 1)), w)
    | true, _ => (.exc .notImplemented, w)
    | false, v => w.send "-".toList [v, .int 1]
  | .self, w => (.val (w.vars true 0 0), w)
  | .nlr _ _, w =>
    match escaped with
    | some v => (.val v, w)
    | none => (.exc .other, w)
where
  inc (strict : Bool) (v : Val) (w : Desk) : Res Err × Desk :=
    match strict, v with
    | true, .int i => (.val (.int (i + 1)), w)
    | true, _ => (.exc .notImplemented, w)
    | false, v => w.send "+".toList [v, .int 1]

/-- All assumptions are met by the world that is not strict. -/
theorem desk_std (e : Option Val) (lvl : Nat) (hl : lvl = 0 ∨ e = none) : Std True True True True True (World.of (desk false e)) (fun n _ => Src.act (World.of (desk false e)) (.glob n)) lvl where
  glob := fun _ _ => rfl
  inc := fun _ v => rfl
  dec := fun _ v => rfl
  fuse := by
    intro _ i l w r w'
    have key : ∀ w1 r1 w2, Src.act (World.of (desk false e)) (.incFld i l) w1 r1 w2 ↔ Src.incField (World.of (desk false e)) (Src.machine (World.of (desk false e))) i l w1 r1 w2 := by
      intro w1 r1 w2
      rcases hd : desk.inc false (w1.flds i) w1 with ⟨r3, w3⟩
      cases r3 with
      | val v =>
        have h1 : Gives (Src.act (World.of (desk false e)) (.incFld i l)) w1 (.val v) { w3 with flds := fun i' => if i' = i then v else w3.flds i' } :=
          gives_val (by show desk false e (.incFld i l) w1 = _; simp only [desk, hd])
        have h2 : Gives (Src.incField (World.of (desk false e)) (Src.machine (World.of (desk false e))) i l) w1 (.val v) { w3 with flds := fun i' => if i' = i then v else w3.flds i' } :=
          (gives_val (v := w1.flds i) (w' := w1) rfl).bind ((gives_val (f := desk false e) (a := .inc (w1.flds i)) hd).bind ((gives_val (f := desk false e) rfl).bind (gives_pure _ _)))
        exact (h1 _ _).trans (h2 _ _).symm
      | exc x =>
        have h1 : Gives (Src.act (World.of (desk false e)) (.incFld i l)) w1 (.exc x) w3 :=
          gives_exc (by show desk false e (.incFld i l) w1 = _; simp only [desk, hd])
        have h2 : Gives (Src.incField (World.of (desk false e)) (Src.machine (World.of (desk false e))) i l) w1 (.exc x) w3 :=
          (gives_val (v := w1.flds i) (w' := w1) rfl).bind ((gives_exc (f := desk false e) (a := .inc (w1.flds i)) hd).stop trivial)
        exact (h1 _ _).trans (h2 _ _).symm
    exact key w r w'
  comm := by
    intro _ v t u
    have key : ∀ (t : Tgt) (w : Desk), ∃ w', Gives (Src.store (World.of (desk false e)) lvl v t) w (.val v) w' ∧
        w' = (match t with
          | .var _ a i l => { w with vars := fun a' i' l' => if a' = a ∧ i' = i ∧ l' = l then v else w.vars a' i' l' }
          | .fld _ i => { w with flds := fun i' => if i' = i then v else w.flds i' }) := by
      intro t w
      cases t with
      | var n a i l => exact ⟨_, gives_val rfl, rfl⟩
      | fld n i => exact ⟨_, gives_val rfl, rfl⟩
    refine Src.rel_ext fun w r w' => ?_
    obtain ⟨w1, h1, e1⟩ := key t w
    obtain ⟨w2, h2, e2⟩ := key u w1
    obtain ⟨w3, h3, e3⟩ := key u w
    obtain ⟨w4, h4, e4⟩ := key t w3
    have g1 := h1.bind (k := fun _ => Src.bind (Src.store (World.of (desk false e)) lvl v u) fun _ => Src.pure v) (h2.bind (k := fun _ => Src.pure v) (gives_pure v w2))
    have g2 := h3.bind (k := fun _ => Src.bind (Src.store (World.of (desk false e)) lvl v t) fun _ => Src.pure v) (h4.bind (k := fun _ => Src.pure v) (gives_pure v w4))
    have : w2 = w4 := by
      subst e1 e3
      rw [e2, e4]
      cases t <;> cases u <;> simp only [Desk.mk.injEq, and_true, true_and]
      · funext a i l; split <;> split <;> rfl
      · funext i; split <;> split <;> rfl
    subst this
    exact (g1 _ _).trans (g2 _ _).symm
  nlr := by
    intro _
    rcases hl with h | h
    · exact .inl h
    · refine .inr fun v w u w' hx => ?_
      subst h
      cases hx

/-- What the bytecode of a method does. -/
def bench (f : Act Nat → Desk → Res Err × Desk) (s : SMethod) (known : Sel → Bool) (n k : Nat) (w : Desk) : Option (Cfg Desk Err) :=
  match s.compile known n with
  | .ok g => (match assemble g with
    | .ok C => some (runOf (fun a => f (a.map Meth.id)) C k (Code.start w))
    | .error _ => none)
  | .error _ => none

/-- The answer and the messages. -/
def shown : Option (Cfg Desk Err) → Option (Val ⊕ Err) × List (Sel × List Val)
  | some (.done v w) => (some (.inl v), w.sent)
  | some (.raised e w) => (some (.inr e), w.sent)
  | _ => (none, [])

theorem bench_compiles {f : Act Nat → Desk → Res Err × Desk} {s : SMethod} {known : Sel → Bool} {n k : Nat} {w : Desk} {c : Cfg Desk Err} (h : bench f s known n k w = some c) :
    ∃ g C, s.compile known n = .ok g ∧ assemble g = .ok C ∧ runOf (fun a => f (a.map Meth.id)) C k (Code.start w) = c := by
  unfold bench at h
  split at h
  · split at h
    · cases h; exact ⟨_, _, ‹_›, ‹_›, rfl⟩
    · cases h
  · cases h

theorem bench_done {f : Act Nat → Desk → Res Err × Desk} {s : SMethod} {known : Sel → Bool} {n k : Nat} {w : Desk} {v : Val} {sent : List (Sel × List Val)}
    (h : shown (bench f s known n k w) = (some (.inl v), sent)) :
    ∃ g C w', s.compile known n = .ok g ∧ assemble g = .ok C ∧ w'.sent = sent ∧ Gives (bcRun (onMeth (World.of f)) C) w (.ret v) w' := by
  cases hb : bench f s known n k w with
  | none => rw [hb] at h; cases h
  | some c =>
    rw [hb] at h
    obtain ⟨g, C, h1, h2, h3⟩ := bench_compiles hb
    cases c with
    | done u w' => cases h; exact ⟨g, C, w', h1, h2, rfl, gives_done k h3⟩
    | _ => cases h

theorem bench_raised {f : Act Nat → Desk → Res Err × Desk} {s : SMethod} {known : Sel → Bool} {n k : Nat} {w : Desk} {e : Err} {sent : List (Sel × List Val)}
    (h : shown (bench f s known n k w) = (some (.inr e), sent)) :
    ∃ g C w', s.compile known n = .ok g ∧ assemble g = .ok C ∧ w'.sent = sent ∧ Gives (bcRun (onMeth (World.of f)) C) w (.exc e) w' := by
  cases hb : bench f s known n k w with
  | none => rw [hb] at h; cases h
  | some c =>
    rw [hb] at h
    obtain ⟨g, C, h1, h2, h3⟩ := bench_compiles hb
    cases c with
    | raised u w' => cases h; exact ⟨g, C, w', h1, h2, rfl, gives_raised k h3⟩
    | _ => cases h

/-- What the bytecode of a block does. -/
def benchBlock (f : Act Nat → Desk → Res Err × Desk) (s : SBlock) (known : Sel → Bool) (n lvl k : Nat) (w : Desk) : Option (Cfg Desk Err) :=
  match s.compile known n lvl with
  | .ok (.bc _ lits bytes _ _ _ stack _) => some (runOf (fun a => f (a.map Meth.id)) ⟨lits, bytes, stack⟩ k (Code.start w))
  | _ => none

theorem benchBlock_done {f : Act Nat → Desk → Res Err × Desk} {s : SBlock} {known : Sel → Bool} {n lvl k : Nat} {w : Desk} {v : Val} {sent : List (Sel × List Val)}
    (h : shown (benchBlock f s known n lvl k w) = (some (.inl v), sent)) :
    ∃ m w', s.compile known n lvl = .ok m ∧ w'.sent = sent ∧ Gives (m.run (onMeth (World.of f))) w (.ret v) w' := by
  unfold benchBlock at h
  split at h
  · rename_i id lits bytes loops args locals stack code hc
    refine ⟨.bc id lits bytes loops args locals stack code, ?_⟩
    cases hr : runOf (fun a => f (a.map Meth.id)) ⟨lits, bytes, stack⟩ k (Code.start w) with
    | done u w' => rw [hr] at h; cases h; exact ⟨w', hc, rfl, gives_done k hr⟩
    | _ => rw [hr] at h; cases h
  · cases h

end PySOM.BC

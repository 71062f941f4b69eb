import Verif.Lemmas.Trivial
import Verif.Props.Source
/-!
# C35: trivial methods behave like their code

`Activation K args A` says what the instructions do that such methods consist of.  The generic execution is running the bytes of the method
(`Steps`), the shortcut is `Triv.invoke`.
-/
set_option autoImplicit false
namespace PySOM.BC
open PySOM

section
variable {M X W E : Type}

/-! ## What is recognised -/

/-- The trivial method for an expression whose value is answered. -/
def Ex.triv (lvl : Nat) : Ex M → Option (Triv M)
  | .lit (.val v) => some (.lit (.val v))
  | .glob n => some (if n = symNil then .lit (.val .nil) else if n = symTrue then .lit (.val .tru) else if n = symFalse then .lit (.val .fls) else .glob n lvl)
  | .fld _ i => some (.fldRead i lvl)
  | _ => none

/-- The trivial method for an assignment. -/
def Ex.trivSet : Ex M → Option (Triv M)
  | .asg (.fld _ i) [] (.var true j _) => some (.fldWrite i j)
  | _ => none

/-- The trivial method for a body, if it is one. -/
def Body.triv (isBlock : Bool) (lvl : Nat) : Body M → Option (Triv M)
  | .done => if isBlock then some (.lit (.val .nil)) else none
  | .last e => if isBlock then e.triv lvl else e.trivSet
  | .exit e => if isBlock then none else e.triv lvl
  | .stmt e .done => if isBlock then none else e.trivSet
  | .stmt e .exitSelf => if isBlock then none else e.trivSet
  | _ => none

theorem const_triv (isBlock : Bool) (lvl : Nat) (env : X) (v : Val) :
    assembleTrivial isBlock (emit1 (emitPushConstant (G.new lvl env : G M X) v) Op.returnLocal 0) = .ok (some (.lit (.val v))) := by
  unfold emitPushConstant
  by_cases h0 : v = .int 0
  · subst h0; rfl
  · rw [if_neg h0]
    by_cases h1 : v = .int 1
    · subst h1; rfl
    · rw [if_neg h1]
      by_cases h2 : v = .nil
      · subst h2; rfl
      · rw [if_neg h2]; rfl

theorem glob_triv (isBlock : Bool) (lvl : Nat) (env : X) (n : Sel) :
    assembleTrivial isBlock (emit1 (emitPushGlobal (G.new lvl env : G M X) n) Op.returnLocal 0) = .ok ((Ex.glob n : Ex M).triv lvl) := by
  unfold emitPushGlobal
  simp only [Ex.triv]
  by_cases h0 : n = symNil
  · rw [if_pos h0, if_pos h0]; exact const_triv ..
  · rw [if_neg h0, if_neg h0]
    by_cases h1 : n = symTrue
    · rw [if_pos h1, if_pos h1]; exact const_triv ..
    · rw [if_neg h1, if_neg h1]
      by_cases h2 : n = symFalse
      · rw [if_pos h2, if_pos h2]; exact const_triv ..
      · rw [if_neg h2, if_neg h2]
        show (if n = symTrue then _ else if n = symFalse then _ else if n = symNil then _ else _) = _
        rw [if_neg h1, if_neg h2, if_neg h0]
        rfl

theorem opt_field (lvl : Nat) (env : X) (ls : List (Lit M)) (i : Nat) :
    optimizeReturnField (emit3 ({ (G.new lvl env : G M X) with lits := ls }) Op.pushField i lvl 1) =
      if lvl > 0 then .ok (false, emit3 ({ (G.new lvl env : G M X) with lits := ls }) Op.pushField i lvl 1)
      else if i > 2 then .ok (false, emit3 ({ (G.new lvl env : G M X) with lits := ls }) Op.pushField i lvl 1)
      else replaceByReturnField (emit3 ({ (G.new lvl env : G M X) with lits := ls }) Op.pushField i lvl 1) i := rfl

/-- `FieldRead` for a field, whatever the compiler made of it. -/
theorem field_triv {isBlock : Bool} {lvl : Nat} {env : X} {n : Sel} {i : Nat} {g : G M X}
    (h : emitReturnLocal (emitPushField (addLiteralIfAbsent (G.new lvl env : G M X) (.val (.sym n))).2 i lvl) = .ok g) :
    assembleTrivial isBlock g = .ok (some (.fldRead i lvl)) := by
  have e0 : (addLiteralIfAbsent (G.new lvl env : G M X) (.val (.sym n))).2 = { (G.new lvl env : G M X) with lits := [.val (.sym n)] } := rfl
  rw [e0] at h
  unfold emitPushField at h
  by_cases h0 : lvl = 0 ∧ i = 0
  · obtain ⟨rfl, rfl⟩ := h0
    rw [if_pos ⟨rfl, rfl⟩] at h
    cases h
    rfl
  · rw [if_neg h0] at h
    by_cases h1 : lvl = 0 ∧ i = 1
    · obtain ⟨rfl, rfl⟩ := h1
      rw [if_pos ⟨rfl, rfl⟩] at h
      cases h
      rfl
    · rw [if_neg h1] at h
      unfold emitReturnLocal at h
      rw [show (({ (G.new lvl env : G M X) with lits := [.val (.sym n)] } : G M X).lvl) = lvl from rfl, opt_field] at h
      by_cases hl : lvl > 0
      · rw [if_pos hl] at h
        cases h
        rfl
      · rw [if_neg hl] at h
        by_cases hi : i > 2
        · rw [if_pos hi] at h
          cases h
          rfl
        · rw [if_neg hi] at h
          have hl0 : lvl = 0 := by omega
          subst hl0
          have hi2 : i = 2 := by omega
          subst hi2
          cases h
          rfl

/-- `FieldWrite` for an assignment in a method. -/
theorem set_triv {inl : Inline M X} {env : X} {n : Sel} {i j l : Nat} {g1 g2 : G M X} {b : Bool}
    (h : cEx inl (.asg (.fld n i) [] (.var true j l)) (G.new 0 env) = .ok g1) (ho : optimizeDupPopPop g1 = .ok (b, g2)) :
    b = true ∧ assembleTrivial false (emit1 g2 Op.returnSelf 0) = .ok (some (.fldWrite i j)) := by
  by_cases h0 : i = 0
  · subst h0; cases h; cases ho; exact ⟨rfl, rfl⟩
  · by_cases h1 : i = 1
    · subst h1; cases h; cases ho; exact ⟨rfl, rfl⟩
    · have hc : cEx inl (.asg (.fld n i) [] (.var true j l)) (G.new 0 env) =
          .ok (emitPopFieldWithIndex (emit1 (emitPushVar (addNames (G.new 0 env) [.fld n i]) true j l) Op.dup 1) i 0) := rfl
      rw [hc] at h
      unfold emitPopFieldWithIndex at h
      rw [if_neg (by omega), if_neg (by omega)] at h
      cases h
      have hd : optimizeDupPopPop (emit3 (emit1 (emitPushVar (addNames (G.new 0 env : G M X) [.fld n i]) true j l) Op.dup 1) Op.popField i 0 (-1)) =
          .ok (true, { (emit3 (emit1 (emitPushVar (addNames (G.new 0 env : G M X) [.fld n i]) true j l) Op.dup 1) Op.popField i 0 (-1)) with
            bytes := [Op.pushArgument, j, l, Op.popField, i, 0], l2 := Op.pushArgument, l1 := Op.invalid, l0 := Op.invalid }) := rfl
      rw [hd] at ho
      cases ho
      refine ⟨rfl, ?_⟩
      rw [trivial_self_eq]
      rfl

/-- **C35**, what is recognised: compiling never fails in the recognition, and a method is replaced by a trivial one exactly if its body
is one of the forms of `Body.triv`, with the literal, global, field and argument that occur in the source. -/
theorem C35_recognised {I : Inliner M X} (hI : I.OK) {isBlock : Bool} {lvl : Nat} {env : X} {b : Body M} {g : G M X}
    (hw : b.wf (I.good lvl)) (hf : b.fits isBlock) (hlv : isBlock = true ↔ 1 ≤ lvl) (hc : compile I.run isBlock lvl env b = .ok g) :
    assembleTrivial isBlock g = .ok (b.triv isBlock lvl) := by
  have hcc := hc
  unfold compile at hc
  have hq : Quiet (G.new lvl env : G M X) := quiet_of (by show Op.invalid ≠ Op.incFieldPush; decide) (.inl (by show popXBytecodes.contains Op.invalid = false; decide))
  have hn : b.simple isBlock = false → b.triv isBlock lvl = none := by
    intro hs
    have he : ∀ e : Ex M, e.simple = false → e.triv lvl = none := by
      intro e h
      cases e with
      | lit l => cases l with
        | val v => cases h
        | arr es => rfl
      | glob n => cases h
      | fld n i => cases h
      | _ => rfl
    have hse : ∀ e : Ex M, e.setter = false → e.trivSet = none := by
      intro e h
      unfold Ex.trivSet
      split
      · cases h
      · rfl
    cases b with
    | done => cases isBlock <;> first | rfl | cases hs
    | last e =>
      cases isBlock with
      | true => exact he e hs
      | false => exact hse e hs
    | exit e =>
      cases isBlock with
      | true => rfl
      | false => exact he e (by simpa [Body.simple] using hs)
    | exitSelf => rfl
    | stmt e rest =>
      cases rest with
      | done =>
        cases isBlock with
        | true => rfl
        | false => exact hse e (by simpa [Body.simple] using hs)
      | exitSelf =>
        cases isBlock with
        | true => rfl
        | false => exact hse e (by simpa [Body.simple] using hs)
      | _ => rfl
  by_cases hsim : b.simple isBlock = true
  case neg =>
    rw [hn (by simpa using hsim)]
    rcases cBody_trivial hI isBlock b false (G.new lvl env) g hw hf (fun _ => ⟨rfl, rfl, rfl, rfl⟩) ⟨Int.le_refl _, Int.le_refl _⟩ hq
      (fun _ => by show Op.invalid ∉ popFieldBytecodes; decide) hc with h1 | h1
    · exact h1
    · exact absurd h1.2 hsim
  case pos =>
  have value : ∀ e : Ex M, e.simple = true → ∀ g1, cEx I.run e (G.new lvl env) = .ok g1 → emitReturnLocal g1 = .ok g →
      assembleTrivial isBlock g = .ok (e.triv lvl) := by
    intro e hs g1 h1 h2
    cases e with
    | lit l => cases l with
      | val v =>
        simp only [cEx, cLit] at h1
        cases h1
        have hf1 : pushFieldBytecodes.contains (emitPushConstant (G.new lvl env : G M X) v).l3 = false := by
          have h3 := pushConstant_l3 (G.new lvl env : G M X) v
          revert h3
          generalize (emitPushConstant (G.new lvl env : G M X) v).l3 = op
          revert op
          decide
        rw [returnLocal_plain h2 hf1]
        exact const_triv ..
      | arr es => cases hs
    | glob n =>
      simp only [cEx] at h1
      cases h1
      have hf1 : pushFieldBytecodes.contains (emitPushGlobal (G.new lvl env : G M X) n).l3 = false := by
        have h3 := pushGlobal_l3 (G.new lvl env : G M X) n
        revert h3
        generalize (emitPushGlobal (G.new lvl env : G M X) n).l3 = op
        revert op
        decide
      rw [returnLocal_plain h2 hf1]
      exact glob_triv ..
    | fld n i =>
      simp only [cEx] at h1
      cases h1
      exact field_triv h2
    | _ => cases hs
  have setterForm : ∀ e : Ex M, e.setter = true → ∃ n i j l, e = .asg (.fld n i) [] (.var true j l) := by
    intro e h
    unfold Ex.setter at h
    split at h
    · exact ⟨_, _, _, _, rfl⟩
    · cases h
  have stmtSelf : ∀ e : Ex M, e.setter = true → isBlock = false → e.wf (I.good lvl) → ∀ g1 g2, cEx I.run e (G.new lvl env) = .ok g1 → emitPop g1 = .ok g2 →
      emitReturnSelf g2 = .ok g → assembleTrivial isBlock g = .ok e.trivSet := by
    intro e hs hb hw' g1 g2 h1 h2 h3
    have hl0 : lvl = 0 := by
      have : ¬ 1 ≤ lvl := fun h => by rw [hlv.mpr h] at hb; cases hb
      omega
    subst hl0 hb
    obtain ⟨n, i, j, l, rfl⟩ := setterForm e hs
    have hq2 := (stmt_ok hI hw' h1 h2).2.2.1
    rw [returnSelf_quiet hq2 h3]
    unfold emitPop at h2
    obtain ⟨⟨b', gd⟩, hd', h2⟩ := except_bind_ok h2
    obtain ⟨rfl, ht⟩ := set_triv h1 hd'
    cases h2
    exact ht
  cases b with
  | done =>
    cases isBlock with
    | false => cases hsim
    | true =>
      cases hc
      rfl
  | last e =>
    simp only [cBody] at hc
    obtain ⟨g1, h1, hc'⟩ := except_bind_ok hc
    clear hc hcc
    have hc := hc'
    clear hc'
    cases isBlock with
    | true =>
      have hne := (cEx_ok hI e (G.new lvl env) g1 hw h1).1.bytes_ne ⟨Int.le_refl _, Int.le_refl _⟩
      rw [if_pos rfl, if_neg hne] at hc
      exact value e hsim g1 h1 hc
    | false =>
      rw [if_neg (by decide)] at hc
      have hl0 : lvl = 0 := by
        have : ¬ 1 ≤ lvl := fun h => by have := hlv.mpr h; cases this
        omega
      subst hl0
      obtain ⟨n, i, j, l, rfl⟩ := setterForm e hsim
      unfold emitReturnSelf at hc
      obtain ⟨⟨b', gd⟩, hd', h2⟩ := except_bind_ok hc
      obtain ⟨rfl, ht⟩ := set_triv h1 hd'
      cases h2
      exact ht
  | exit e =>
    simp only [cBody] at hc
    obtain ⟨g1, h1, hc⟩ := except_bind_ok hc
    cases isBlock with
    | true => cases hsim
    | false =>
      rw [if_neg (by decide)] at hc
      exact value e (by simpa [Body.simple] using hsim) g1 h1 hc
  | exitSelf => cases hsim
  | stmt e rest =>
    simp only [cBody] at hc
    obtain ⟨g1, h1, hc⟩ := except_bind_ok hc
    obtain ⟨g2, h2, hc⟩ := except_bind_ok hc
    cases isBlock with
    | true => cases rest <;> cases hsim
    | false =>
      cases rest with
      | done => exact stmtSelf e (by simpa [Body.simple] using hsim) rfl hw.1 g1 g2 h1 h2 hc
      | exitSelf => exact stmtSelf e (by simpa [Body.simple] using hsim) rfl hw.1 g1 g2 h1 h2 hc
      | _ => cases hsim

/-! ## Behaviour -/

/-- Answering the outcome of an action. -/
theorem act_answer {A : World M W E} {a : Act M} {w : W} :
    (∀ v w', Src.bind (Src.act A a) Src.answer w (.ret v) w' ↔ A a w (.val v) w') ∧
    (∀ e w', Src.bind (Src.act A a) Src.answer w (.exc e) w' ↔ A a w (.exc e) w') := by
  refine ⟨fun v w' => ⟨?_, fun h => .inl ⟨v, w', .inl ⟨v, rfl, h⟩, rfl, rfl⟩⟩, fun e w' => ⟨?_, fun h => .inr ⟨.inr ⟨e, rfl, h⟩, trivial⟩⟩⟩
  · rintro (⟨v1, w1, ⟨v2, h1, h2⟩ | ⟨e, h1, _⟩, h3, h4⟩ | ⟨⟨v2, h1, _⟩ | ⟨e, h1, _⟩, _⟩)
    · cases h1; cases h3; cases h4; exact h2
    · cases h1
    · cases h1
    · cases h1
  · rintro (⟨v1, w1, _, h3, _⟩ | ⟨⟨v2, h1, _⟩ | ⟨e', h1, h2⟩, _⟩)
    · cases h3
    · cases h1
    · cases h1; exact h2

theorem lit_answer (v : Val) {w : W} :
    (∀ u w', (Src.answer v : Src.Rel W E) w (.ret u) w' ↔ (Res.val u : Res E) = .val v ∧ w' = w) ∧
    (∀ e w', (Src.answer v : Src.Rel W E) w (.exc e) w' ↔ (Res.exc e : Res E) = .val v ∧ w' = w) := by
  refine ⟨fun u w' => ⟨fun h => ⟨by cases h.1; rfl, h.2⟩, fun h => ⟨by cases h.1; rfl, h.2⟩⟩, fun e w' => ⟨fun h => (by cases h.1), fun h => (by cases h.1)⟩⟩

/-- What the source of a setter means. -/
theorem set_answer {K : Core W E} {args : List Val} {A : World M W E} (hA : Activation K args A) {rcvr v : Val} {i j : Nat} (hr : args.head? = some rcvr)
    (hv : args[j]? = some v) {w : W} (k : Val → Src.Rel W E) (hk : ∀ u, k u = Src.bind (Src.act A .self) Src.answer) :
    (∀ u w', Src.bind (Src.act A (.rdVar true j 0)) (fun v => Src.bind (Src.act A (.wrFld i 0 v)) k) w (.ret u) w' ↔ K.setAndAnswer rcvr i v w (.val u) w') ∧
    (∀ e w', Src.bind (Src.act A (.rdVar true j 0)) (fun v => Src.bind (Src.act A (.wrFld i 0 v)) k) w (.exc e) w' ↔ K.setAndAnswer rcvr i v w (.exc e) w') := by
  have h1 : ∀ (r : Src.Res E) w', Src.bind (Src.act A (.rdVar true j 0)) (fun v => Src.bind (Src.act A (.wrFld i 0 v)) k) w r w' ↔
      Src.bind (Src.act A (.wrFld i 0 v)) k w r w' := by
    intro r w'
    constructor
    · rintro (⟨v1, w1, ⟨v2, e1, h2⟩ | ⟨e, e1, _⟩, h3⟩ | ⟨⟨v2, e1, h2⟩ | ⟨e, e1, h2⟩, hs⟩)
      · cases e1
        obtain ⟨e2, rfl⟩ := (hA.arg j v _ _ _ hv).mp h2
        cases e2
        exact h3
      · cases e1
      · cases e1; exact hs.elim
      · have := ((hA.arg j v _ _ _ hv).mp h2).1
        cases this
    · intro h
      exact .inl ⟨v, w, .inl ⟨v, rfl, (hA.arg j v _ _ _ hv).mpr ⟨rfl, rfl⟩⟩, h⟩
  have h2 : ∀ w r w', A (.wrFld i 0 v) w r w' ↔ K.setFld rcvr i v w r w' := fun w r w' => hA.wrFld i 0 rcvr v w r w' hr
  have h3 : ∀ w r w', A .self w r w' ↔ r = .val rcvr ∧ w' = w := fun w r w' => hA.self rcvr w r w' hr
  refine ⟨fun u w' => (h1 _ _).trans ⟨?_, ?_⟩, fun e w' => (h1 _ _).trans ⟨?_, ?_⟩⟩
  · rintro (⟨v1, w1, ⟨v2, e1, h4⟩ | ⟨e, e1, _⟩, h5⟩ | ⟨⟨v2, e1, _⟩ | ⟨e, e1, _⟩, _⟩)
    · cases e1
      rw [hk] at h5
      obtain ⟨e6, rfl⟩ := (h3 _ _ _).mp ((act_answer.1 _ _).mp h5)
      exact .inl ⟨v1, (h2 _ _ _).mp h4, e6⟩
    · cases e1
    · cases e1
    · cases e1
  · rintro (⟨u', h4, e4⟩ | ⟨e, _, e4⟩)
    · refine .inl ⟨u', w', .inl ⟨u', rfl, (h2 _ _ _).mpr h4⟩, ?_⟩
      rw [hk]
      exact (act_answer.1 _ _).mpr ((h3 _ _ _).mpr ⟨e4, rfl⟩)
    · cases e4
  · rintro (⟨v1, w1, ⟨v2, e1, h4⟩ | ⟨e, e1, _⟩, h5⟩ | ⟨⟨v2, e1, _⟩ | ⟨e', e1, h4⟩, _⟩)
    · cases e1
      rw [hk] at h5
      have := ((h3 _ _ _).mp ((act_answer.2 _ _).mp h5)).1
      cases this
    · cases e1
    · cases e1
    · cases e1; exact .inr ⟨e, (h2 _ _ _).mp h4, rfl⟩
  · rintro (⟨u', _, e4⟩ | ⟨e', h4, e4⟩)
    · cases e4
    · cases e4
      exact .inr ⟨.inr ⟨_, rfl, (h2 _ _ _).mpr h4⟩, trivial⟩

/-- The argument that a setter stores is an argument of the method: in a method, variables are at level 0, and their indexes are those of
the arguments. -/
def Body.argsOK (n : Nat) : Body M → Prop
  | .last (.asg _ _ (.var true j l)) => l = 0 ∧ j < n
  | .stmt (.asg _ _ (.var true j l)) _ => l = 0 ∧ j < n
  | _ => True

/-- `FieldWrite` picks the argument of the source. -/
def SetterOK (t : Triv M) (n : Nat) : Prop :=
  ∀ i k, t = .fldWrite i k → (n = 2 ∧ k = 1) ∨ (n = 3 ∧ (k = 1 ∨ k = 2))

/-- Trivial methods and the interpreter find the same `self`: `n` contexts out. -/
theorem C35_outer_self (K : Core W E) (w : W) (v : Val) (n : Nat) : K.selfAt w v n = K.getSelf w v n := by
  have h1 : ∀ n v, K.selfAt w v (n + 1) = (K.selfAt w v n).bind (K.outer w) := by
    intro n
    induction n with
    | zero => intro v; simp only [Core.selfAt, Option.bind]; cases K.outer w v <;> rfl
    | succ n ih =>
      intro v
      rw [Core.selfAt, Core.selfAt]
      cases K.outer w v with
      | none => rfl
      | some u => exact ih u
  have h2 : ∀ n, K.selfAt w v n = K.blockAt w v n := by
    intro n
    induction n with
    | zero => rfl
    | succ n ih => rw [h1, Core.blockAt, ih]
  cases n with
  | zero => rfl
  | succ n => rw [h1, h2, Core.getSelf, if_neg (by omega)]; rfl

/-- `GlobalRead` asks the same object as the interpreter if there is no such global: it follows as many contexts as the method has, the
interpreter follows contexts as long as the receiver is a block. -/
def GlobalOK (K : Core W E) (t : Triv M) (args : List Val) : Prop :=
  ∀ n ctx rcvr, t = .glob n ctx → args.head? = some rcvr → ∀ w, K.global w n = none → ∀ o, K.Dyn w rcvr o ↔ o = K.selfAt w rcvr ctx

/-- **C35** (partial): a trivial method gives the answers, exceptions and final states that running its code gives, for all receivers and
all numbers of arguments.  Missing: setters, unless they have one argument, or two and store one of them (see
`C35_violated_setter` and `C35_violated_setter_n`); and unknown globals read in methods whose receiver is a block
(`C35_violated_unknown_global`). -/
theorem C35_bytecode_partial {I : Inliner M X} (hI : I.OK) {isBlock : Bool} {lvl : Nat} {env : X} {b : Body M} {g : G M X} {C : Code M} {t : Triv M}
    (hw : b.wf (I.good lvl)) (hf : b.fits isBlock) (hlv : isBlock = true ↔ 1 ≤ lvl) (hc : compile I.run isBlock lvl env b = .ok g)
    (ht : assembleTrivial isBlock g = .ok (some t)) (ha : assemble g = .ok C)
    {K : Core W E} {args below : List Val} {A : World M W E} (hA : Activation K args A) (hne : args ≠ []) (hargs : b.argsOK args.length)
    (hs : SetterOK t args.length) (hg : GlobalOK K t args) (w : W) :
    (∀ v w', (∃ n, Steps A C n (Code.start w) (.done v w')) ↔ t.invoke K args below w (.val v) w') ∧
    (∀ e w', (∃ n, Steps A C n (Code.start w) (.raised e w')) ↔ t.invoke K args below w (.exc e) w') := by
  have hrec := C35_recognised hI hw hf hlv hc
  rw [ht] at hrec
  have hrec : b.triv isBlock lvl = some t := by injection hrec with h; exact h.symm
  obtain ⟨rcvr, as, rfl⟩ : ∃ r as, args = r :: as := by cases args with
    | nil => exact absurd rfl hne
    | cons r as => exact ⟨r, as, rfl⟩
  -- the meaning of the value
  have value : ∀ e : Ex M, e.triv lvl = some t → Src.needsEx (Src.IncIsPlus A (Src.messages A)) (Src.IncFieldIsPlus A (Src.messages A)) e ∧
      (∀ v w', Src.bind (Src.ex A (Src.messages A) (blocksOf A I lvl) lvl e env) Src.answer w (.ret v) w' ↔ t.invoke K (rcvr :: as) below w (.val v) w') ∧
      (∀ e' w', Src.bind (Src.ex A (Src.messages A) (blocksOf A I lvl) lvl e env) Src.answer w (.exc e') w' ↔ t.invoke K (rcvr :: as) below w (.exc e') w') := by
    intro e he
    cases e with
    | lit l => cases l with
      | val v =>
        cases he
        refine ⟨by simp only [Src.needsEx], ?_⟩
        simp only [Src.ex, Src.lit, Src.pure_bind, Triv.invoke]
        exact lit_answer v
      | arr es => cases he
    | glob n =>
      refine ⟨by simp only [Src.needsEx], ?_⟩
      simp only [Ex.triv] at he
      simp only [Src.ex, Src.glob]
      by_cases h0 : n = symNil
      · rw [if_pos h0] at he
        cases he
        rw [if_pos (show n = "nil".toList from h0)]
        simp only [Src.pure_bind, Triv.invoke]
        exact lit_answer _
      · rw [if_neg h0] at he
        rw [if_neg (show ¬ n = "nil".toList from h0)]
        by_cases h1 : n = symTrue
        · rw [if_pos h1] at he
          cases he
          rw [if_pos (show n = "true".toList from h1)]
          simp only [Src.pure_bind, Triv.invoke]
          exact lit_answer _
        · rw [if_neg h1] at he
          rw [if_neg (show ¬ n = "true".toList from h1)]
          by_cases h2 : n = symFalse
          · rw [if_pos h2] at he
            cases he
            rw [if_pos (show n = "false".toList from h2)]
            simp only [Src.pure_bind, Triv.invoke]
            exact lit_answer _
          · rw [if_neg h2] at he
            rw [if_neg (show ¬ n = "false".toList from h2)]
            cases he
            have key : ∀ r w', A (.glob n) w r w' ↔ (Triv.glob n lvl : Triv M).invoke K (rcvr :: as) below w r w' := by
              intro r w'
              rw [hA.glob n rcvr w r w' rfl]
              simp only [Triv.invoke]
              cases hgl : K.global w n with
              | some v => exact Iff.rfl
              | none =>
                dsimp only
                constructor
                · rintro ⟨o, h1, h2⟩
                  rw [← (hg n lvl rcvr rfl rfl w hgl o).mp h1]
                  exact h2
                · intro h
                  exact ⟨_, (hg n lvl rcvr rfl rfl w hgl _).mpr rfl, h⟩
            exact ⟨fun v w' => (act_answer.1 v w').trans (key _ _), fun v w' => (act_answer.2 v w').trans (key _ _)⟩
    | fld n i =>
      cases he
      refine ⟨by simp only [Src.needsEx], ?_⟩
      simp only [Src.ex, Triv.invoke]
      rw [C35_outer_self]
      exact ⟨fun v w' => (act_answer.1 v w').trans (hA.rdFld i lvl rcvr _ _ _ rfl), fun v w' => (act_answer.2 v w').trans (hA.rdFld i lvl rcvr _ _ _ rfl)⟩
    | _ => cases he
  -- the meaning of a setter
  have setter : ∀ n i j, t = .fldWrite i j → lvl = 0 → j < (rcvr :: as).length →
      (∀ v w', Src.bind (Src.ex A (Src.messages A) (blocksOf A I lvl) lvl (.asg (.fld n i) [] (.var true j 0)) env) (fun _ => Src.bind (Src.act A .self) Src.answer) w (.ret v) w' ↔
        t.invoke K (rcvr :: as) below w (.val v) w') ∧
      (∀ e' w', Src.bind (Src.ex A (Src.messages A) (blocksOf A I lvl) lvl (.asg (.fld n i) [] (.var true j 0)) env) (fun _ => Src.bind (Src.act A .self) Src.answer) w (.exc e') w' ↔
        t.invoke K (rcvr :: as) below w (.exc e') w') := by
    intro n i j e0 hl0 hj
    subst e0 hl0
    simp only [Src.ex, Src.bind_assoc, Src.stores, Src.store, Src.pure_bind]
    have h2 := hs i j rfl
    rcases h2 with ⟨h2, rfl⟩ | ⟨h2, hj2⟩
    · match as, h2, hA with
      | [a1], _, hA =>
        show (∀ v w', _ ↔ K.setAndAnswer rcvr i a1 w (.val v) w') ∧ (∀ e' w', _ ↔ K.setAndAnswer rcvr i a1 w (.exc e') w')
        exact set_answer hA rfl rfl _ (fun _ => rfl)
    · match as, h2, hA with
      | [a1, a2], _, hA =>
        rcases hj2 with rfl | rfl
        · show (∀ v w', _ ↔ K.setAndAnswer rcvr i a1 w (.val v) w') ∧ (∀ e' w', _ ↔ K.setAndAnswer rcvr i a1 w (.exc e') w')
          exact set_answer hA rfl rfl _ (fun _ => rfl)
        · show (∀ v w', _ ↔ K.setAndAnswer rcvr i a2 w (.val v) w') ∧ (∀ e' w', _ ↔ K.setAndAnswer rcvr i a2 w (.exc e') w')
          exact set_answer hA rfl rfl _ (fun _ => rfl)
  have setterForm : ∀ e : Ex M, e.trivSet = some t → ∃ n i j l, e = .asg (.fld n i) [] (.var true j l) ∧ t = .fldWrite i j := by
    intro e h
    unfold Ex.trivSet at h
    split at h
    · cases h; exact ⟨_, _, _, _, rfl, rfl⟩
    · cases h
  have hl0 : isBlock = false → lvl = 0 := by
    intro hb
    have : ¬ 1 ≤ lvl := fun h => by rw [hlv.mpr h] at hb; cases hb
    omega
  have hB := blocksOf_means (A := A) hI lvl
  cases b with
  | done =>
    cases isBlock with
    | false => cases hrec
    | true =>
      cases hrec
      obtain ⟨h1, h2⟩ := C33_compiler_correct_partial hI hw hlv hc ha A hB trivial w
      simp only [Src.body] at h1 h2
      exact ⟨fun v w' => (h1 v w').trans ((lit_answer .nil).1 v w'), fun v w' => (h2 v w').trans ((lit_answer .nil).2 v w')⟩
  | last e =>
    cases isBlock with
    | true =>
      obtain ⟨hn, v1, v2⟩ := value e hrec
      obtain ⟨h1, h2⟩ := C33_compiler_correct_partial hI hw hlv hc ha A hB hn w
      exact ⟨fun v w' => (h1 v w').trans (v1 v w'), fun v w' => (h2 v w').trans (v2 v w')⟩
    | false =>
      obtain ⟨n, i, j, l, rfl, rfl⟩ := setterForm e hrec
      obtain ⟨rfl, hj⟩ := hargs
      obtain ⟨v1, v2⟩ := setter n i j rfl (hl0 rfl) hj
      obtain ⟨h1, h2⟩ := C33_compiler_correct_partial hI hw hlv hc ha A hB (by simp only [Src.needsBody, Src.needsEx, fusable, true_or, and_self]) w
      exact ⟨fun v w' => (h1 v w').trans (v1 v w'), fun v w' => (h2 v w').trans (v2 v w')⟩
  | exit e =>
    cases isBlock with
    | true => cases hrec
    | false =>
      obtain ⟨hn, v1, v2⟩ := value e hrec
      obtain ⟨h1, h2⟩ := C33_compiler_correct_partial hI hw hlv hc ha A hB hn w
      exact ⟨fun v w' => (h1 v w').trans (v1 v w'), fun v w' => (h2 v w').trans (v2 v w')⟩
  | exitSelf => cases hrec
  | stmt e rest =>
    cases isBlock with
    | true => cases rest <;> cases hrec
    | false =>
      have stmtCase : e.trivSet = some t → (Src.needsEx (Src.IncIsPlus A (Src.messages A)) (Src.IncFieldIsPlus A (Src.messages A)) e → 
          (∀ v w', (∃ n, Steps A C n (Code.start w) (.done v w')) ↔
            Src.bind (Src.ex A (Src.messages A) (blocksOf A I lvl) lvl e env) (fun _ => Src.bind (Src.act A .self) Src.answer) w (.ret v) w') ∧
          (∀ v w', (∃ n, Steps A C n (Code.start w) (.raised v w')) ↔
            Src.bind (Src.ex A (Src.messages A) (blocksOf A I lvl) lvl e env) (fun _ => Src.bind (Src.act A .self) Src.answer) w (.exc v) w')) →
          (∀ v w', (∃ n, Steps A C n (Code.start w) (.done v w')) ↔ t.invoke K (rcvr :: as) below w (.val v) w') ∧
          (∀ e w', (∃ n, Steps A C n (Code.start w) (.raised e w')) ↔ t.invoke K (rcvr :: as) below w (.exc e) w') := by
        intro he hrun
        obtain ⟨n, i, j, l, rfl, rfl⟩ := setterForm e he
        obtain ⟨rfl, hj⟩ := hargs
        obtain ⟨v1, v2⟩ := setter n i j rfl (hl0 rfl) hj
        obtain ⟨h1, h2⟩ := hrun (by simp only [Src.needsEx, fusable, true_or, and_self])
        exact ⟨fun v w' => (h1 v w').trans (v1 v w'), fun v w' => (h2 v w').trans (v2 v w')⟩
      cases rest with
      | done => exact stmtCase hrec fun hn => C33_compiler_correct_partial hI hw hlv hc ha A hB ⟨hn, trivial⟩ w
      | exitSelf => exact stmtCase hrec fun hn => C33_compiler_correct_partial hI hw hlv hc ha A hB ⟨hn, trivial⟩ w
      | _ => cases hrec

/-! ## Where they differ -/

/-- Which argument a setter stores, for every number of arguments: with one or two arguments the first or second, from three arguments on the
one *before* the one in the source, and without arguments it fails. -/
theorem C35_setter_stores (K : Core W E) (i k : Nat) (rcvr : Val) (as below : List Val) :
    ((Triv.fldWrite i k : Triv M).invoke K [rcvr] below = K.fails) ∧
    (∀ a1, (Triv.fldWrite i k : Triv M).invoke K [rcvr, a1] below = K.setAndAnswer rcvr i a1) ∧
    (∀ a1 a2, (Triv.fldWrite i k : Triv M).invoke K [rcvr, a1, a2] below = K.setAndAnswer rcvr i (if k = 1 then a1 else a2)) ∧
    (3 ≤ as.length → ∀ v, (rcvr :: as)[k]? = some v → (Triv.fldWrite i (k + 1) : Triv M).invoke K (rcvr :: as) below = K.setAndAnswer rcvr i v) := by
  refine ⟨rfl, fun _ => rfl, fun a1 a2 => ?_, fun h v hv => ?_⟩
  · simp only [Triv.invoke]
    split <;> rfl
  · match as, h with
    | a1 :: a2 :: a3 :: as, _ =>
      simp only [Triv.invoke]
      have hk : k < (rcvr :: a1 :: a2 :: a3 :: as).length := by
        rcases Nat.lt_or_ge k (rcvr :: a1 :: a2 :: a3 :: as).length with h | h
        · exact h
        · rw [List.getElem?_eq_none h] at hv; cases hv
      have : ((a1 :: a2 :: a3 :: as).reverse ++ rcvr :: below)[(a1 :: a2 :: a3 :: as).length + 1 - (k + 1)]? = some v := by
        have e : (a1 :: a2 :: a3 :: as).reverse ++ rcvr :: below = (rcvr :: a1 :: a2 :: a3 :: as).reverse ++ below := by simp
        rw [e, List.getElem?_append_left (by simp only [List.length_reverse, List.length_cons] at hk ⊢; omega),
          List.getElem?_reverse (by simp only [List.length_cons] at hk ⊢; omega), ← hv]
        congr 1
        simp only [List.length_cons] at hk ⊢
        omega
      rw [this]
      rfl

/-- The activation of a method as a world. -/
def activationOf (K : Core W E) (args : List Val) : World M W E
  | .rdVar true i 0, w, r, w' => ∃ v, args[i]? = some v ∧ r = .val v ∧ w' = w
  | .rdFld i l, w, r, w' => ∃ v, args.head? = some v ∧ K.on (K.getSelf w v l) (fun o => K.getFld o i) w r w'
  | .wrFld i l x, w, r, w' => ∃ v, args.head? = some v ∧ K.on (K.getSelf w v l) (fun o => K.setFld o i x) w r w'
  | .glob n, w, r, w' => ∃ v, args.head? = some v ∧
    match K.global w n with
    | some v => r = .val v ∧ w' = w
    | none => ∃ o, K.Dyn w v o ∧ K.on o (fun o => K.unknown o n) w r w'
  | .self, w, r, w' => ∃ v, args.head? = some v ∧ r = .val v ∧ w' = w
  | _, _, _, _ => False

theorem activation (K : Core W E) (args : List Val) : Activation (M := M) K args (activationOf K args) where
  arg := by
    intro i v w r w' h
    simp only [activationOf, h, Option.some.injEq, exists_eq_left']
  rdFld := by
    intro i l v w r w' h
    simp only [activationOf, h, Option.some.injEq, exists_eq_left']
  wrFld := by
    intro i l v x w r w' h
    simp only [activationOf, h, Option.some.injEq, exists_eq_left']
  glob := by
    intro n v w r w' h
    simp only [activationOf, h, Option.some.injEq, exists_eq_left']
    cases K.global w n <;> exact Iff.rfl
  self := by
    intro v w r w' h
    simp only [activationOf, h, Option.some.injEq, exists_eq_left']

/-- `f := a`, where `a` is argument `j` (0 is self). -/
def setBody (j : Nat) : Body Val := .last (.asg (.fld "f".toList 0) [] (.var true j 0))

theorem setBody_run (K : Core W E) {args : List Val} {rcvr v : Val} {j : Nat} (hr : args.head? = some rcvr) (hv : args[j]? = some v) {g : G Val Unit} {C : Code Val}
    (hc : compile literalInliner.run false 0 () (setBody j) = .ok g) (ha : assemble g = .ok C) (w : W) :
    (∀ u w', (∃ n, Steps (activationOf K args) C n (Code.start w) (.done u w')) ↔ K.setAndAnswer rcvr 0 v w (.val u) w') := by
  have hw : (setBody j).wf (literalInliner.good 0) := by simp only [setBody, Body.wf, Ex.wf]
  obtain ⟨h1, _⟩ := C33_compiler_correct_partial literalInliner_ok hw (by decide) hc ha (activationOf K args)
    (blocksOf_means (A := activationOf K args) literalInliner_ok 0) (by simp only [setBody, Src.needsBody, Src.needsEx, fusable, true_or, and_self]) w
  intro u w'
  rw [h1 u w']
  simp only [setBody, Src.body, Src.ex, Src.bind_assoc, Src.stores, Src.store, Src.pure_bind, Bool.false_eq_true, if_false]
  exact (set_answer (activation K args) hr hv (fun _ => Src.bind (Src.act (activationOf K args) .self) Src.answer) (fun _ => rfl)).1 u w'

theorem setBody_compiles (j : Nat) (hj : j ≤ 255) : ∃ g C, compile literalInliner.run false 0 () (setBody j) = .ok g ∧ assemble g = .ok C ∧
    assembleTrivial false g = .ok (some (.fldWrite 0 j)) := by
  have hc : ∃ g, compile literalInliner.run false 0 () (setBody j) = .ok g ∧ g.bytes = [Op.pushArgument, j, 0, Op.popField0, Op.returnSelf] := ⟨_, rfl, rfl⟩
  obtain ⟨g, hc, hb⟩ := hc
  have hw : (setBody j).wf (literalInliner.good 0) := by simp only [setBody, Body.wf, Ex.wf]
  have ha : ∃ C, assemble g = .ok C := by
    unfold assemble
    rw [if_pos (by rw [hb]; simp [hj]; decide)]
    exact ⟨_, rfl⟩
  obtain ⟨C, ha⟩ := ha
  exact ⟨g, C, hc, ha, C35_recognised literalInliner_ok hw trivial (by decide) hc⟩

/-- **C35 is violated** for setters that store self: without arguments the trivial method only fails, whereas the code stores and answers the
receiver; with one argument it stores the argument instead of the receiver. -/
theorem C35_violated_setter (K : Core W E) (rcvr a u : Val) (w w' : W) (hset : K.setFld rcvr 0 rcvr w (.val u) w') :
    ∃ g C t, compile literalInliner.run false 0 () (setBody 0) = .ok g ∧ assemble g = .ok C ∧ assembleTrivial false g = .ok (some t) ∧
    (∃ n, Steps (activationOf K [rcvr]) C n (Code.start w) (.done rcvr w')) ∧ (∀ below v w'', ¬ t.invoke K [rcvr] below w (.val v) w'') ∧
    (∃ n, Steps (activationOf K [rcvr, a]) C n (Code.start w) (.done rcvr w')) ∧ (∀ below, t.invoke K [rcvr, a] below = K.setAndAnswer rcvr 0 a) := by
  obtain ⟨g, C, hc, ha, ht⟩ := setBody_compiles 0 (by decide)
  refine ⟨g, C, _, hc, ha, ht, ?_, ?_, ?_, fun _ => rfl⟩
  · exact (setBody_run K (args := [rcvr]) rfl rfl hc ha w _ _).mpr (.inl ⟨u, hset, rfl⟩)
  · intro below v w'' h
    have := h.1
    cases this
  · exact (setBody_run K (args := [rcvr, a]) rfl rfl hc ha w _ _).mpr (.inl ⟨u, hset, rfl⟩)

/-- **C35 is violated** for setters with three or more arguments: the code stores the second argument, the trivial method the first. -/
theorem C35_violated_setter_n (K : Core W E) (rcvr a b c u : Val) (w w' : W) (hset : K.setFld rcvr 0 b w (.val u) w') :
    ∃ g C t, compile literalInliner.run false 0 () (setBody 2) = .ok g ∧ assemble g = .ok C ∧ assembleTrivial false g = .ok (some t) ∧
    (∃ n, Steps (activationOf K [rcvr, a, b, c]) C n (Code.start w) (.done rcvr w')) ∧
    (∀ below, t.invoke K [rcvr, a, b, c] below = K.setAndAnswer rcvr 0 a) := by
  obtain ⟨g, C, hc, ha, ht⟩ := setBody_compiles 2 (by decide)
  refine ⟨g, C, _, hc, ha, ht, ?_, fun below => ?_⟩
  · exact (setBody_run K (args := [rcvr, a, b, c]) rfl rfl hc ha w _ _).mpr (.inl ⟨u, hset, rfl⟩)
  · exact (C35_setter_stores K 0 1 rcvr [a, b, c] below).2.2.2 (Nat.le_refl 3) a rfl

/-- `^ Unknown` -/
def globBody : Body Val := .exit (.glob "Unknown".toList)

/-- **C35 is violated** for unknown globals in a method of class `Block`: the code asks the object in whose method the block was created, the
trivial method asks the block. -/
theorem C35_violated_unknown_global (K : Core W E) (blk o v : Val) (w w' : W) (hb : K.isBlk w blk = true) (ho : K.outer w blk = some o) (hno : K.isBlk w o = false)
    (hg : K.global w "Unknown".toList = none) (hu : K.unknown o "Unknown".toList w (.val v) w') :
    ∃ g C t, compile literalInliner.run false 0 () globBody = .ok g ∧ assemble g = .ok C ∧ assembleTrivial false g = .ok (some t) ∧
    (∃ n, Steps (activationOf K [blk]) C n (Code.start w) (.done v w')) ∧
    (∀ below r w', t.invoke K [blk] below w r w' ↔ K.unknown blk "Unknown".toList w r w') := by
  obtain ⟨g, C, hc, ha⟩ := compiles globBody (by decide +kernel)
  have hw : globBody.wf (literalInliner.good 0) := by simp only [globBody, Body.wf, Ex.wf]
  have ht := C35_recognised literalInliner_ok hw trivial (by decide) hc
  refine ⟨g, C, .glob "Unknown".toList 0, hc, ha, ?_, ?_, ?_⟩
  · rw [ht]
    simp only [globBody, Body.triv, Ex.triv]
    rfl
  · obtain ⟨h1, _⟩ := C33_compiler_correct_partial literalInliner_ok hw (by decide) hc ha (activationOf K [blk])
      (blocksOf_means (A := activationOf K [blk]) literalInliner_ok 0) trivial w
    rw [h1 v w']
    simp only [globBody, Src.body, Src.ex, Bool.false_eq_true, if_false]
    have : Src.glob (activationOf K [blk]) "Unknown".toList = Src.act (activationOf (M := Val) K [blk]) (.glob "Unknown".toList) := rfl
    rw [this]
    refine (act_answer.1 v w').mpr ⟨blk, rfl, ?_⟩
    rw [hg]
    exact ⟨some o, .up blk o _ hb ho (.here o hno), hu⟩
  · intro below r w'
    simp only [Triv.invoke, hg, Core.selfAt, Core.on]

/-! ## Cases that meet the hypotheses -/

/-- Objects with fields: the state is the log of stores; reading a field answers its number; object 1 is a block created in a method of
object 2; the unknown global answers the object that was asked. -/
def logCore : Core (List (Val × Nat × Val)) Unit where
  bad := ()
  isBlk _ v := decide (v = .obj 1)
  outer _ v := if v = .obj 1 then some (.obj 2) else none
  getFld _ i w r w' := r = .val (.int i) ∧ w' = w
  setFld o i v w r w' := r = .val v ∧ w' = w ++ [(o, i, v)]
  global _ n := if n = "Known".toList then some (.obj 9) else none
  unknown o _ w r w' := r = .val o ∧ w' = w

/-- `at: a put: b = ( f := b )` -/
example : ∃ g C t, compile literalInliner.run false 0 () (setBody 2) = .ok g ∧ assemble g = .ok C ∧ assembleTrivial false g = .ok (some t) ∧
    SetterOK t 3 ∧ GlobalOK logCore t [.obj 5, .int 6, .int 7] ∧ (setBody 2).argsOK 3 ∧
    t.invoke logCore [.obj 5, .int 6, .int 7] [] [] (.val (.obj 5)) [(.obj 5, 0, .int 7)] := by
  obtain ⟨g, C, hc, ha, ht⟩ := setBody_compiles 2 (by decide)
  refine ⟨g, C, _, hc, ha, ht, ?_, ?_, ⟨rfl, by decide⟩, .inl ⟨.int 7, ⟨rfl, rfl⟩, rfl⟩⟩
  · intro i k h; cases h; exact .inr ⟨rfl, .inr rfl⟩
  · intro n ctx rcvr h; cases h

/-- `[ Unknown ]`: the block that is object 1, evaluated. -/
example : ∃ g C t, compile literalInliner.run true 1 () (.last (.glob "Unknown".toList)) = .ok g ∧ assemble g = .ok C ∧ assembleTrivial true g = .ok (some t) ∧
    SetterOK t 1 ∧ GlobalOK logCore t [.obj 1] ∧ t.invoke logCore [.obj 1] [] [] (.val (.obj 2)) [] := by
  have hc : ∃ g, compile literalInliner.run true 1 () (.last (.glob "Unknown".toList)) = .ok g ∧ (∃ C, assemble g = .ok C) ∧
    assembleTrivial true g = .ok (some (.glob "Unknown".toList 1)) := ⟨_, rfl, ⟨_, rfl⟩, rfl⟩
  obtain ⟨g, hc, ⟨C, ha⟩, ht⟩ := hc
  refine ⟨g, C, _, hc, ha, ht, ?_, ?_, ⟨rfl, rfl⟩⟩
  · intro i k h; cases h
  · intro n ctx rcvr h h2 w hg o
    cases h; cases h2
    constructor
    · intro hd
      cases hd with
      | here _ h => exact absurd h (by show ¬ true = false; decide)
      | up _ u _ _ ho hr =>
        cases ho
        cases hr with
        | here => rfl
        | up _ _ _ h => exact absurd h (by show ¬ false = true; decide)
        | fail _ h => exact absurd h (by show ¬ false = true; decide)
      | fail _ _ ho => cases ho
    · rintro rfl
      exact .up _ (.obj 2) _ rfl rfl (.here _ rfl)

end
end PySOM.BC

import Verif.Lemmas.Prims
import Verif.Props.Loops
import Verif.Props.Reference
import Verif.Props.Returns
import Verif.Props.Super
/-!
# C71: what the messages for control do in a running program

`Model/Prims.lean` puts the primitives of the VM on the machine of `Model/Machine.lean`.  Full property: a message that is answered by a primitive that evaluates blocks does what the language says,
whatever the blocks do, in both interpreters: `value` evaluates the block, the messages to booleans evaluate the chosen block once, `whileTrue:` repeats, counting loops evaluate the block for the numbers of the
progression in turn, `do:` for the elements, `perform:` sends the message.  An exception or a return from a block ends the primitive.

What does not hold: counting loops whose counter leaves the machine integers (C38), `perform:` of what is not understood (C68), the answers of `do:` and `doIndexes:` (C52), so these theorems are partial.

Counting loops are primitives in the bytecode interpreter only; in the AST interpreter call sites rewrite themselves into nodes with these loops (C38, C50), so programs there have them in the library.

The results about whole programs (C66, C67, C69, C70) hold with these primitives without assumptions about primitives and shortcuts.
-/
set_option autoImplicit false
namespace PySOM.Mach
open PySOM BC

section
variable {ι F : Type} {I : Image ι} {p : Platform} {fo : Floats F} {b : Behaviour ι (St (Data F) Printed) Esc} {w w' : St (Data F) Printed} {r : Res Esc}

theorem isBlock_iff {v : Val} : isBlock w.sh v = true ↔ IsBlock w v := by
  cases v with
  | obj a =>
    simp only [isBlock, IsBlock]
    constructor
    · intro h
      split at h
      · rename_i id ctx k ho; exact ⟨a, id, ctx, k, rfl, ho⟩
      · cases h
    · rintro ⟨a', id, ctx, k, he, ho⟩
      cases he
      rw [ho]
  | _ => exact ⟨fun h => (nomatch h), fun ⟨_, _, _, _, h, _⟩ => (nomatch h)⟩

theorem elems_ok {v : Val} {vs : List Val} : (∃ a c, elems w.sh v = .ok (a, c, vs)) ↔ IsArray w v vs := by
  cases v with
  | obj a =>
    simp only [elems, IsArray]
    constructor
    · rintro ⟨a', c, h⟩
      split at h
      · rename_i c' vs' ho; cases h; exact ⟨_, _, rfl, ho⟩
      · cases h
    · rintro ⟨a', c, he, ho⟩
      cases he
      rw [ho]
      exact ⟨_, _, rfl⟩
  | _ => exact ⟨fun ⟨_, _, h⟩ => (nomatch h), fun ⟨_, _, h, _⟩ => (nomatch h)⟩

theorem elems_error {v : Val} {e : Err} (h : elems w.sh v = .error e) : (¬ ∃ vs, IsArray w v vs) ∧ e = .attribute := by
  refine ⟨fun ⟨vs, ha⟩ => ?_, ?_⟩
  · obtain ⟨a, c, h'⟩ := elems_ok.2 ha
    rw [h'] at h
    cases h
  · cases v with
    | obj a =>
      simp only [elems] at h
      split at h <;> cases h
      rfl
    | _ => cases h; rfl

/-- A value is the answer. -/
theorem done_iff {q : Go F} {v : Val} (h : (I.prog p fo).step q w.sh = (w.sh, .done v)) : Do (I.prog p fo) b (.prim q) w r w' ↔ Src.pure v w (toSrc r) w' := by
  rw [Do.prim_iff]
  rw [h]
  exact ⟨fun ⟨h1, h2⟩ => ⟨h1 ▸ rfl, h2⟩, fun ⟨h1, h2⟩ => ⟨toSrc_inj h1, h2⟩⟩

/-- What a call answers is the answer. -/
theorem call_iff {q : Go F} {c : Call} (h : (I.prog p fo).step q w.sh = (w.sh, .call c .answer)) : Do (I.prog p fo) b (.prim q) w r w' ↔ (I.prog p fo).does b c w (toSrc r) w' := by
  rw [Do.prim_iff, does_iff]
  rw [h]
  have ans : ∀ (v : Val) (w1 : St (Data F) Printed), Do (I.prog p fo) b (.prim (.answer v)) w1 r w' ↔ r = .val v ∧ w' = w1 := fun v w1 => by
    rw [Do.prim_iff]
    exact Iff.rfl
  constructor
  · rintro (⟨v, w1, h1, h2⟩ | ⟨e, rfl, h1⟩)
    · obtain ⟨rfl, rfl⟩ := (ans v w1).1 h2
      exact h1
    · exact h1
  · intro h1
    cases r with
    | val v => exact .inl ⟨v, w', h1, (ans v w').2 ⟨rfl, rfl⟩⟩
    | exc e => exact .inr ⟨e, rfl, h1⟩

/-- C71: `value`, `value:` and `value:with:` evaluate the block. -/
theorem C71_value {sel : String} {v : Val} {vs : List Val} {c : Nat} (hc : I.classOf w.sh v = some c) (hx : I.Has c sel .value) :
    (I.prog p fo).sends b sel (v :: vs) w (toSrc r) w' ↔ (I.prog p fo).evals b (v :: vs) w (toSrc r) w' :=
  (sends_prim hc hx).trans (call_iff rfl)

/-- The value of a block; another object stands for itself. -/
def chosen (G : Prog ι (Data F) Printed (Go F)) (b : Behaviour ι (St (Data F) Printed) Esc) (v : Val) : Src.Rel (St (Data F) Printed) Esc := fun w r w' =>
  (IsBlock w v ∧ G.evals b [v] w r w') ∨ (¬ IsBlock w v ∧ Src.pure v w r w')

theorem chosen_iff {q : Go F} {v : Val} (h : (I.prog p fo).step q w.sh = valueOrArg w.sh v) : Do (I.prog p fo) b (.prim q) w r w' ↔ chosen (I.prog p fo) b v w (toSrc r) w' := by
  unfold valueOrArg at h
  by_cases hb : isBlock w.sh v = true
  · rw [if_pos hb] at h
    have hb' := isBlock_iff.1 hb
    rw [call_iff h]
    exact ⟨fun h => .inl ⟨hb', h⟩, fun h => h.elim (·.2) fun h => absurd hb' h.1⟩
  · rw [if_neg hb] at h
    have hb' : ¬ IsBlock w v := fun h => hb (isBlock_iff.2 h)
    rw [done_iff h]
    exact ⟨fun h => .inr ⟨hb', h⟩, fun h => h.elim (fun h => absurd h.1 hb') (·.2)⟩

/-- The classes of true and false leave these messages to the primitives (`true_primitives.py:42-56`, `false_primitives.py:39-51`; `ifTrue:` to false is left to the library). -/
structure Image.Booleans (I : Image ι) : Prop where
  trueNot : I.Has I.truCls "not" .trueNot
  falseNot : I.Has I.flsCls "not" .falseNot
  trueAnd : I.Has I.truCls "and:" .trueAnd
  falseAnd : I.Has I.flsCls "and:" .falseAnd
  trueOr : I.Has I.truCls "or:" .trueOr
  falseOr : I.Has I.flsCls "or:" .falseOr
  trueIf : I.Has I.truCls "ifTrue:" .trueAnd
  trueUnless : I.Has I.truCls "ifFalse:" .trueIfFalse
  falseUnless : I.Has I.flsCls "ifFalse:" .falseOr
  trueIfElse : I.Has I.truCls "ifTrue:ifFalse:" .trueIfElse
  falseIfElse : I.Has I.flsCls "ifTrue:ifFalse:" .falseIfElse

/-- C71: messages to booleans: the chosen argument is evaluated, once, and the other one is not. -/
theorem C71_booleans (hI : I.Booleans) (t : Bool) (x y : Val) :
    ((I.prog p fo).sends b "ifTrue:ifFalse:" [bool t, x, y] w (toSrc r) w' ↔ chosen (I.prog p fo) b (if t then x else y) w (toSrc r) w') ∧
    ((I.prog p fo).sends b "and:" [bool t, x] w (toSrc r) w' ↔ if t then chosen (I.prog p fo) b x w (toSrc r) w' else Src.pure .fls w (toSrc r) w') ∧
    ((I.prog p fo).sends b "or:" [bool t, x] w (toSrc r) w' ↔ if t then Src.pure .tru w (toSrc r) w' else chosen (I.prog p fo) b x w (toSrc r) w') ∧
    ((I.prog p fo).sends b "not" [bool t] w (toSrc r) w' ↔ Src.pure (bool (!t)) w (toSrc r) w') ∧
    ((I.prog p fo).sends b "ifFalse:" [bool t, x] w (toSrc r) w' ↔ if t then Src.pure .nil w (toSrc r) w' else chosen (I.prog p fo) b x w (toSrc r) w') ∧
    (t = true → ((I.prog p fo).sends b "ifTrue:" [bool t, x] w (toSrc r) w' ↔ chosen (I.prog p fo) b x w (toSrc r) w')) := by
  cases t with
  | true =>
    exact ⟨(sends_prim rfl hI.trueIfElse).trans (chosen_iff rfl), (sends_prim rfl hI.trueAnd).trans (chosen_iff rfl), (sends_prim rfl hI.trueOr).trans (done_iff rfl),
      (sends_prim rfl hI.trueNot).trans (done_iff rfl), (sends_prim rfl hI.trueUnless).trans (done_iff rfl), fun _ => (sends_prim rfl hI.trueIf).trans (chosen_iff rfl)⟩
  | false =>
    exact ⟨(sends_prim rfl hI.falseIfElse).trans (chosen_iff rfl), (sends_prim rfl hI.falseAnd).trans (done_iff rfl), (sends_prim rfl hI.falseOr).trans (chosen_iff rfl),
      (sends_prim rfl hI.falseNot).trans (done_iff rfl), (sends_prim rfl hI.falseUnless).trans (chosen_iff rfl), fun h => (nomatch h)⟩

/-! ## `whileTrue:` -/

/-- What the two states of the loop are for. -/
def Looping (G : Prog ι (Data F) Printed (Go F)) (b : Behaviour ι (St (Data F) Printed) Esc) (w : St (Data F) Printed) (r : Res Esc) (w' : St (Data F) Printed) : Target ι (Go F) → Prop
  | .prim (.while c x want) => Src.While (fun v => decide (v ≠ want)) (G.evals b [c]) (G.evals b [x]) w (toSrc r) w'
  | .prim (.tested c x want got) => if got = want then Src.bind (G.evals b [x]) (fun _ => Src.While (fun v => decide (v ≠ want)) (G.evals b [c]) (G.evals b [x])) w (toSrc r) w'
      else r = .val .nil ∧ w' = w
  | _ => True

theorem step_while (c x want : Val) (sh : Mem F) : (I.prog p fo).step (.while c x want) sh = (sh, .call (.value [c]) fun got => .tested c x want got) := rfl
theorem step_tested (c x want got : Val) (sh : Mem F) : (I.prog p fo).step (.tested c x want got) sh =
    (sh, if got = want then .call (.value [x]) fun _ => .while c x want else .done .nil) := rfl

theorem looping {t : Target ι (Go F)} (h : Do (I.prog p fo) b t w r w') : Looping (I.prog p fo) b w r w' t := by
  induction h with
  | meth => trivial
  | blk => trivial
  | fail => trivial
  | done q w s v hs =>
    cases q with
    | «while» c x want => cases hs
    | tested c x want got =>
      have hs : (I.prog p fo).step (.tested c x want got) w.sh = _ := hs
      rw [step_tested] at hs
      by_cases hg : got = want
      · rw [if_pos hg] at hs; cases hs
      · rw [if_neg hg] at hs
        cases hs
        unfold Looping; dsimp only
        rw [if_neg hg]
        exact ⟨rfl, rfl⟩
    | _ => trivial
  | raise q w s e hs =>
    cases q with
    | «while» c x want => cases hs
    | tested c x want got =>
      have hs : (I.prog p fo).step (.tested c x want got) w.sh = _ := hs
      rw [step_tested] at hs
      by_cases hg : got = want
      · rw [if_pos hg] at hs; cases hs
      · rw [if_neg hg] at hs; cases hs
    | _ => trivial
  | next q w s q' r w' hs hq ih =>
    cases q with
    | «while» c x want => cases hs
    | tested c x want got =>
      have hs : (I.prog p fo).step (.tested c x want got) w.sh = _ := hs
      rw [step_tested] at hs
      by_cases hg : got = want
      · rw [if_pos hg] at hs; cases hs
      · rw [if_neg hg] at hs; cases hs
    | _ => trivial
  | callVal q w s c0 k v w1 r w' hs hc hk _ ih =>
    cases q with
    | «while» c x want =>
      cases hs
      have hcv : (I.prog p fo).evals b [c] w (.val v) w1 := does_val.2 hc
      have ih : if v = want then _ else _ := ih
      by_cases hg : v = want
      · rw [if_pos hg] at ih
        have hst : decide (v ≠ want) = false := decide_eq_false fun h => h hg
        rcases ih with ⟨u, w2, hb, hn⟩ | ⟨hb, hr⟩
        · exact .next w w1 w2 w' v u (toSrc r) hcv hst hb hn
        · exact .bodyStop w w1 w' v (toSrc r) hcv hst hb hr
      · rw [if_neg hg] at ih
        obtain ⟨rfl, rfl⟩ := ih
        exact .exit w w' v hcv (decide_eq_true hg)
    | tested c x want got =>
      have hs : (I.prog p fo).step (.tested c x want got) w.sh = _ := hs
      rw [step_tested] at hs
      by_cases hg : got = want
      · rw [if_pos hg] at hs
        cases hs
        unfold Looping; dsimp only
        rw [if_pos hg]
        exact .inl ⟨v, w1, does_val.2 hc, ih⟩
      · rw [if_neg hg] at hs; cases hs
    | _ => trivial
  | callExc q w s c0 k e w1 hs hc _ =>
    cases q with
    | «while» c x want =>
      cases hs
      exact .condStop w w1 (.exc e) (does_exc.2 hc) trivial
    | tested c x want got =>
      have hs : (I.prog p fo).step (.tested c x want got) w.sh = _ := hs
      rw [step_tested] at hs
      by_cases hg : got = want
      · rw [if_pos hg] at hs
        cases hs
        unfold Looping; dsimp only
        rw [if_pos hg]
        exact .inr ⟨does_exc.2 hc, trivial⟩
      · rw [if_neg hg] at hs; cases hs
    | _ => trivial

theorem tested_stop {c x want got : Val} (hg : got ≠ want) (w : St (Data F) Printed) : Do (I.prog p fo) b (.prim (.tested c x want got)) w (.val .nil) w :=
  .done _ w w.sh .nil (by rw [step_tested, if_neg hg])

theorem unlooping {c x want : Val} {r' : Src.Res Esc} (h : Src.While (fun v => decide (v ≠ want)) ((I.prog p fo).evals b [c]) ((I.prog p fo).evals b [x]) w r' w') :
    ∀ r, r' = toSrc r → Do (I.prog p fo) b (.prim (.while c x want)) w r w' := by
  induction h with
  | exit w w1 v hc hs =>
    intro r hr
    cases toSrc_inj (r := .val .nil) hr
    exact .callVal _ w w.sh _ _ v w1 _ _ (step_while c x want w.sh) (does_val.1 hc) (tested_stop (of_decide_eq_true hs) w1)
  | condStop w w1 r0 hc hr0 =>
    rintro r rfl
    obtain ⟨e, he, h⟩ := does_stops hr0 hc
    cases toSrc_inj (r' := .exc e) he
    exact .callExc _ w w.sh _ _ e w1 (step_while c x want w.sh) h
  | bodyStop w w1 w2 v r0 hc hs hb hr0 =>
    rintro r rfl
    obtain ⟨e, he, h⟩ := does_stops hr0 hb
    cases toSrc_inj (r' := .exc e) he
    have hg : v = want := Decidable.byContradiction fun h => of_decide_eq_false hs h
    exact .callVal _ w w.sh _ _ v w1 _ _ (step_while c x want w.sh) (does_val.1 hc)
      (.callExc _ w1 w1.sh _ _ e w2 (show (I.prog p fo).step (.tested c x want v) w1.sh = (w1.sh, .call (.value [x]) fun _ => .while c x want) by rw [step_tested, if_pos hg]) h)
  | next w w1 w2 w3 v u r0 hc hs hb _ ih =>
    intro r hr
    have hg : v = want := Decidable.byContradiction fun h => of_decide_eq_false hs h
    exact .callVal _ w w.sh _ _ v w1 _ _ (step_while c x want w.sh) (does_val.1 hc)
      (.callVal _ w1 w1.sh _ _ u w2 _ _ (show (I.prog p fo).step (.tested c x want v) w1.sh = (w1.sh, .call (.value [x]) fun _ => .while c x want) by rw [step_tested, if_pos hg]) (does_val.1 hb) (ih r hr))

theorem while_iff {c x want : Val} : Do (I.prog p fo) b (.prim (.while c x want)) w r w' ↔
    Src.While (fun v => decide (v ≠ want)) ((I.prog p fo).evals b [c]) ((I.prog p fo).evals b [x]) w (toSrc r) w' :=
  ⟨fun h => looping h, fun h => unlooping h r rfl⟩

/-- C71: `whileTrue:` and `whileFalse:` evaluate condition and body in turn until the condition answers something else than true, or false; the answer is nil. -/
theorem C71_while {sel : String} {t : Bool} {c : Nat} {x y : Val} (hx : IsBlock w x) (hy : IsBlock w y) (hc : I.classOf w.sh x = some c) (hs : I.Has c sel (if t then .whileTrue else .whileFalse)) :
    (I.prog p fo).sends b sel [x, y] w (toSrc r) w' ↔
      Src.While (fun v => decide (v ≠ bool t)) ((I.prog p fo).evals b [x]) ((I.prog p fo).evals b [y]) w (toSrc r) w' := by
  rw [sends_prim hc hs, ← while_iff, Do.prim_iff]
  have h : (isBlock w.sh y && isBlock w.sh x) = true := by rw [isBlock_iff.2 hx, isBlock_iff.2 hy]; rfl
  have : (I.prog p fo).step (.start (some (if t then .whileTrue else .whileFalse)) [x, y]) w.sh = (w.sh, .next (.while x y (bool t))) := by
    cases t with
    | true => show (w.sh, if (isBlock w.sh y && isBlock w.sh x) = true then _ else _) = _; rw [if_pos h]; rfl
    | false => show (w.sh, if (isBlock w.sh y && isBlock w.sh x) = true then _ else _) = _; rw [if_pos h]; rfl
  rw [this]

/-! ## Counting -/

theorem step_count (rc x : Val) (up : Bool) (l : Int ⊕ F) (d i : Int) (sh : Mem F) : (I.prog p fo).step (.count rc x up l d i) sh =
    (sh, if within fo up i l then .call (.value [x, .int i]) fun _ => .count rc x up l d (Loop.wrap p (if up then i + d else i - d)) else .done rc) := rfl

/-- The loop, where it ends after `m` rounds and the counter stays a machine integer. -/
theorem count_iff {rc x : Val} {up : Bool} {l : Int ⊕ F} {d : Int} (m : Nat) : ∀ (i : Int) (w : St (Data F) Printed),
    (∀ k : Nat, k < m → within fo up (i + k * (if up then d else -d)) l = true) → within fo up (i + m * (if up then d else -d)) l = false →
    (∀ k : Nat, k < m → Loop.wrap p (i + k * (if up then d else -d) + (if up then d else -d)) = i + k * (if up then d else -d) + (if up then d else -d)) →
    (Do (I.prog p fo) b (.prim (.count rc x up l d i)) w r w' ↔
      inTurn (fun j => (I.prog p fo).evals b [x, .int j]) rc (Loop.Spec.progression i (if up then d else -d) m) w (toSrc r) w') := by
  generalize hD : (if up = true then d else -d) = D
  have hnext : ∀ i, (if up = true then i + d else i - d) = i + D := fun i => by
    cases up with
    | true => rw [← hD]; rfl
    | false => rw [← hD]; show i - d = i + -d; omega
  induction m with
  | zero =>
    intro i w _ h2 _
    simp only [Int.natCast_zero, Int.zero_mul, Int.add_zero] at h2
    exact done_iff (by rw [step_count, if_neg (by rw [h2]; exact Bool.false_ne_true)])
  | succ m ih =>
    intro i w h1 h2 h3
    have hc : within fo up i l = true := by have := h1 0 (by omega); simpa using this
    have hw : Loop.wrap p (i + D) = i + D := by have := h3 0 (by omega); simpa using this
    have e1 : ∀ k : Nat, i + D + (k : Int) * D = i + ((k + 1 : Nat) : Int) * D := by
      intro k; rw [Int.natCast_succ, Int.add_mul]; omega
    have rest := ih (i + D)
    rw [Loop.progression_succ]
    show _ ↔ Src.bind ((I.prog p fo).does b (.value _)) _ w (toSrc r) w'
    rw [bind_does, Do.prim_iff, step_count, if_pos hc, hnext, hw]
    refine or_congr (exists_congr fun v => exists_congr fun w1 => and_congr_right fun _ => rest w1 ?_ ?_ ?_) Iff.rfl
    · intro k hk; rw [e1]; exact h1 (k + 1) (by omega)
    · rw [e1]; exact h2
    · intro k hk; rw [e1]; exact h3 (k + 1) (by omega)

theorem counting_start {q : Go F} {up : Bool} {i d : Int} {l x : Val} {lim : Int ⊕ F} {rc : Val} (hx : IsBlock w x) (hr : embInt rc = .ok i) (hl : I.limit w.sh l = .ok lim)
    (h : (I.prog p fo).step q w.sh = I.counting w.sh up rc l (.ok d) x) : Do (I.prog p fo) b (.prim q) w r w' ↔ Do (I.prog p fo) b (.prim (.count rc x up lim d i)) w r w' := by
  rw [Do.prim_iff]
  rw [h]
  simp only [Image.counting, isBlock_iff.2 hx, if_true, hr, hl]

/-- C71: `lo to: hi by: step do: blk`, for a positive step: the block is evaluated for `lo`, `lo + step`, … up to `hi`; the answer is `lo`. -/
theorem C71_to_by_do_partial {sel : String} (lo hi step : Int) (hs : 0 < step) (hp : p = .cpython ∨ (Num.minInt ≤ lo ∧ hi + step ≤ Num.maxInt)) {x : Val} (hx : IsBlock w x)
    (hI : I.Has I.intCls sel .toByDo) : (I.prog p fo).sends b sel [.int lo, .int hi, .int step, x] w (toSrc r) w' ↔
      inTurn (fun j => (I.prog p fo).evals b [x, .int j]) (.int lo) (Loop.Spec.progression lo step (Loop.Spec.count lo hi step)) w (toSrc r) w' := by
  obtain ⟨h1, h2⟩ := Loop.count_spec lo hi step hs
  rw [sends_prim rfl hI, counting_start (up := true) (rc := .int lo) (i := lo) (d := step) (l := .int hi) (lim := .inl hi) hx rfl rfl rfl]
  refine count_iff (up := true) (d := step) _ lo w (fun k hk => decide_eq_true (h1 k hk)) (decide_eq_false h2) (fun k hk => Loop.wrap_id p _ ?_)
  refine hp.imp_right fun ⟨a, c⟩ => ?_
  have := h1 k hk
  have hk0 : 0 ≤ (k : Int) * step := Int.mul_nonneg (by omega) (by omega)
  show Num.minInt ≤ lo + k * step + step ∧ lo + k * step + step ≤ Num.maxInt
  omega

/-- C71: `lo to: hi do: blk` -/
theorem C71_to_do_partial {sel : String} (lo hi : Int) (hp : p = .cpython ∨ (Num.minInt ≤ lo ∧ hi < Num.maxInt)) {x : Val} (hx : IsBlock w x) (hI : I.Has I.intCls sel .toDo) :
    (I.prog p fo).sends b sel [.int lo, .int hi, x] w (toSrc r) w' ↔
      inTurn (fun j => (I.prog p fo).evals b [x, .int j]) (.int lo) (Loop.Spec.progression lo 1 (Loop.Spec.count lo hi 1)) w (toSrc r) w' := by
  obtain ⟨h1, h2⟩ := Loop.count_spec lo hi 1 (by omega)
  rw [sends_prim rfl hI, counting_start (up := true) (rc := .int lo) (i := lo) (d := 1) (l := .int hi) (lim := .inl hi) hx rfl rfl rfl]
  refine count_iff (up := true) (d := 1) _ lo w (fun k hk => decide_eq_true (h1 k hk)) (decide_eq_false h2) (fun k hk => Loop.wrap_id p _ ?_)
  refine hp.imp_right fun ⟨a, c⟩ => ?_
  have := h1 k hk
  show Num.minInt ≤ lo + k * 1 + 1 ∧ lo + k * 1 + 1 ≤ Num.maxInt
  omega

/-- C71: `hi downTo: lo do: blk` -/
theorem C71_down_to_do_partial {sel : String} (lo hi : Int) (hp : p = .cpython ∨ (Num.minInt < lo ∧ hi ≤ Num.maxInt)) {x : Val} (hx : IsBlock w x) (hI : I.Has I.intCls sel .downToDo) :
    (I.prog p fo).sends b sel [.int hi, .int lo, x] w (toSrc r) w' ↔
      inTurn (fun j => (I.prog p fo).evals b [x, .int j]) (.int hi) (Loop.Spec.progression hi (-1) (Loop.Spec.count lo hi 1)) w (toSrc r) w' := by
  obtain ⟨h1, h2⟩ := Loop.count_spec lo hi 1 (by omega)
  rw [sends_prim rfl hI, counting_start (up := false) (rc := .int hi) (i := hi) (d := 1) (l := .int lo) (lim := .inl lo) hx rfl rfl rfl]
  refine count_iff (up := false) (d := 1) _ hi w (fun k hk => decide_eq_true ?_) (decide_eq_false ?_) (fun k hk => Loop.wrap_id p _ ?_)
  · have := h1 k hk
    show hi + k * -1 ≥ lo
    omega
  · show ¬ hi + _ * -1 ≥ lo
    omega
  · refine hp.imp_right fun ⟨a, c⟩ => ?_
    have := h1 k hk
    show Num.minInt ≤ hi + k * -1 + -1 ∧ hi + k * -1 + -1 ≤ Num.maxInt
    omega

/-! ## Arrays -/

theorem step_indexes (x : Val) (len i : Nat) (sh : Mem F) : (I.prog p fo).step (.indexes x len i) sh =
    (sh, if i < len then .call (.value [x, .int (i + 1 : Nat)]) fun _ => .indexes x len (i + 1) else .done .nil) := rfl

theorem indexes_iff {x : Val} {len : Nat} (m : Nat) : ∀ (i : Nat) (w : St (Data F) Printed), i + m = len → (Do (I.prog p fo) b (.prim (.indexes x len i)) w r w' ↔
      inTurn (fun (j : Nat) => (I.prog p fo).evals b [x, .int (j + 1 : Nat)]) .nil (List.range' i m) w (toSrc r) w') := by
  induction m with
  | zero => exact fun i w h => done_iff (by rw [step_indexes, if_neg (by omega)])
  | succ m ih =>
    intro i w h
    rw [List.range'_succ]
    show _ ↔ Src.bind ((I.prog p fo).does b (.value _)) _ w (toSrc r) w'
    rw [bind_does, Do.prim_iff, step_indexes, if_pos (by omega)]
    exact or_congr (exists_congr fun v => exists_congr fun w1 => and_congr_right fun _ => ih (i + 1) w1 (by omega)) Iff.rfl

/-- C71: `doIndexes:` evaluates the block for 1, 2, … up to the length that the array had at the beginning. -/
theorem C71_doIndexes_partial {sel : String} {a x : Val} {vs : List Val} {c : Nat} (ha : IsArray w a vs) (hx : IsBlock w x) (hc : I.classOf w.sh a = some c) (hI : I.Has c sel .arrIndexes) :
    (I.prog p fo).sends b sel [a, x] w (toSrc r) w' ↔ inTurn (fun (j : Nat) => (I.prog p fo).evals b [x, .int (j + 1 : Nat)]) .nil (List.range vs.length) w (toSrc r) w' := by
  obtain ⟨o, k, he⟩ := elems_ok.2 ha
  have hs : (I.prog p fo).step (.start (some .arrIndexes) [a, x]) w.sh = (w.sh, .next (.indexes x vs.length 0)) := by
    show (w.sh, if isBlock w.sh x = true then _ else _) = _
    rw [if_pos (isBlock_iff.2 hx), he]
  rw [sends_prim hc hI, List.range_eq_range', ← indexes_iff (len := vs.length) vs.length 0 w (by omega), Do.prim_iff, hs]

theorem step_each (a x : Val) (len i : Nat) (sh : Mem F) : (I.prog p fo).step (.each a x len i) sh =
    (sh, if i < len then match elems sh a with
      | .ok y => .call (.value [x, y.2.2[i]?.getD .nil]) fun _ => .each a x len (i + 1)
      | .error e => .raise e
    else .done .nil) := rfl

theorem each_iff {a x : Val} {len : Nat} (m : Nat) : ∀ (i : Nat) (w : St (Data F) Printed), i + m = len → (Do (I.prog p fo) b (.prim (.each a x len i)) w r w' ↔
      inTurn (fun (j : Nat) => Src.bind (element a j) fun v => (I.prog p fo).evals b [x, v]) .nil (List.range' i m) w (toSrc r) w') := by
  induction m with
  | zero => exact fun i w h => done_iff (by rw [step_each, if_neg (by omega)])
  | succ m ih =>
    intro i w h
    rw [List.range'_succ, Do.prim_iff]
    show _ ↔ Src.bind _ _ w (toSrc r) w'
    rw [step_each, if_pos (by omega)]
    cases he : elems w.sh a with
    | error e =>
      obtain ⟨hn, rfl⟩ := elems_error he
      have el : ∀ r0 w0, element (Y := Printed) a i w r0 w0 ↔ r0 = .exc (.err .attribute) ∧ w0 = w := fun r0 w0 =>
        ⟨fun ⟨h1, h2⟩ => ⟨h2.elim (fun ⟨vs, hv, _⟩ => absurd ⟨vs, hv⟩ hn) (·.2), h1⟩, fun ⟨h1, h2⟩ => ⟨h2, .inr ⟨hn, h1⟩⟩⟩
      dsimp only
      constructor
      · rintro ⟨rfl, rfl⟩
        exact .inr ⟨.inr ⟨(el _ _).2 ⟨rfl, rfl⟩, trivial⟩, trivial⟩
      · rintro (⟨v, w1, ⟨u, w2, hu, _⟩ | ⟨hu, hs⟩, _⟩ | ⟨⟨u, w2, hu, _⟩ | ⟨hu, _⟩, _⟩)
        · exact nomatch ((el _ _).1 hu).1
        · exact hs.elim
        · exact nomatch ((el _ _).1 hu).1
        · obtain ⟨h1, h2⟩ := (el _ _).1 hu
          exact ⟨toSrc_inj (h1.trans rfl), h2⟩
    | ok y =>
      obtain ⟨o, k, vs⟩ := y
      have hv : IsArray w a vs := elems_ok.1 ⟨o, k, he⟩
      have hu : ∀ vs', IsArray w a vs' → vs' = vs := by
        intro vs' h'
        obtain ⟨_, _, h2⟩ := elems_ok.2 h'
        rw [he] at h2
        cases h2
        rfl
      have el : ∀ r0 w0, element (Y := Printed) a i w r0 w0 ↔ r0 = .val (vs[i]?.getD .nil) ∧ w0 = w := fun r0 w0 =>
        ⟨fun ⟨h1, h2⟩ => ⟨h2.elim (fun ⟨vs', hv', h3⟩ => hu vs' hv' ▸ h3) fun h3 => absurd ⟨vs, hv⟩ h3.1, h1⟩, fun ⟨h1, h2⟩ => ⟨h2, .inl ⟨vs, hv, h1⟩⟩⟩
      have e : ∀ r0 w0, Src.bind (element a i) (fun v => (I.prog p fo).evals b [x, v]) w r0 w0 ↔ (I.prog p fo).evals b [x, vs[i]?.getD .nil] w r0 w0 := by
        intro r0 w0
        constructor
        · rintro (⟨v, w1, h1, h2⟩ | ⟨h1, h2⟩)
          · obtain ⟨h3, rfl⟩ := (el _ _).1 h1
            cases h3
            exact h2
          · obtain ⟨rfl, rfl⟩ := (el _ _).1 h1
            exact h2.elim
        · exact fun h1 => .inl ⟨_, w, (el _ _).2 ⟨rfl, rfl⟩, h1⟩
      have eb : ∀ (k : Val → Src.Rel (St (Data F) Printed) Esc), Src.bind (Src.bind (element a i) (fun v => (I.prog p fo).evals b [x, v])) k w (toSrc r) w' ↔
          Src.bind ((I.prog p fo).does b (.value [x, vs[i]?.getD .nil])) k w (toSrc r) w' := fun k =>
        or_congr (exists_congr fun v => exists_congr fun w1 => and_congr_left fun _ => e _ _) (and_congr_left fun _ => e _ _)
      rw [eb, bind_does]
      exact or_congr (exists_congr fun v => exists_congr fun w1 => and_congr_right fun _ => ih (i + 1) w1 (by omega)) Iff.rfl

/-- C71: `do:` evaluates the block for the elements in turn, each as it is then, up to the length that the array had at the beginning. -/
theorem C71_do_partial {sel : String} {a x : Val} {vs : List Val} {c : Nat} (ha : IsArray w a vs) (hx : IsBlock w x) (hc : I.classOf w.sh a = some c) (hI : I.Has c sel .arrDo) :
    (I.prog p fo).sends b sel [a, x] w (toSrc r) w' ↔
      inTurn (fun (j : Nat) => Src.bind (element a j) fun v => (I.prog p fo).evals b [x, v]) .nil (List.range vs.length) w (toSrc r) w' := by
  obtain ⟨o, k, he⟩ := elems_ok.2 ha
  have hs : (I.prog p fo).step (.start (some .arrDo) [a, x]) w.sh = (w.sh, .next (.each a x vs.length 0)) := by
    show (w.sh, if isBlock w.sh x = true then _ else _) = _
    rw [if_pos (isBlock_iff.2 hx), he]
  rw [sends_prim hc hI, List.range_eq_range', ← each_iff (len := vs.length) vs.length 0 w (by omega), Do.prim_iff, hs]

/-! ## `perform:` -/

/-- A message that is understood, sent by the program or by a primitive. -/
theorem own_send {v : Val} {vs : List Val} {sel : Sel} {c : Nat} (hc : I.classOf w.sh v = some c) (hu : I.find c sel ≠ none) :
    (I.prog p fo).resolve w (.own sel (v :: vs)) = (I.prog p fo).resolve w (.send sel (v :: vs)) := by
  have hl := look_find (I := I) (p := p) (fo := fo) c sel
  cases hf : I.find c sel with
  | none => exact absurd hf hu
  | some x =>
    rw [hf, Option.map_some] at hl
    simp only [Prog.resolve, classOf_eq, hc, hl]

/-- C71: `perform:` sends the message, if it is understood. -/
theorem C71_perform_partial {v : Val} {sel s : String} {c : Nat} (hc : I.classOf w.sh v = some c) (hI : I.Has c sel .perform) (hu : I.find c s.toList ≠ none) :
    (I.prog p fo).sends b sel [v, .sym s.toList] w (toSrc r) w' ↔ (I.prog p fo).sends b s [v] w (toSrc r) w' := by
  rw [sends_prim hc hI, call_iff (c := .own s.toList [v]) rfl, Prog.sends, does_iff, does_iff, Prog.calls, Prog.calls, own_send hc hu]

/-- C71: `perform:withArguments:` sends the message with the elements of the array, if it is understood and there are at most two. -/
theorem C71_performWith_partial {v a : Val} {sel s : String} {c : Nat} {vs : List Val} (hc : I.classOf w.sh v = some c) (hI : I.Has c sel .performWith) (ha : IsArray w a vs) (hn : vs.length ≤ 2)
    (hu : I.find c s.toList ≠ none) : (I.prog p fo).sends b sel [v, .sym s.toList, a] w (toSrc r) w' ↔ (I.prog p fo).sends b s (v :: vs) w (toSrc r) w' := by
  obtain ⟨o, k, he⟩ := elems_ok.2 ha
  have hs : (I.prog p fo).step (.start (some .performWith) [v, .sym s.toList, a]) w.sh = (w.sh, .call (.own s.toList (v :: vs)) .answer) := by
    show (w.sh, match elems w.sh a with | .error e => _ | .ok (_, _, vs) => _) = _
    rw [he]
    show (w.sh, if vs.length > 2 then _ else _) = _
    rw [if_neg (by omega)]
  rw [sends_prim hc hI, call_iff hs, Prog.sends, does_iff, does_iff, Prog.calls, Prog.calls, own_send hc hu]

/-- C71: a counting loop with something that is not a block raises an error, and nothing is done. -/
theorem C71_not_block {sel : String} (lo hi x : Val) {c : Nat} (hx : ¬ IsBlock w x) (hc : I.classOf w.sh lo = some c) (hI : I.Has c sel .toDo) :
    (I.prog p fo).sends b sel [lo, hi, x] w (toSrc r) w' ↔ r = .exc (.err .attribute) ∧ w' = w := by
  have hs : (I.prog p fo).step (.start (some .toDo) [lo, hi, x]) w.sh = (w.sh, .raise .attribute) := by
    show (w.sh, if isBlock w.sh x = true then _ else _) = _
    rw [if_neg fun h => hx (isBlock_iff.1 h)]
  rw [sends_prim hc hI, Do.prim_iff, hs]

/-! ## Numbers and arrays -/

theorem denotes_class {v : Val} {x : Int} (h : Num.Spec.Denotes p (I.num w.sh v) x) : I.classOf w.sh v = some I.intCls := by
  have hc := num_class (I := I) (sh := w.sh) (v := v)
  cases hn : I.num w.sh v with
  | int i => rw [hn] at hc; exact hc
  | big i => rw [hn] at hc; exact hc
  | dbl f => rw [hn] at h; exact nomatch h.2
  | obj a => rw [hn] at h; exact nomatch h.2

theorem box_num (sh : Mem F) {m : Num.Num F} {x : Int} (h : Num.Spec.Denotes p m x) : ∃ new : List (Obj (Data F)), (I.box sh m).1 = { sh with objs := sh.objs ++ new } ∧
    I.num { sh with objs := sh.objs ++ new } (I.box sh m).2 = m := by
  cases m with
  | int i => exact ⟨[], by rw [List.append_nil]; rfl, rfl⟩
  | big i =>
    refine ⟨[.data I.intCls (.big i)], rfl, ?_⟩
    have hg : (sh.objs ++ [Obj.data I.intCls (Data.big (F := F) i)])[sh.objs.length]? = some (.data I.intCls (.big i)) := List.getElem?_concat_length ..
    show I.num { sh with objs := sh.objs ++ [.data I.intCls (.big i)] } (.obj sh.objs.length) = _
    simp only [Image.num, hg, if_true]
  | dbl f => exact nomatch h.2
  | obj a => exact nomatch h.2

/-- C71: `+`, `-` and `*` of integers, in programs that run: machine integers or big ones, the answer is an integer that stands for the exact result. -/
theorem C71_arithmetic {sel : String} {o : Arith} {op : Int → Int → Int} (ho : o.exact = some op) (hI : I.Has I.intCls sel (.arith o)) {l m : Val} {x y : Int} (hl : Num.Spec.Denotes p (I.num w.sh l) x)
    (hm : Num.Spec.Denotes p (I.num w.sh m) y) : Computes ((I.prog p fo).sends b sel [l, m]) w fun sh v => Num.Spec.Denotes p (I.num sh v) (op x y) := by
  have key : Num.Spec.Answers p (o.op p fo (I.num w.sh l) (I.num w.sh m)) (op x y) := by
    cases o with
    | plus => cases ho; exact Num.C01_add_exact p fo.toFloatOps _ _ x y hl hm
    | minus => cases ho; exact Num.C01_subtract_exact p fo.toFloatOps _ _ x y hl hm
    | times => cases ho; exact Num.C01_multiply_exact p fo.toFloatOps _ _ x y hl hm
    | _ => cases ho
  obtain ⟨z, hz, hd⟩ := key
  obtain ⟨new, h1, h2⟩ := box_num (I := I) w.sh hd
  refine ⟨(I.box w.sh z).2, new, ?_, fun r w' => ?_⟩
  · show Num.Spec.Denotes p (I.num { w.sh with objs := w.sh.objs ++ new } _) _
    rw [h2]
    exact hd
  have hs : (I.prog p fo).step (.start (some (.arith o)) [l, m]) w.sh = ({ w.sh with objs := w.sh.objs ++ new }, .done (I.box w.sh z).2) := by
    show ends (I.boxed w.sh (o.op p fo (I.num w.sh l) (I.num w.sh m))) = _
    rw [hz, ← h1]
    rfl
  rw [sends_prim (denotes_class hl) hI, Do.prim_iff, hs]

/-- C71: comparisons of integers. -/
theorem C71_comparison {sel : String} {o : Compare} (hI : I.Has I.intCls sel (.compare o)) {l m : Val} {x y : Int} (hl : Num.Spec.Denotes p (I.num w.sh l) x) (hm : Num.Spec.Denotes p (I.num w.sh m) y) :
    (I.prog p fo).sends b sel [l, m] w (toSrc r) w' ↔ Src.pure (bool (o.exact x y)) w (toSrc r) w' := by
  have key : o.op p fo (I.num w.sh l) (I.num w.sh m) = .ok (o.exact x y) := by
    obtain ⟨h1, h2, h3, h4, h5, h6, h7⟩ := Num.C04_comparisons p fo.toFloatOps _ _ x y hl hm
    cases o
    · exact h1
    · exact h2
    · exact h3
    · exact h4
    · exact h5
    · exact h6
    · exact h7
  rw [sends_prim (denotes_class hl) hI]
  refine done_iff ?_
  show ends (w.sh, (o.op p fo (I.num w.sh l) (I.num w.sh m)).map bool) = _
  rw [key]
  rfl

theorem position_in {n j : Nat} (h : j < n) : position n ((j : Int) + 1) = .ok j := by
  have : pyIdx n ((j : Int) + 1 - 1) = some j := by
    unfold pyIdx
    rw [Int.add_sub_cancel]
    rw [if_pos (by omega), if_pos (by omega)]
    rfl
  rw [position, this]

theorem position_out {n : Nat} {k : Int} (h : (n : Int) < k) : position n k = .error .index := by
  have : pyIdx n (k - 1) = none := by
    unfold pyIdx
    rw [if_pos (by omega), if_neg (by omega)]
  rw [position, this]

/-- C71: `at:` answers the element, and raises an error beyond the end of the array.  (`at: 0` is the last element, C14.) -/
theorem C71_at_partial {sel : String} {a : Val} {vs : List Val} {c : Nat} (ha : IsArray w a vs) (hc : I.classOf w.sh a = some c) (hI : I.Has c sel .arrAt) (k : Int) (h0 : 1 ≤ k) :
    (I.prog p fo).sends b sel [a, .int k] w (toSrc r) w' ↔ w' = w ∧ ((∃ j : Nat, k = j + 1 ∧ ∃ v, vs[j]? = some v ∧ r = .val v) ∨ ((vs.length : Int) < k ∧ r = .exc (.err .index))) := by
  obtain ⟨o, cl, he⟩ := elems_ok.2 ha
  rw [sends_prim hc hI]
  by_cases hk : 1 ≤ k ∧ k ≤ vs.length
  · obtain ⟨j, rfl⟩ : ∃ j : Nat, k = j + 1 := ⟨k.toNat - 1, by omega⟩
    have hj : j < vs.length := by omega
    have hs : (I.prog p fo).step (.start (some .arrAt) [a, .int (j + 1)]) w.sh = (w.sh, .done vs[j]) := by
      show ends (w.sh, (do let x ← elems w.sh a; let i ← position x.2.2.length (j + 1); .ok (x.2.2[i]?.getD .nil) : Except Err Val)) = _
      have hp : position vs.length ((j : Int) + 1) = .ok j := position_in hj
      simp only [he, bind, Except.bind, hp]
      rw [List.getElem?_eq_getElem hj]
      rfl
    rw [done_iff hs]
    constructor
    · rintro ⟨h1, h2⟩
      exact ⟨h2, .inl ⟨j, rfl, vs[j], List.getElem?_eq_getElem hj, toSrc_inj h1⟩⟩
    · rintro ⟨h2, ⟨j', he', v, hv, rfl⟩ | ⟨h3, _⟩⟩
      · have : j' = j := by omega
        subst this
        rw [List.getElem?_eq_getElem hj] at hv
        cases hv
        exact ⟨rfl, h2⟩
      · omega
  · have hs : (I.prog p fo).step (.start (some .arrAt) [a, .int k]) w.sh = (w.sh, .raise .index) := by
      show ends (w.sh, (do let x ← elems w.sh a; let i ← position x.2.2.length k; .ok (x.2.2[i]?.getD .nil) : Except Err Val)) = _
      have hp : position vs.length k = .error .index := position_out (by omega)
      simp only [he, bind, Except.bind, hp]
      rfl
    rw [Do.prim_iff, hs]
    constructor
    · rintro ⟨h1, h2⟩
      exact ⟨h2, .inr ⟨by omega, h1⟩⟩
    · rintro ⟨h2, ⟨j, rfl, v, hv, _⟩ | ⟨_, h1⟩⟩
      · have := (List.getElem?_eq_some_iff.1 hv).1
        omega
      · exact ⟨h1, h2⟩

/-- C71: `at:put:` within the array: it has the new element there, nothing else changes. -/
theorem C71_at_put {sel : String} {a n cl c : Nat} {v : Val} {vs : List Val} (ha : w.sh.objs[a]? = some (.data cl (.arr vs))) (hc : I.classOf w.sh (.obj a) = some c) (hI : I.Has c sel .arrPut) (hn : n < vs.length) :
    (I.prog p fo).sends b sel [.obj a, .int (n + 1), v] w (toSrc r) w' ↔
      r = .val (.obj a) ∧ w' = { w with sh := { w.sh with objs := w.sh.objs.set a (.data cl (.arr (vs.set n v))) } } := by
  have he : elems w.sh (.obj a) = .ok (a, cl, vs) := by simp only [elems, ha]
  have hp : position vs.length ((n : Int) + 1) = .ok n := position_in hn
  have hs : (I.prog p fo).step (.start (some .arrPut) [.obj a, .int (n + 1), v]) w.sh = ({ w.sh with objs := w.sh.objs.set a (.data cl (.arr (vs.set n v))) }, .done (.obj a)) := by
    show I.begin p fo w.sh .arrPut [.obj a, .int (n + 1), v] = _
    simp only [Image.begin, embInt, he, hp]
  rw [sends_prim hc hI, Do.prim_iff, hs]

end

/-! ## Whole programs with these primitives -/

section
variable {ι F : Type} {I : Image ι} {p : Platform} {fo : Floats F} {N : Prop} {known : Sel → Bool} {alloc : LitTs → Val} {n : Nat} {q : Compiled2 ι} {own : ι → Nat}

theorem not_found (hN : N → ∀ c, I.find c escapedBlock = none) (hn : N) (c : Nat) : (I.prog p fo).look ((I.prog p fo).chain c) escapedBlock = none := by
  rw [look_find, hN hn c]
  rfl

/-- C66 with the primitives of the VM: a call that ends in both interpreters, and in neither with one of the three errors, ends with the same outcome in the same state, what was printed included. -/
theorem C66_primitives_partial (hI : I.Numbers) (h1 : fo.ofInt 1 = .ok fo.one) (hp : q.Ok True (p = .cpython) True False N known alloc n) (ha : Apart q) (hN : N → ∀ c, I.find c escapedBlock = none)
    (c : Call) (w : St (Data F) Printed) (r r' : Res Esc) (w1 w2 : St (Data F) Printed) (h : (I.prog p fo).trees (I.incs p fo) q c w r w1) (h' : (I.prog p fo).bytecode (I.incs p fo) q c w r' w2)
    (hr : ∀ e, r = .exc e → ¬ Quirk e) (hr' : ∀ e, r' = .exc e → ¬ Quirk e) : r = r' ∧ w1 = w2 :=
  C66_both_end_partial hp ha (incs_ok hI h1) (incs_ok hI h1) (fun _ => rfl) (not_found hN) c w r r' w1 w2 h h' hr hr'

/-- C67 with the primitives of the VM: returns from blocks arrive, no frame is missed, and after a call no frame is left. -/
theorem C67_primitives (hp : q.BcOk known n) (ha : Apart q) (hk : ∀ i, Known (q.src i).accesses) (hc : ∀ i, (q.src i).body.throws false = true → I.catches i = true) (w : St (Data F) Printed)
    (hw : Reached ((I.prog p fo).bytecode (I.incs p fo) q) w) (c : Call) (r : Res Esc) (w' : St (Data F) Printed) (h : (I.prog p fo).bytecode (I.incs p fo) q c w r w') :
    ((∃ v, r = .val v) ∨ ∃ e, r = .exc (.err e)) ∧ Idle w' ∧ w'.cur = w.cur :=
  C67_bytecode (G := I.prog p fo) hp ha hk hc prog_tame incs_tame w hw c r w' h

/-- The same for the AST interpreter. -/
theorem C67_primitives_trees_partial (hI : I.Numbers) (h1 : fo.ofInt 1 = .ok fo.one) (hp : q.Ok True (p = .cpython) True False N known alloc n) (ha : Apart q) (hk : ∀ i, Known (q.src i).accesses)
    (hc : ∀ i, (q.src i).body.throws false = true → I.catches i = true) (hN : N → ∀ c, I.find c escapedBlock = none) (w : St (Data F) Printed)
    (hw : Reached ((I.prog p fo).goodTrees (I.incs p fo) q) w) (c : Call) (r : Res Esc) (w' : St (Data F) Printed) (h : (I.prog p fo).trees (I.incs p fo) q c w r w') :
    ((∃ v, r = .val v) ∨ ∃ e, r = .exc (.err e)) ∧ ((∀ e, r = .exc e → ¬ Quirk e) → Idle w' ∧ w'.cur = w.cur) :=
  C67_trees_partial (G := I.prog p fo) hp ha hk hc prog_tame incs_tame (incs_ok hI h1) (not_found hN) w hw c r w' h

/-- C69 with the primitives of the VM: a value that a call gives is the value that the source says. -/
theorem C69_primitives_partial (hI : I.Numbers) (h1 : fo.ofInt 1 = .ok fo.one) (hp : q.Ok True (p = .cpython) True False N known alloc n) (hb : ∀ i, (q.src i).body.bound [(q.src i).env])
    (hN : N → ∀ c, I.find c escapedBlock = none) (c : Call) (w : St (Data F) Printed) (v : Val) (w' : St (Data F) Printed) :
    ((I.prog p fo).trees (I.incs p fo) q c w (.val v) w' → (I.prog p fo).source (p = .cpython) (I.incs p fo) known q.src c w (.val v) w') ∧
    ((I.prog p fo).bytecode (I.incs p fo) q c w (.val v) w' → (I.prog p fo).source (p = .cpython) (I.incs p fo) known q.src c w (.val v) w' ∨
      ∃ e w2, Quirk e ∧ (I.prog p fo).source (p = .cpython) (I.incs p fo) known q.src c w (.exc e) w2) :=
  C69_value_partial hp hb (incs_ok hI h1) (not_found hN) c w v w'

/-- The class of a method is the one whose table has it. -/
def Image.Owns (I : Image ι) (own : ι → Nat) : Prop := ∀ c sel i, I.table c sel = some (.inl i) → own i = c

theorem Image.Owns.prog (h : I.Owns own) : Mach.Owns (I.prog p fo) own := by
  intro c sel i hi
  have hi : (I.table c sel).map entry = some (.meth i) := hi
  cases ht : I.table c sel with
  | none => rw [ht] at hi; cases hi
  | some x =>
    rw [ht] at hi
    cases x with
    | inl j => cases hi; exact h c sel _ ht
    | inr x => cases hi

/-- C70 with the primitives of the VM, for both interpreters: `super` looks above the class of the method. -/
theorem C70_primitives (hp : q.BcOk known n) (hp' : q.TreesOk known alloc) (ha : Apart q) (ho : I.Owns own) (w : St (Data F) Printed) (c : Call) (r : Res Esc) (w' : St (Data F) Printed) :
    (Reached ((I.prog p fo).bytecode (I.incs p fo) q) w → ((I.prog p fo).bytecode (I.incs p fo) q c w r w' ↔ ∃ k, (I.prog p fo).calls ((I.prog p fo).codeIn (I.incs p fo) q own k) c w r w')) ∧
    (Reached ((I.prog p fo).trees (I.incs p fo) q) w → ((I.prog p fo).trees (I.incs p fo) q c w r w' ↔ ∃ k, (I.prog p fo).calls ((I.prog p fo).treesIn (I.incs p fo) q own k) c w r w')) :=
  ⟨fun hw => C70_bytecode hp ha ho.prog prog_tame incs_tame w hw c r w', fun hw => C70_trees hp' ha ho.prog prog_tame incs_tame w hw c r w'⟩

end

/-! ## Examples -/

/-- Numbers are class 3 and 7, booleans 1 and 2, blocks 5, arrays 6, and the program has one method `down:` in class 9. -/
def tinyImage : Image Unit where
  chain := fun c => [c]
  table := fun c sel =>
    if c = 1 then [("not".toList, .inr .trueNot), ("and:".toList, .inr .trueAnd), ("or:".toList, .inr .trueOr), ("ifTrue:".toList, .inr .trueAnd), ("ifFalse:".toList, .inr .trueIfFalse),
      ("ifTrue:ifFalse:".toList, .inr .trueIfElse)].lookup sel
    else if c = 2 then [("not".toList, .inr .falseNot), ("and:".toList, .inr .falseAnd), ("or:".toList, .inr .falseOr), ("ifFalse:".toList, .inr .falseOr), ("ifTrue:ifFalse:".toList, .inr .falseIfElse)].lookup sel
    else if c = 3 ∨ c = 7 then [("+".toList, .inr (.arith .plus)), ("-".toList, .inr (.arith .minus)), ("to:do:".toList, .inr .toDo), ("downTo:do:".toList, .inr .downToDo),
      ("to:by:do:".toList, .inr .toByDo), ("perform:".toList, .inr .perform), ("perform:withArguments:".toList, .inr .performWith)].lookup sel
    else if c = 5 then [("value".toList, .inr .value), ("whileTrue:".toList, .inr .whileTrue), ("whileFalse:".toList, .inr .whileFalse)].lookup sel
    else if c = 6 then [("do:".toList, .inr .arrDo), ("doIndexes:".toList, .inr .arrIndexes)].lookup sel
    else if c = 9 then [("down:".toList, .inl ())].lookup sel
    else none
  nilCls := 0
  truCls := 1
  flsCls := 2
  intCls := 3
  symCls := 4
  dblCls := 7
  strCls := 8
  arrCls := 6
  blkCls := fun _ => 5
  blkArgs := fun _ => 1
  catches := fun _ => true
  clsObj := fun c => 100 + c
  nflds := fun _ => 0

/-- Doubles that are integers, to have some. -/
def tinyFloats : Floats Int where
  ofInt := .ok
  one := 1
  add := (· + ·)
  sub := (· - ·)
  mul := (· * ·)
  div := fun x y => .ok (x / y)
  fmod := fun x y => .ok (x % y)
  lt := fun x y => decide (x < y)
  le := fun x y => decide (x ≤ y)
  gt := fun x y => decide (x > y)
  ge := fun x y => decide (x ≥ y)
  eq := fun x y => decide (x = y)
  eqInt := fun x y => decide (x = y)
  toInt := .ok
  trueDiv := fun x y => .ok (x / y)
  leI := fun x y => decide (x ≤ y)
  geI := fun x y => decide (x ≥ y)
  sqrt := fun x => if x < 0 then .error .value else .ok x
  round := .ok
  infinity := 1000

theorem tiny_numbers : tinyImage.Numbers := ⟨⟨3, rfl⟩, ⟨7, rfl⟩, ⟨3, rfl⟩, ⟨7, rfl⟩⟩

theorem tiny_booleans : tinyImage.Booleans :=
  ⟨⟨1, rfl⟩, ⟨2, rfl⟩, ⟨1, rfl⟩, ⟨2, rfl⟩, ⟨1, rfl⟩, ⟨2, rfl⟩, ⟨1, rfl⟩, ⟨1, rfl⟩, ⟨2, rfl⟩, ⟨1, rfl⟩, ⟨2, rfl⟩⟩

theorem tiny_owns : tinyImage.Owns fun _ => 9 := by
  intro c sel i h
  simp only [tinyImage] at h
  by_cases h1 : c = 1
  · subst h1; simp only [if_true, List.lookup] at h; repeat' split at h
    all_goals cases h
  by_cases h2 : c = 2
  · subst h2; simp only [h1, if_false, if_true, List.lookup] at h; repeat' split at h
    all_goals cases h
  by_cases h3 : c = 3 ∨ c = 7
  · simp only [h1, h2, h3, if_false, if_true, List.lookup] at h; repeat' split at h
    all_goals cases h
  by_cases h5 : c = 5
  · simp only [h3, h5, if_false, if_true, List.lookup] at h; simp at h; repeat' split at h
    all_goals cases h
  by_cases h6 : c = 6
  · simp only [h1, h2, h3, h5, h6, if_false, if_true, List.lookup] at h; simp at h; repeat' split at h
    all_goals cases h
  by_cases h9 : c = 9
  · exact h9.symm
  simp [h1, h2, h3, h5, h6, h9] at h

/-- A block that prints a letter, whatever its arguments are. -/
def ticks : Behaviour Unit (St (Data Int) Printed) Esc where
  meth := fun _ _ _ _ => False
  blk := fun _ w r w' => r = .val .nil ∧ w' = { w with sh := { w.sh with ext := { w.sh.ext with out := w.sh.ext.out ++ ['x'] } } }

def tinyStart : St (Data Int) Printed := ⟨⟨[.block 0 none 9, .data 6 (.arr [.tru, .fls])], fun _ => none, ⟨[], []⟩⟩, [], 0⟩

/-- `5 to: 6 do: blk` and `#(true false) do: blk` evaluate the block twice. -/
example : (∃ w', (tinyImage.prog .rpython tinyFloats).sends ticks "to:do:" [.int 5, .int 6, .obj 0] tinyStart (.val (.int 5)) w' ∧ w'.sh.ext.out = ['x', 'x'] ∧ w'.frames.length = 2) ∧
    (∃ w', (tinyImage.prog .rpython tinyFloats).sends ticks "do:" [.obj 1, .obj 0] tinyStart (.val .nil) w' ∧ w'.sh.ext.out = ['x', 'x'] ∧ w'.frames.length = 2) := by
  let f (v : Val) : Frame := ⟨[.obj 0, v], fun _ => .nil, none, 9, false, false⟩
  let sh (o : List Char) : Mem Int := ⟨[.block 0 none 9, .data 6 (.arr [.tru, .fls])], fun _ => none, ⟨o, []⟩⟩
  have one : ∀ (v : Val) (o : List Char) (fs : List Frame) (fs' : List Frame), (fs ++ [Frame.mk [.obj 0, v] (fun _ => .nil) none 9 true false]).modify fs.length (fun x => { x with on := false }) = fs' →
      (tinyImage.prog .rpython tinyFloats).evals ticks [.obj 0, v] ⟨sh o, fs, 0⟩ (.val .nil) ⟨sh (o ++ ['x']), fs', 0⟩ := by
    rintro v o fs fs' rfl
    exact ⟨.val .nil, rfl, Do.blk (G := tinyImage.prog .rpython tinyFloats) (b := ticks) 0 none 9 [.obj 0, v] ⟨sh o, fs, 0⟩ (.val .nil)
      ⟨sh (o ++ ['x']), fs ++ [Frame.mk [.obj 0, v] (fun _ => .nil) none 9 true false], fs.length⟩ (And.intro rfl rfl)⟩
  refine ⟨⟨⟨sh ['x', 'x'], [f (.int 5), f (.int 6)], 0⟩, ?_, rfl, rfl⟩, ⟨⟨sh ['x', 'x'], [f .tru, f .fls], 0⟩, ?_, rfl, rfl⟩⟩
  · refine (C71_to_do_partial (r := .val (.int 5)) 5 6 (.inr (by decide)) ⟨0, 0, none, 9, rfl, rfl⟩ ⟨3, rfl⟩).2 ?_
    exact .inl ⟨.nil, _, one (.int 5) [] [] [f (.int 5)] rfl, .inl ⟨.nil, _, one (.int 6) ['x'] [f (.int 5)] [f (.int 5), f (.int 6)] rfl, rfl, rfl⟩⟩
  · have ha : ∀ o fs, IsArray (Y := Printed) (⟨sh o, fs, 0⟩ : St (Data Int) Printed) (.obj 1) [.tru, .fls] := fun o fs => ⟨1, 6, rfl, rfl⟩
    refine (C71_do_partial (r := .val .nil) (ha [] []) ⟨0, 0, none, 9, rfl, rfl⟩ rfl ⟨6, rfl⟩).2 ?_
    exact .inl ⟨.nil, _, .inl ⟨.tru, _, ⟨rfl, .inl ⟨_, ha _ _, rfl⟩⟩, one .tru [] [] [f .tru] rfl⟩,
      .inl ⟨.nil, _, .inl ⟨.fls, _, ⟨rfl, .inl ⟨_, ha _ _, rfl⟩⟩, one .fls ['x'] [f .tru] [f .tru, f .fls] rfl⟩, rfl, rfl⟩⟩

/-- `1 + 2^70` in the translated VM. -/
example : Num.Spec.Denotes .rpython (tinyImage.num ⟨[.data 3 (.big (2 ^ 70))], fun _ => none, ⟨[], []⟩⟩ (.obj 0) : Num.Num Int) (2 ^ 70) := ⟨trivial, rfl⟩

/-- The hypotheses of the theorems about whole programs are met by the program of C66 and C67. -/
example : ∃ q : Compiled2 Unit, q.src = (fun _ => downMethod) ∧ q.Ok True True True False True (fun _ => false) (fun _ => .nil) 5 ∧ Apart q ∧ tinyImage.Numbers ∧ tinyImage.Owns (fun _ => 9) ∧
    tinyFloats.ofInt 1 = .ok tinyFloats.one ∧ (∀ c, tinyImage.find c escapedBlock = none) ∧ (∀ i, (q.src i).body.throws false = true → tinyImage.catches i = true) := by
  obtain ⟨q, h1, h2, h3, _⟩ := small_run
  refine ⟨q, h1, h2, h3, tiny_numbers, tiny_owns, rfl, fun c => ?_, fun _ _ => rfl⟩
  have : tinyImage.table c escapedBlock = none := by
    unfold tinyImage
    dsimp only
    by_cases h1 : c = 1
    · rw [if_pos h1]; rfl
    by_cases h2 : c = 2
    · rw [if_neg h1, if_pos h2]; rfl
    by_cases h3 : c = 3 ∨ c = 7
    · rw [if_neg h1, if_neg h2, if_pos h3]; rfl
    by_cases h5 : c = 5
    · rw [if_neg h1, if_neg h2, if_neg h3, if_pos h5]; rfl
    by_cases h6 : c = 6
    · rw [if_neg h1, if_neg h2, if_neg h3, if_neg h5, if_pos h6]; rfl
    by_cases h9 : c = 9
    · rw [if_neg h1, if_neg h2, if_neg h3, if_neg h5, if_neg h6, if_pos h9]; rfl
    rw [if_neg h1, if_neg h2, if_neg h3, if_neg h5, if_neg h6, if_neg h9]
  show List.findSome? _ [c] = none
  rw [List.findSome?_cons, this]
  rfl

end PySOM.Mach

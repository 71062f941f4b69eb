import Verif.Props.Compile
import Verif.Lemmas.Plain
/-!
# C30, C33: the code of a method does what its source says

`Src.body` (Spec/Source) is the meaning of a method or block as a relation between the state before, the outcome (answer or exception)
and the state after, for an arbitrary `World`: it may read and write any state, and says how messages, variables, globals and non-local
returns behave.  `Means` says what the bodies of inlined blocks mean; `blocksOf_means` shows that there is always such a meaning.
-/
set_option autoImplicit false
namespace PySOM.BC
open PySOM

section
variable {M X W E : Type}

theorem out_cases {o : Out W E} {f : Cfg W E} {r : Src.Res E} {w' : W} (hs : r.stops) (ho : o = r.out [] w') (hf : o.cfg 0 = f) :
    (∃ v, r = .ret v ∧ f = .done v w') ∨ (∃ e, r = .exc e ∧ f = .raised e w') := by
  subst ho
  cases r with
  | val v => exact hs.elim
  | ret v => exact .inl ⟨v, rfl, hf.symm⟩
  | exc e => exact .inr ⟨e, rfl, hf.symm⟩

/-- Runs of encoded code, by what the code means. -/
theorem run_of_sem {A : World M W E} {c : SC M} {R : Src.Rel W E} {C : Code M} {d : Nat} (hs : Sem A c [] R) (he : Enc C.lits c C.bytes) (ht : c.ty 0 = some d)
    (hm : c.maxd 0 ≤ C.max) (hr : c.returns = true) (w : W) :
    (∀ v w', (∃ n, Steps A C n (Code.start w) (.done v w')) ↔ R w (.ret v) w') ∧
    (∀ e w', (∃ n, Steps A C n (Code.start w) (.raised e w')) ↔ R w (.exc e) w') := by
  constructor
  · intro v w'
    rw [method_run he ht hm hr w (.done v w') trivial]
    constructor
    · rintro ⟨o, h1, h2, h3⟩
      obtain ⟨r, w1, hR, rfl⟩ := (hs [] w o).mp h1
      rcases out_cases (Src.Res.out_stops.mp h2) rfl h3 with ⟨v', rfl, e⟩ | ⟨v', rfl, e⟩
      · cases e; exact hR
      · cases e
    · intro h
      exact ⟨_, (hs [] w _).mpr ⟨_, _, h, rfl⟩, trivial, rfl⟩
  · intro v w'
    rw [method_run he ht hm hr w (.raised v w') trivial]
    constructor
    · rintro ⟨o, h1, h2, h3⟩
      obtain ⟨r, w1, hR, rfl⟩ := (hs [] w o).mp h1
      rcases out_cases (Src.Res.out_stops.mp h2) rfl h3 with ⟨v', rfl, e⟩ | ⟨v', rfl, e⟩
      · cases e
      · cases e; exact hR
    · intro h
      exact ⟨_, (hs [] w _).mpr ⟨_, _, h, rfl⟩, trivial, rfl⟩

/-- **C33** (partial): running the bytes of a compiled method or block gives an answer, or an exception, and a final state exactly if
evaluating the source does.  Missing: `e + 1` and `e - 1` are compiled to instructions, so if they occur these instructions have to do
what the messages do; and the symbol `#ArraySizeLiteralPlaceholder` must not occur in a literal array (`wf`). -/
theorem C33_compiler_correct_partial {I : Inliner M X} (hI : I.OK) {isBlock : Bool} {lvl : Nat} {env : X} {b : Body M} {g : G M X} {C : Code M}
    (hw : b.wf (I.good lvl)) (hlv : isBlock = true ↔ 1 ≤ lvl) (hc : compile I.run isBlock lvl env b = .ok g) (ha : assemble g = .ok C)
    (A : World M W E) {B : Src.Blocks M X W E} (hB : Means A I lvl B)
    (hN : Src.needsBody (Src.IncIsPlus A (Src.messages A)) (Src.IncFieldIsPlus A (Src.messages A)) b) (w : W) :
    (∀ v w', (∃ n, Steps A C n (Code.start w) (.done v w')) ↔ Src.body A (Src.messages A) B isBlock lvl b env w (.ret v) w') ∧
    (∀ e w', (∃ n, Steps A C n (Code.start w) (.raised e w')) ↔ Src.body A (Src.messages A) B isBlock lvl b env w (.exc e) w') := by
  obtain ⟨he, d, ht, hm⟩ := compile_ok hI hw hlv hc
  obtain ⟨_, rfl⟩ := assemble_ok ha
  exact run_of_sem (sem_body isBlock lvl hB b (false, env) hw hN) he ht (by show _ ≤ (g.maxDepth + 2 + 2).toNat; omega)
    (genBody_returns I isBlock lvl b (false, env)) w

/-- **C30** (partial): the optimised code of a method or block and the code without the rewritings give the same answers, exceptions and
final states.  Missing: if a field is incremented (`f := f + 1`), the instruction for it has to do what reading, incrementing and storing
does; it does not when a number overflows (`C30_violated_field_overflow`). -/
theorem C30_optimisations_preserve_partial {I : Inliner M X} (hI : I.OK) {isBlock : Bool} {lvl : Nat} {env : X} {b : Body M} {g : G M X} {C : Code M}
    (hw : b.wf (I.good lvl)) (hlv : isBlock = true ↔ 1 ≤ lvl) (hc : compile I.run isBlock lvl env b = .ok g) (ha : assemble g = .ok C)
    (A : World M W E) (hN : Src.needsBody True (Src.IncFieldIsPlus A (Src.machine A)) b)
    {C' : Code M} {d : Nat} (he' : Enc C'.lits (Plain.body I isBlock lvl b env) C'.bytes) (ht' : (Plain.body I isBlock lvl b env).ty 0 = some d)
    (hm' : (Plain.body I isBlock lvl b env).maxd 0 ≤ C'.max) (w : W) :
    (∀ v w', (∃ n, Steps A C n (Code.start w) (.done v w')) ↔ (∃ n, Steps A C' n (Code.start w) (.done v w'))) ∧
    (∀ e w', (∃ n, Steps A C n (Code.start w) (.raised e w')) ↔ (∃ n, Steps A C' n (Code.start w) (.raised e w'))) := by
  obtain ⟨he, d, ht, hm⟩ := compile_ok hI hw hlv hc
  obtain ⟨_, rfl⟩ := assemble_ok ha
  have hB := blocksOf_means (A := A) hI lvl
  have hN' : Src.needsBody (Src.IncIsPlus A (Src.machine A)) (Src.IncFieldIsPlus A (Src.machine A)) b := by
    have : Src.IncIsPlus A (Src.machine A) = True := eq_true ⟨fun _ _ _ _ => Iff.rfl, fun _ _ _ _ => Iff.rfl⟩
    rw [this]; exact hN
  have h1 := run_of_sem (sem_body isBlock lvl hB b (false, env) hw hN') (C := ⟨g.lits, g.bytes, (g.maxDepth + 2 + 2).toNat⟩) he ht
    (by show _ ≤ (g.maxDepth + 2 + 2).toNat; omega) (genBody_returns I isBlock lvl b (false, env)) w
  have h2 := run_of_sem (plain_body isBlock lvl hB b env hw) he' ht' hm' (plain_returns I isBlock lvl b env) w
  exact ⟨fun v w' => (h1.1 v w').trans (h2.1 v w').symm, fun v w' => (h1.2 v w').trans (h2.2 v w').symm⟩

/-! ## Cases that meet the hypotheses -/

/-- The method of `Props/Compile` contains no increments. -/
example (A : World Val W E) : Src.needsBody (Src.IncIsPlus A (Src.messages A)) (Src.IncFieldIsPlus A (Src.messages A)) exampleBody := by
  simp only [exampleBody, Src.needsBody, Src.needsEx, Src.needsExs, fusable, true_or, and_self]

/-- `f := f + 1` -/
def incBody : Body Val := .stmt (.asg (.fld "f".toList 0) [] (.inc (.fld "f".toList 0))) .done

/-- `^ x + 1` -/
def plusBody : Body Val := .exit (.inc (.var false 0 0))

theorem compiles (b : Body Val) (h : (match compile literalInliner.run false 0 () b with
    | .ok g => (match assemble g with | .ok _ => true | .error _ => false)
    | .error _ => false) = true) : ∃ g C, compile literalInliner.run false 0 () b = .ok g ∧ assemble g = .ok C := by
  cases hc : compile literalInliner.run false 0 () b with
  | error e => rw [hc] at h; cases h
  | ok g =>
    rw [hc] at h
    cases ha : assemble g with
    | error e => simp only [ha] at h; cases h
    | ok C => exact ⟨g, C, rfl, ha⟩

/-- An object with one field, which is the state; exceptions are not distinguished.  Numbers below `max` are machine integers, and
incrementing the field fails for others, as `inc_field` does. -/
def counter (max : Int) : World Val Int Unit
  | .rdFld _ _, w, r, w' => r = .val (.int w) ∧ w' = w
  | .inc (.int k), w, r, w' => r = .val (.int (k + 1)) ∧ w' = w
  | .wrFld _ _ (.int k), _, r, w' => r = .val (.int k) ∧ w' = k
  | .incFld _ _, w, r, w' => if w + 1 < max then r = .val (.int (w + 1)) ∧ w' = w + 1 else r = .exc () ∧ w' = w
  | .self, w, r, w' => r = .val .nil ∧ w' = w
  | _, w, r, w' => r = .exc () ∧ w' = w

/-- **C30 is violated**: `f := f + 1` compiled with the fused instruction raises an exception when the number overflows, whereas the code
without the rewriting answers and stores the next number. -/
theorem C30_violated_fused_increment (max : Int) : ∃ g C, compile literalInliner.run false 0 () incBody = .ok g ∧ assemble g = .ok C ∧
    (∃ n, Steps (counter max) C n (Code.start (max - 1)) (.raised () (max - 1))) ∧
    (∀ n v w', ¬ Steps (counter max) C n (Code.start (max - 1)) (.done v w')) ∧
    ∀ (C' : Code Val) (d : Nat), Enc C'.lits (Plain.body literalInliner false 0 incBody ()) C'.bytes →
      (Plain.body literalInliner false 0 incBody ()).ty 0 = some d → (Plain.body literalInliner false 0 incBody ()).maxd 0 ≤ C'.max →
      ∃ n, Steps (counter max) C' n (Code.start (max - 1)) (.done .nil max) := by
  obtain ⟨g, C, hc, ha⟩ := compiles incBody (by decide +kernel)
  refine ⟨g, C, hc, ha, ?_⟩
  have hw : incBody.wf (literalInliner.good 0) := by simp only [incBody, Body.wf, Ex.wf, and_self]
  obtain ⟨he, d, ht, hm⟩ := compile_ok literalInliner_ok hw (by decide) hc
  obtain ⟨_, rfl⟩ := assemble_ok ha
  have hs : Sem (counter max) (genBody literalInliner false 0 incBody (false, ())) [] _ :=
    Sem.drop (i := .incFld 0 0) (p := []) (fun s => rfl) (sem_retSelf [])
  have h1 := run_of_sem hs (C := ⟨g.lits, g.bytes, (g.maxDepth + 2 + 2).toNat⟩) he ht
    (by show _ ≤ (g.maxDepth + 2 + 2).toNat; omega) (genBody_returns literalInliner false 0 incBody (false, ())) (max - 1)
  have hx : ¬ (max - 1 + 1 < max) := by omega
  refine ⟨(h1.2 () (max - 1)).mpr ?_, fun n v w' hn => ?_, fun C' d' he' ht' hm' => ?_⟩
  · refine .inr ⟨.inr ⟨(), rfl, ?_⟩, trivial⟩
    simp only [counter, if_neg hx, and_self]
  · have := (h1.1 v w').mp ⟨n, hn⟩
    simp [Src.bind, Src.act, counter, hx, Src.answer] at this
  · have h2 := run_of_sem (plain_body false 0 (blocksOf_means (A := counter max) literalInliner_ok 0) incBody () hw) he' ht' hm'
      (plain_returns literalInliner false 0 incBody ()) (max - 1)
    rw [h2.1]
    simp only [incBody, Src.body, Src.ex, Src.bind_assoc, Src.stores, Src.store, Src.pure_bind]
    refine .inl ⟨.int (max - 1), max - 1, .inl ⟨_, rfl, rfl, rfl⟩, .inl ⟨.int max, max - 1, .inl ⟨_, rfl, ?_, rfl⟩,
      .inl ⟨.int max, max, .inl ⟨_, rfl, rfl, rfl⟩, .inl ⟨.nil, max, .inl ⟨_, rfl, rfl, rfl⟩, rfl, rfl⟩⟩⟩⟩
    show Res.val (.int max) = .val (.int (max - 1 + 1))
    rw [Int.sub_add_cancel]

/-- `f := f + 1` without the rewriting. -/
def incPlain : Code Val := ⟨[], [Op.pushField0, Op.inc, Op.dup, Op.popField0, Op.pop, Op.returnSelf], 2⟩

example : Enc incPlain.lits (Plain.body literalInliner false 0 incBody ()) incPlain.bytes ∧
    (Plain.body literalInliner false 0 incBody ()).ty 0 = some 0 ∧ (Plain.body literalInliner false 0 incBody ()).maxd 0 ≤ incPlain.max := by
  refine ⟨?_, by decide, by decide⟩
  exact .seq _ _ [11, 46, 1, 33] [23, 42]
    (.seq _ _ [11, 46] [1, 33] (.seq _ _ [11] [46] (.ins _ _ fun _ => rfl) (.ins _ _ fun _ => rfl))
      (.seq _ _ [1] [33] (.seq _ _ [1] [] (.ins _ _ fun _ => rfl) .nop) (.seq _ _ [33] [] (.ins _ _ fun _ => rfl) .nop)))
    (.seq _ _ [23] [42] (.ins _ _ fun _ => rfl) (.ins _ _ fun _ => rfl))

/-- Everything answers, but the increment instruction fails: a user-defined class with `+`. -/
def userPlus : World Val Unit Unit
  | .rdVar _ _ _, w, r, w' => r = .val (.obj 7) ∧ w' = w
  | .send _ _, w, r, w' => r = .val (.int 42) ∧ w' = w
  | .inc (.obj _), w, r, w' => r = .exc () ∧ w' = w
  | _, w, r, w' => r = .exc () ∧ w' = w

/-- **C33 is violated**: `^ x + 1`, where `x` is an object of a user-defined class that understands `+`, raises an exception instead of
sending the message (`interpreter.py:491-505`). -/
theorem C33_violated_user_defined_plus : ∃ g C, compile literalInliner.run false 0 () plusBody = .ok g ∧ assemble g = .ok C ∧
    Src.body userPlus (Src.messages userPlus) (blocksOf userPlus literalInliner 0) false 0 plusBody () () (.ret (.int 42)) () ∧
    (∃ n, Steps userPlus C n (Code.start ()) (.raised () ())) ∧ ∀ n v w', ¬ Steps userPlus C n (Code.start ()) (.done v w') := by
  obtain ⟨g, C, hc, ha⟩ := compiles plusBody (by decide +kernel)
  refine ⟨g, C, hc, ha, ?_, ?_⟩
  · simp [plusBody, Src.body, Src.ex, Src.bind, Src.act, userPlus, Src.messages, Src.answer]
  · have hw : plusBody.wf (literalInliner.good 0) := by simp only [plusBody, Body.wf, Ex.wf]
    obtain ⟨he, d, ht, hm⟩ := compile_ok literalInliner_ok hw (by decide) hc
    obtain ⟨_, rfl⟩ := assemble_ok ha
    have hs := sem_body (P := Src.machine userPlus) false 0 (blocksOf_means (A := userPlus) literalInliner_ok 0) plusBody (false, ()) hw
      ⟨⟨fun _ _ _ _ => Iff.rfl, fun _ _ _ _ => Iff.rfl⟩, trivial⟩
    have h1 := run_of_sem hs (C := ⟨g.lits, g.bytes, (g.maxDepth + 2 + 2).toNat⟩) he ht
      (by show _ ≤ (g.maxDepth + 2 + 2).toNat; omega) (genBody_returns literalInliner false 0 plusBody (false, ())) ()
    refine ⟨(h1.2 () ()).mpr ?_, fun n v w' hn => ?_⟩
    · simp [plusBody, Src.body, Src.ex, Src.bind, Src.act, userPlus, Src.machine, Src.answer, Src.Res.stops]
    · have := (h1.1 v w').mp ⟨n, hn⟩
      simp only [plusBody, Src.body, Src.ex, Src.bind_assoc, Bool.false_eq_true, if_false] at this
      rcases this with ⟨v1, w1, ⟨v1', e1, h1, _⟩ | ⟨e, e1, _⟩, h2⟩ | ⟨⟨v1', e1, _⟩ | ⟨e, e1, _⟩, _⟩
      · cases e1
        cases h1
        rcases h2 with ⟨v2, w2, ⟨v2', e2, h3, _⟩ | ⟨e, e2, _⟩, _⟩ | ⟨⟨v2', e2, _⟩ | ⟨e, e2, _⟩, _⟩
        · cases h3
        · cases e2
        · cases e2
        · cases e2
      · cases e1
      · cases e1
      · cases e1

end
end PySOM.BC

import Verif.Lemmas.Source
import Verif.Spec.Plain
/-!
# Code without peephole optimisations does what the source means
-/
set_option autoImplicit false
namespace PySOM.BC
open PySOM

section
variable {M X W E : Type}

mutual
/-- The code of an expression does what the expression means. -/
theorem plain_ex {A : World M W E} {I : Inliner M X} (lvl : Nat) {B : Src.Blocks M X W E} (hB : Means A I lvl B) (e : Ex M) : ∀ (x : X), e.wf (I.good lvl) →
    Sem A (Plain.ex I lvl e x).1 [] (Src.ex A (Src.machine A) B lvl e x) ∧ (Plain.ex I lvl e x).2 = Src.envEx B e x := by
  have blk := hB.body
  intro x hw
  cases e with
  | lit l => simp only [Plain.ex, Src.ex, Src.envEx]; exact ⟨sem_lit A l, trivial⟩
  | glob n =>
    simp only [Plain.ex, Src.ex, Src.envEx, globIns, Src.glob, and_true]
    show Sem A (.ins (if n = "nil".toList then _ else if n = "true".toList then _ else if n = "false".toList then _ else _)) _ _
    split
    · exact sem_const _
    · split
      · exact sem_const _
      · split
        · exact sem_const _
        · exact sem_act fun _ => rfl
  | var a i l => simp only [Plain.ex, Src.ex, Src.envEx]; exact ⟨sem_act fun _ => rfl, trivial⟩
  | fld n i => simp only [Plain.ex, Src.ex, Src.envEx]; exact ⟨sem_act fun _ => rfl, trivial⟩
  | blk c m => simp only [Plain.ex, Src.ex, Src.envEx]; exact ⟨sem_act fun _ => rfl, trivial⟩
  | asg t ts e =>
    simp only [Ex.wf] at hw
    obtain ⟨h1, h2⟩ := plain_ex lvl hB e x hw
    simp only [Plain.ex, Src.envEx]
    simp only [Src.ex]
    exact ⟨Sem.seq h1 fun v => sem_dups (ts.length + 1) [] (sem_pops (t :: ts)), h2⟩
  | inc e =>
    simp only [Ex.wf] at hw
    obtain ⟨h1, h2⟩ := plain_ex lvl hB e x hw
    simp only [Plain.ex, Src.envEx, Src.ex]
    exact ⟨Sem.seq h1 fun v => sem_act fun _ => rfl, h2⟩
  | dec e =>
    simp only [Ex.wf] at hw
    obtain ⟨h1, h2⟩ := plain_ex lvl hB e x hw
    simp only [Plain.ex, Src.envEx, Src.ex]
    exact ⟨Sem.seq h1 fun v => sem_act fun _ => rfl, h2⟩
  | superSend sel r as =>
    simp only [Ex.wf] at hw
    obtain ⟨h1, h2⟩ := plain_ex lvl hB r x hw.1
    obtain ⟨h3, h4⟩ := plain_exs lvl hB as (Plain.ex I lvl r x).2 hw.2.1
    simp only [Plain.ex, Src.envEx, Src.ex]
    rw [h2] at h3 h4
    rw [h2]
    refine ⟨Sem.seq h1 fun v => h3 [v] _ _ fun vs hvs => ?_, h4⟩
    exact sem_act fun s => (send_eff sel _ v vs s (by rw [hw.2.2, hvs])).2
  | send sel r as =>
    simp only [Ex.wf] at hw
    obtain ⟨h1, h2⟩ := plain_ex lvl hB r x hw.1
    obtain ⟨h3, h4⟩ := plain_exs lvl hB as (Plain.ex I lvl r x).2 hw.2.1
    rw [h2] at h3 h4
    simp only [Plain.ex, Src.envEx, Src.ex]
    have wa := hw.2.1
    have wr := hw.1
    cases hin : inlined? sel r as with
    | none =>
      simp only [Plain.send]
      rw [h2]
      refine ⟨Sem.seq h1 fun v => h3 [v] _ _ fun vs hvs => ?_, h4⟩
      exact sem_act fun s => (send_eff sel _ v vs s (by rw [hw.2.2, hvs])).1
    | some i =>
      unfold inlined? at hin
      split at hin <;> cases hin
      · simp only [Exs.wf, Ex.wf, and_true] at wa
        simp only [Plain.send, Src.inlined, Src.inlinedEnv, h2, hB.env]
        exact ⟨Sem.seq h1 fun v => sem_thenB (blk _ _ wa), trivial⟩
      · simp only [Exs.wf, Ex.wf, and_true] at wa
        simp only [Plain.send, Src.inlined, Src.inlinedEnv, h2, hB.env]
        exact ⟨Sem.seq h1 fun v => sem_ifElse (blk _ _ wa.1) (blk _ _ wa.2), trivial⟩
      · simp only [Exs.wf, Ex.wf, and_true] at wa wr
        simp only [Plain.send, Src.inlined, Src.inlinedEnv, h2, hB.env]
        exact ⟨sem_while _ (blk _ _ wr) (blk _ _ wa), trivial⟩
      · simp only [Exs.wf, Ex.wf, and_true] at wa
        simp only [Plain.send, Src.inlined, Src.inlinedEnv, h2, hB.env]
        exact ⟨Sem.seq h1 fun v => sem_andOr _ (blk _ _ wa), trivial⟩
/-- Arguments. -/
theorem plain_exs {A : World M W E} {I : Inliner M X} (lvl : Nat) {B : Src.Blocks M X W E} (hB : Means A I lvl B) (es : Exs M) : ∀ (x : X), es.wf (I.good lvl) →
    (∀ (pre : List Val) (c : SC M) (k : List Val → Src.Rel W E), (∀ vs, vs.length = es.length → Sem A c (vs.reverse ++ pre) (k vs)) →
      Sem A (.seq (Plain.exs I lvl es x).1 c) pre (Src.exs A (Src.machine A) B lvl es x k)) ∧
    (Plain.exs I lvl es x).2 = Src.envExs B es x := by
  intro x hw
  cases es with
  | nil =>
    simp only [Plain.exs, Src.exs, Src.envExs]
    exact ⟨fun pre c k h => Sem.nopSeq (h [] rfl), trivial⟩
  | cons e es =>
    simp only [Exs.wf] at hw
    obtain ⟨h1, h2⟩ := plain_ex lvl hB e x hw.1
    obtain ⟨h3, h4⟩ := plain_exs lvl hB es (Plain.ex I lvl e x).2 hw.2
    rw [h2] at h3 h4
    simp only [Plain.exs, Src.exs, Src.envExs]
    rw [h2]
    refine ⟨fun pre c k h => Sem.assoc (Sem.seq h1 fun v => h3 (v :: pre) c _ fun vs hvs => ?_), h4⟩
    have := h (v :: vs) (by simp only [List.length_cons, Exs.length, hvs])
    rw [List.reverse_cons, List.append_assoc] at this
    exact this
end

theorem plain_body {A : World M W E} {I : Inliner M X} (isBlock : Bool) (lvl : Nat) {B : Src.Blocks M X W E} (hB : Means A I lvl B) : ∀ (b : Body M) (x : X), b.wf (I.good lvl) →
    Sem A (Plain.body I isBlock lvl b x) [] (Src.body A (Src.machine A) B isBlock lvl b x)
  | .done, x, _ => by
    cases isBlock
    · simp only [Plain.body, Src.body, Bool.false_eq_true, if_false]; exact sem_retSelf []
    · simp only [Plain.body, Src.body, if_true]; exact Sem.constSeq (sem_retLocal _ _)
  | .exitSelf, x, _ => by simp only [Plain.body, Src.body]; exact sem_retSelf []
  | .last e, x, hw => by
    simp only [Body.wf] at hw
    cases isBlock
    · simp only [Plain.body, Src.body, Bool.false_eq_true, if_false]
      exact Sem.seq (plain_ex lvl hB e x hw).1 fun v => sem_retSelf _
    · simp only [Plain.body, Src.body, if_true]
      exact Sem.seq (plain_ex lvl hB e x hw).1 fun v => sem_retLocal v _
  | .exit e, x, hw => by
    simp only [Body.wf] at hw
    cases isBlock
    · simp only [Plain.body, Src.body, Bool.false_eq_true, if_false]
      exact Sem.seq (plain_ex lvl hB e x hw).1 fun v => sem_retLocal v _
    · simp only [Plain.body, Src.body, if_true]
      exact Sem.seq (plain_ex lvl hB e x hw).1 fun v => sem_ret fun _ => rfl
  | .stmt e rest, x, hw => by
    simp only [Body.wf] at hw
    obtain ⟨h1, h2⟩ := plain_ex lvl hB e x hw.1
    have general : Sem A (.seq (Plain.ex I lvl e x).1 (.seq (.ins .pop) (Plain.body I isBlock lvl rest (Plain.ex I lvl e x).2))) []
        (Src.bind (Src.ex A (Src.machine A) B lvl e x) fun _ => Src.body A (Src.machine A) B isBlock lvl rest (Src.envEx B e x)) := by
      have := plain_body isBlock lvl hB rest (Plain.ex I lvl e x).2 hw.2
      rw [h2] at this ⊢
      exact Sem.seq h1 fun v => Sem.pop this
    cases rest with
    | done =>
      cases isBlock
      · simp only [Plain.body, Src.body, Bool.false_eq_true, if_false]
        exact Sem.seq h1 fun v => Sem.pop (sem_retSelf [])
      · simp only [Plain.body, Src.body, if_true]
        exact Sem.seq h1 fun v => sem_retLocal v _
    | last e' => exact general
    | stmt e' r => exact general
    | exit e' => exact general
    | exitSelf => exact general

theorem plain_returns (I : Inliner M X) (isBlock : Bool) (lvl : Nat) : ∀ (b : Body M) (x : X), (Plain.body I isBlock lvl b x).returns = true
  | .done, x => by cases isBlock <;> simp [Plain.body, SC.returns]
  | .last e, x => by cases isBlock <;> simp [Plain.body, SC.returns]
  | .exit e, x => by cases isBlock <;> simp [Plain.body, SC.returns]
  | .exitSelf, x => by simp [Plain.body, SC.returns]
  | .stmt e rest, x => by
    have ih := plain_returns I isBlock lvl rest
    cases rest with
    | done => cases isBlock <;> simp [Plain.body, SC.returns]
    | last e' => simp only [Plain.body, SC.returns] at ih ⊢; simp [ih]
    | stmt e' r => simp only [Plain.body, SC.returns, ih, Bool.or_true]
    | exit e' => simp only [Plain.body, SC.returns] at ih ⊢; simp [ih]
    | exitSelf => simp [Plain.body, SC.returns]

end
end PySOM.BC

import Verif.Lemmas.Engines
import Verif.Spec.Reference
/-!
# The variables of a text are declared

What the parser resolves to a local variable is one of the variables of that scope (`Body.bound`).
-/
set_option autoImplicit false
namespace PySOM.Elab
open PySOM PySOM.Parse PySOM.BC

/-- The variables of the contexts. -/
def chainOf (Γ : List NScope) : List (List Nat) := Γ.map fun S => S.locals.map Prod.snd

theorem findVar_bound (Γ : List NScope) (x : Name) : ∀ (lvl i l : Nat), findVar Γ x lvl = some (false, i, l) → lvl ≤ l ∧ ∃ vs, (chainOf Γ)[l - lvl]? = some vs ∧ i < vs.length := by
  induction Γ with
  | nil => intro lvl i l h; cases h
  | cons S Γ ih =>
    intro lvl i l h
    rw [findVar] at h
    split at h
    · next j hj =>
      cases h
      refine ⟨Nat.le_refl _, S.locals.map Prod.snd, by rw [Nat.sub_self]; rfl, ?_⟩
      rw [List.length_map]
      exact (List.findIdx?_eq_some_iff_findIdx_eq.1 hj).1
    · split at h
      · cases h
      · obtain ⟨h1, vs, h2, h3⟩ := ih (lvl + 1) i l h
        refine ⟨by omega, vs, ?_, h3⟩
        rw [show l - lvl = (l - (lvl + 1)) + 1 by omega]
        exact h2

theorem pushVariable_bound (Γ : Ctx) (x : Name) : (pushVariable Γ x).bound (chainOf Γ.scopes) := by
  unfold pushVariable
  cases h : findVar Γ.scopes x 0 with
  | none =>
    dsimp only
    split <;> trivial
  | some p =>
    obtain ⟨a, i, l⟩ := p
    cases a with
    | true => trivial
    | false => exact (findVar_bound Γ.scopes x 0 i l h).2

theorem popVariable_bound {Γ : Ctx} {x : Name} {t : Tgt} (h : popVariable Γ x = .ok t) : t.bound (chainOf Γ.scopes) := by
  unfold popVariable at h
  cases hf : findVar Γ.scopes x 0 with
  | none =>
    rw [hf] at h
    dsimp only at h
    split at h
    · cases h; trivial
    · cases h
  | some p =>
    rw [hf] at h
    obtain ⟨a, i, l⟩ := p
    cases h
    cases a with
    | true => trivial
    | false => exact (findVar_bound Γ.scopes x 0 i l hf).2

theorem popVariables_bound {Γ : Ctx} : ∀ {xs : List Name} {ts : List Tgt}, popVariables Γ xs = .ok ts → ∀ t ∈ ts, t.bound (chainOf Γ.scopes)
  | [], ts, h => by cases h; exact fun _ h => nomatch h
  | x :: xs, ts, h => by
    simp only [popVariables] at h
    obtain ⟨t, h1, h⟩ := except_bind_ok h
    obtain ⟨ts', h2, h⟩ := except_bind_ok h
    cases h
    intro u hu
    rcases List.mem_cons.1 hu with rfl | hu
    · exact popVariable_bound h1
    · exact popVariables_bound h2 u hu

mutual
theorem expr_bound (N : Numbers) (Γ : Ctx) (s : St) (t : Tree) : ∀ (e : Ex SBlock) (s' : St), expr N Γ s t = .ok (e, s') → e.bound (chainOf Γ.scopes) := by
  match t with
  | .var x =>
    intro e s' h
    obtain ⟨rfl, rfl⟩ := pairInv h
    exact pushVariable_bound Γ x
  | .lit l =>
    intro e s' h
    simp only [expr] at h
    obtain ⟨⟨l', s1⟩, h1, h⟩ := except_bind_ok h
    obtain ⟨rfl, rfl⟩ := pairInv h
    simp only [Ex.bound]
  | .send sup sel r as =>
    intro e s' h
    simp only [expr] at h
    obtain ⟨⟨r', s1⟩, h1, h⟩ := except_bind_ok h
    have a := expr_bound N Γ s r r' s1 h1
    dsimp only at h
    split at h
    · obtain ⟨rfl, rfl⟩ := pairInv h
      split <;> (simp only [Ex.bound]; exact a)
    · obtain ⟨⟨as', s2⟩, h2, h⟩ := except_bind_ok h
      obtain ⟨rfl, rfl⟩ := pairInv h
      have b := args_bound N Γ s1.choose.2 as as' _ h2
      cases sup <;> (simp only [Bool.false_eq_true, if_false, if_true, Ex.bound]; exact ⟨a, b⟩)
  | .assign xs v =>
    intro e s' h
    simp only [expr] at h
    obtain ⟨⟨v', s1⟩, h1, h⟩ := except_bind_ok h
    obtain ⟨ts, h2, h⟩ := except_bind_ok h
    have a := expr_bound N Γ s v v' s1 h1
    have b := popVariables_bound h2
    cases ts with
    | nil => obtain ⟨rfl, rfl⟩ := pairInv h; exact a
    | cons t ts => obtain ⟨rfl, rfl⟩ := pairInv h; simp only [Ex.bound]; exact ⟨a, b⟩
  | .block ps ls ts ex =>
    intro e s' h
    simp only [expr] at h
    obtain ⟨S, h1, h⟩ := except_bind_ok h
    obtain ⟨⟨b, s1⟩, h2, h⟩ := except_bind_ok h
    obtain ⟨rfl, rfl⟩ := pairInv h
    simp only [Ex.bound, SBlock.bound]
    exact body_bound N true _ _ ex ts b _ h2
theorem args_bound (N : Numbers) (Γ : Ctx) (s : St) (ts : List Tree) : ∀ (es : Exs SBlock) (s' : St), args N Γ s ts = .ok (es, s') → es.bound (chainOf Γ.scopes) := by
  match ts with
  | [] =>
    intro es s' h
    cases h
    trivial
  | t :: ts =>
    intro es s' h
    simp only [args] at h
    obtain ⟨⟨e, s1⟩, h1, h⟩ := except_bind_ok h
    obtain ⟨⟨es', s2⟩, h2, h⟩ := except_bind_ok h
    obtain ⟨rfl, rfl⟩ := pairInv h
    exact ⟨expr_bound N Γ s t e s1 h1, args_bound N Γ s1 ts es' _ h2⟩
theorem body_bound (N : Numbers) (isBlock : Bool) (Γ : Ctx) (s : St) (ex : Bool) (ts : List Tree) : ∀ (b : Body SBlock) (s' : St), body N isBlock Γ s ex ts = .ok (b, s') →
    b.bound (chainOf Γ.scopes) := by
  match ts with
  | [] =>
    intro b s' h
    cases h
    trivial
  | t :: ts =>
    intro b s' h
    simp only [body] at h
    split at h
    · split at h
      · obtain ⟨rfl, rfl⟩ := pairInv h; trivial
      · obtain ⟨⟨e, s1⟩, h1, h⟩ := except_bind_ok h
        obtain ⟨rfl, rfl⟩ := pairInv h
        exact expr_bound N Γ _ t e _ h1
    · obtain ⟨⟨e, s1⟩, h1, h⟩ := except_bind_ok h
      have a := expr_bound N Γ _ t e _ h1
      dsimp only at h
      split at h
      · obtain ⟨rfl, rfl⟩ := pairInv h; exact a
      · obtain ⟨⟨b', s2⟩, h2, h⟩ := except_bind_ok h
        obtain ⟨rfl, rfl⟩ := pairInv h
        exact ⟨a, body_bound N isBlock Γ _ ex ts b' _ h2⟩
end

theorem methodAt_bound {N : Numbers} {fields : List Name} {n o : Nat} {bits : List Bool} {ps ls : List Name} {ts : List Tree} {ex : Bool} {S : SMethod} {s : St}
    (h : methodAt N fields n o bits ps ls ts ex = .ok (S, s)) : S.body.bound [S.env] := by
  unfold methodAt at h
  obtain ⟨sc, h1, h⟩ := except_bind_ok h
  obtain ⟨⟨b, s1⟩, h2, h⟩ := except_bind_ok h
  obtain ⟨rfl, rfl⟩ := pairInv h
  exact body_bound N false _ _ ex ts b _ h2

end PySOM.Elab

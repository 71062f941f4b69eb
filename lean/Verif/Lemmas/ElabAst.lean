import Verif.Model.ElabAst
import Verif.Spec.Elab
import Verif.Lemmas.Elab
/-! # The names of the AST parser and those of the bytecode parser -/
set_option autoImplicit false
namespace PySOM.Elab
open PySOM PySOM.Parse PySOM.BC PySOM.Elab.Spec

theorem toOption_bind {ε α β : Type} (x : Except ε α) (f : α → Except ε β) : (x >>= f).toOption = x.toOption.bind fun a => (f a).toOption := by
  cases x <;> rfl

theorem toOption_some {ε α : Type} (a : α) : (Except.ok a : Except ε α).toOption = some a := rfl

theorem toOption_ok {ε α : Type} {x : Except ε α} {a : α} : x = .ok a ↔ x.toOption = some a := by
  cases x with
  | ok b => exact ⟨fun h => congrArg _ (Except.ok.inj h), fun h => congrArg _ (Option.some.inj h)⟩
  | error _ => exact ⟨fun h => (nomatch h), fun h => (nomatch h)⟩

mutual
theorem ast_literal (N : Numbers) (s : St) (l : Parse.Lit) : Ast.literal N s l = literal N s l := by
  match l with
  | .int neg text => rfl
  | .dbl _ text => rfl
  | .str _ => rfl
  | .sym text => rfl
  | .arr es => simp only [Ast.literal, literal, ast_literals N s es]
theorem ast_literals (N : Numbers) (s : St) (ls : List Parse.Lit) : Ast.literals N s ls = literals N s ls := by
  match ls with
  | [] => rfl
  | e :: es =>
    simp only [Ast.literals, literals, ast_literal N s e]
    congr 1
    funext p
    rw [ast_literals N _ es]
end

/-- The two ways to find a variable. -/
theorem find_get (Γ : List NScope) (x : Name) (l : Nat) : findVar Γ x l = match Ast.getVariable Γ x with
    | some (a, i) => (Ast.getContextLevel Γ x).toOption.map fun k => (a, i, l + k)
    | none => none := by
  induction Γ generalizing l with
  | nil => rfl
  | cons S Γ ih =>
    simp only [findVar, Ast.getVariable, Ast.getContextLevel]
    cases h1 : indexOf S.locals x with
    | some i => simp [Except.toOption]
    | none =>
      cases h2 : indexOf S.args x with
      | some i => simp [Except.toOption]
      | none =>
        simp only [ih, Option.isSome_none, Bool.false_eq_true, or_self, if_false, toOption_bind]
        cases Ast.getVariable Γ x with
        | none => rfl
        | some p =>
          cases (Ast.getContextLevel Γ x) with
          | error _ => rfl
          | ok k => simp [Except.toOption]; omega

theorem get_level (Γ : List NScope) (x : Name) : (Ast.getVariable Γ x).isSome = (Ast.getContextLevel Γ x).toOption.isSome := by
  induction Γ with
  | nil => rfl
  | cons S Γ ih =>
    simp only [Ast.getVariable, Ast.getContextLevel]
    cases h1 : indexOf S.locals x with
    | some i => simp [Except.toOption]
    | none =>
      cases h2 : indexOf S.args x with
      | some i => simp [Except.toOption]
      | none =>
        simp only [ih, Option.isSome_none, Bool.false_eq_true, or_self, if_false, toOption_bind]
        cases Ast.getContextLevel Γ x <;> rfl

theorem read_eq (Γ : Ctx) (hs : Ast.fieldOf Γ = .ok ()) (x : Name) : Ast.variableRead Γ x = .ok (pushVariable Γ x) := by
  have h1 := find_get Γ.scopes x 0
  have h2 := get_level Γ.scopes x
  unfold Ast.variableRead pushVariable
  cases e : Ast.getVariable Γ.scopes x with
  | none =>
    rw [e] at h1
    simp only [h1, hs]
    cases Γ.fields.idxOf? x <;> rfl
  | some p =>
    rw [e] at h1 h2
    cases e2 : Ast.getContextLevel Γ.scopes x with
    | error _ => rw [e2] at h2; cases h2
    | ok k =>
      rw [e2] at h1
      simp only [h1, Except.toOption, Option.map_some, Nat.zero_add]
      rfl

theorem write_eq (Γ : Ctx) (hs : Ast.fieldOf Γ = .ok ()) (x : Name) : (Ast.variableWrite Γ x).toOption = (popVariable Γ x).toOption := by
  have h1 := find_get Γ.scopes x 0
  have h2 := get_level Γ.scopes x
  unfold Ast.variableWrite popVariable
  cases e : Ast.getVariable Γ.scopes x with
  | none =>
    rw [e] at h1
    simp only [h1, hs]
    cases Γ.fields.idxOf? x <;> rfl
  | some p =>
    rw [e] at h1 h2
    cases e2 : Ast.getContextLevel Γ.scopes x with
    | error _ => rw [e2] at h2; cases h2
    | ok k =>
      rw [e2] at h1
      simp only [h1, Except.toOption, Option.map_some, Nat.zero_add]
      rfl

theorem writes_eq (Γ : Ctx) (hs : Ast.fieldOf Γ = .ok ()) (xs : List Name) : (Ast.variableWrites Γ xs).toOption = (popVariables Γ xs).toOption := by
  induction xs with
  | nil => rfl
  | cons x xs ih =>
    simp only [Ast.variableWrites, popVariables, toOption_bind, ih, write_eq Γ hs]
    cases (popVariable Γ x).toOption <;> cases (popVariables Γ xs).toOption <;> rfl

/-- Entering a block that does not declare `self`. -/
theorem fieldOf_block {Γ : Ctx} (hs : Ast.fieldOf Γ = .ok ()) {n : Nat} {ps ls : List Name} {S : NScope} (h : newScope n blockSelf ps ls = .ok S) (hl : selfName ∉ ls) :
    Ast.fieldOf { Γ with scopes := S :: Γ.scopes } = .ok () := by
  have h0 := h
  unfold newScope at h0
  obtain ⟨_, h1, _⟩ := except_bind_ok h0
  have hps : selfName ∉ ps := fun hm => ((addArguments_ok.1 h1).2 _ hm).2.1 rfl
  obtain ⟨rfl, _, _⟩ := newScope_ok h
  have e1 : indexOf (ls.zipIdx (n + (ps.length + 1))) selfName = none := by
    have := indexOf_isSome (ls.zipIdx (n + (ps.length + 1))) selfName
    rw [zipIdx_fst] at this
    exact Option.not_isSome_iff_eq_none.1 fun h => hl (this.1 h)
  have e2 : indexOf ((blockSelf :: ps).zipIdx n) selfName = none := by
    have := indexOf_isSome ((blockSelf :: ps).zipIdx n) selfName
    rw [zipIdx_fst] at this
    refine Option.not_isSome_iff_eq_none.1 fun h => ?_
    rcases List.mem_cons.1 (this.1 h) with h | h
    · revert h; decide
    · exact hps h
  unfold Ast.fieldOf Ast.getSelfRead at hs ⊢
  simp only [Ast.getVariable, Ast.getContextLevel, e1, e2, Option.isSome_none, Bool.false_eq_true, or_self, if_false]
  cases e3 : Ast.getVariable Γ.scopes selfName with
  | none => rw [e3] at hs; cases hs
  | some p =>
    rw [e3] at hs
    cases e4 : Ast.getContextLevel Γ.scopes selfName with
    | error _ => rw [e4] at hs; cases hs
    | ok k =>
      rw [e4] at hs
      simp only [bind, Except.bind] at hs ⊢
      split at hs
      · next hc => rw [if_pos ⟨hc.1, hc.2.1, by simp only [List.length_cons]; omega⟩]
      · cases hs

theorem fieldOf_method {fields : List Name} {n : Nat} {ps ls : List Name} {S : NScope} (h : newScope n selfName ps ls = .ok S) (hl : selfName ∉ ls) : Ast.fieldOf ⟨[S], fields⟩ = .ok () := by
  obtain ⟨rfl, _, _⟩ := newScope_ok h
  have e1 : indexOf (ls.zipIdx (n + (ps.length + 1))) selfName = none := by
    have := indexOf_isSome (ls.zipIdx (n + (ps.length + 1))) selfName
    rw [zipIdx_fst] at this
    exact Option.not_isSome_iff_eq_none.1 fun h => hl (this.1 h)
  have e2 : indexOf ((selfName :: ps).zipIdx n) selfName = some 0 := by
    rw [List.zipIdx_cons, indexOf_cons, if_pos rfl]
  unfold Ast.fieldOf Ast.getSelfRead
  simp only [Ast.getVariable, Ast.getContextLevel, e1, e2]
  rfl

mutual
theorem expr_eq (N : Numbers) (Γ : Ctx) (s : St) (hs : Ast.fieldOf Γ = .ok ()) (t : Tree) : selfName ∉ blockLocals t → (Ast.expr N Γ s t).toOption = (expr N Γ s t).toOption := by
  match t with
  | .var x => intro _; simp only [Ast.expr, expr, read_eq Γ hs]; rfl
  | .lit l => intro _; simp only [Ast.expr, expr, ast_literal]
  | .send sup sel r as =>
    intro hl
    simp only [blockLocals, List.mem_append, not_or] at hl
    simp only [Ast.expr, expr, toOption_bind, expr_eq N Γ s hs r hl.1]
    congr 1
    funext p
    split
    · rfl
    · simp only [toOption_bind, args_eq N Γ _ hs as hl.2]
  | .assign xs v =>
    intro hl
    simp only [Ast.expr, expr, toOption_bind, expr_eq N Γ s hs v hl, writes_eq Γ hs]
    congr 1
  | .block ps ls ts ex =>
    intro hl
    simp only [blockLocals, List.mem_append, not_or] at hl
    simp only [Ast.expr, expr, toOption_bind]
    cases e : newScope (s.next + 1) blockSelf ps ls with
    | error _ => rfl
    | ok S => simp only [toOption_some, Option.bind_some, toOption_bind, body_eq N true _ _ ex (fieldOf_block hs e hl.1) ts hl.2]
theorem args_eq (N : Numbers) (Γ : Ctx) (s : St) (hs : Ast.fieldOf Γ = .ok ()) (ts : List Tree) : selfName ∉ blockLocalsL ts → (Ast.args N Γ s ts).toOption = (args N Γ s ts).toOption := by
  match ts with
  | [] => intro _; rfl
  | t :: ts =>
    intro hl
    simp only [blockLocalsL, List.mem_append, not_or] at hl
    simp only [Ast.args, args, toOption_bind, expr_eq N Γ s hs t hl.1, fun s => args_eq N Γ s hs ts hl.2]
theorem body_eq (N : Numbers) (isBlock : Bool) (Γ : Ctx) (s : St) (ex : Bool) (hs : Ast.fieldOf Γ = .ok ()) (ts : List Tree) :
    selfName ∉ blockLocalsL ts → (Ast.body N isBlock Γ s ex ts).toOption = (body N isBlock Γ s ex ts).toOption := by
  match ts with
  | [] => intro _; simp only [Ast.body, body, hs]; cases isBlock <;> rfl
  | t :: ts =>
    intro hl
    simp only [blockLocalsL, List.mem_append, not_or] at hl
    simp only [Ast.body, body, hs]
    split
    · split
      · rfl
      · simp only [toOption_bind, expr_eq N Γ _ hs t hl.1]
    · simp only [toOption_bind, expr_eq N Γ s hs t hl.1]
      congr 1
      funext p
      split
      · cases isBlock <;> rfl
      · simp only [toOption_bind, fun s => body_eq N isBlock Γ s ex hs ts hl.2]
end

/-- Without variables called `self` the two parsers make the same of a method. -/
theorem ast_method {N : Numbers} {fields : List Name} {n o : Nat} {bits : List Bool} {ps ls : List Name} {ts : List Tree} {ex : Bool} (hl : selfName ∉ ls) (hb : selfName ∉ blockLocalsL ts) :
    (Ast.methodAt N fields n o bits ps ls ts ex).toOption = (methodAt N fields n o bits ps ls ts ex).toOption := by
  simp only [Ast.methodAt, methodAt, toOption_bind]
  cases e : newScope n selfName ps ls with
  | error _ => rfl
  | ok S => simp only [toOption_some, Option.bind_some, body_eq N false _ _ ex (fieldOf_method e hl) ts hb]

/-! ## Methods with numbers from anywhere -/

theorem method_at {N : Numbers} {fields : List Name} {bits : List Bool} {ps ls : List Name} {ts : List Tree} {ex : Bool} :
    method N fields bits ps ls ts ex = (methodAt N fields 0 0 bits ps ls ts ex).map Prod.fst := by
  simp only [method, methodAt, Nat.zero_add]
  cases newScope 0 selfName ps ls with
  | error _ => rfl
  | ok S =>
    simp only [bind, Except.bind]
    cases body N false ⟨[S], fields⟩ ⟨ps.length + 1 + ls.length, 0, bits⟩ ex ts <;> rfl

theorem methodAt_inv {N : Numbers} {fields : List Name} {n o : Nat} {bits : List Bool} {ps ls : List Name} {ts : List Tree} {ex : Bool} {S : SMethod} {s' : St}
    (h : methodAt N fields n o bits ps ls ts ex = .ok (S, s')) :
    ∃ b, newScope n selfName ps ls = .ok ⟨(selfName :: ps).zipIdx n, ls.zipIdx (n + (ps.length + 1))⟩ ∧
      body N false ⟨[⟨(selfName :: ps).zipIdx n, ls.zipIdx (n + (ps.length + 1))⟩], fields⟩ ⟨n + (ps.length + 1) + ls.length, o, bits⟩ ex ts = .ok (b, s') ∧
      S = ⟨((selfName :: ps).zipIdx n).map fun p => some p.2, (ls.zipIdx (n + (ps.length + 1))).map Prod.snd, b⟩ := by
  simp only [methodAt] at h
  obtain ⟨S', h1, h⟩ := except_bind_ok h
  obtain ⟨⟨b, s'⟩, h2, h⟩ := except_bind_ok h
  have h3 := h1
  obtain ⟨rfl, _, _⟩ := newScope_ok h1
  cases h
  exact ⟨b, h3, h2, rfl⟩

theorem methodAt_wf {N : Numbers} {fields : List Name} {n o : Nat} {bits : List Bool} {ps ls : List Name} {ts : List Tree} {ex : Bool} {S : SMethod} {s' : St}
    (h : methodAt N fields n o bits ps ls ts ex = .ok (S, s')) (ha : arityL ts) (hp : plainL ts) : S.Wf := by
  obtain ⟨b, _, hb, rfl⟩ := methodAt_inv h
  have o := body_out _ _ _ _ _ _ _ _ hb
  exact ⟨o.wf ha hp, o.fits, o.ids.nodup⟩

theorem methodAt_nodup {N : Numbers} {fields : List Name} {n o : Nat} {bits : List Bool} {ps ls : List Name} {ts : List Tree} {ex : Bool} {S : SMethod} {s' : St}
    (h : methodAt N fields n o bits ps ls ts ex = .ok (S, s')) : S.env.Nodup := by
  obtain ⟨b, _, hb, rfl⟩ := methodAt_inv h
  exact (In.zipIdx ls _).nodup

end PySOM.Elab

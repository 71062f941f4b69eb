import Verif.Spec.Elab
import Verif.Lemmas.GenCode
/-! # Resolving names: well-formed sources, distinct numbers, and the variables that names mean -/
set_option autoImplicit false
namespace PySOM.Elab
open PySOM PySOM.Parse PySOM.BC PySOM.Elab.Spec

theorem pairInv {α β : Type} {a c : α} {b d : β} (h : (Except.ok (a, b) : Except Err (α × β)) = .ok (c, d)) : a = c ∧ b = d := by
  cases h
  exact ⟨rfl, rfl⟩

/-! ## Numbers -/

/-- Different numbers from `n` on, below `m`. -/
structure In (n m : Nat) (xs : List Nat) : Prop where
  le : n ≤ m
  nodup : xs.Nodup
  range : ∀ i ∈ xs, n ≤ i ∧ i < m

theorem In.nil' {n m : Nat} (h : n ≤ m) : In n m [] := ⟨h, List.nodup_nil, fun _ h => nomatch h⟩

theorem In.append {n m k : Nat} {xs ys : List Nat} (h1 : In n m xs) (h2 : In m k ys) : In n k (xs ++ ys) := by
  refine ⟨Nat.le_trans h1.le h2.le, List.nodup_append.2 ⟨h1.nodup, h2.nodup, fun a ha b hb e => ?_⟩, fun i hi => ?_⟩
  · have := h1.range a ha; have := h2.range b hb; omega
  · have := h1.le; have := h2.le
    rcases List.mem_append.1 hi with hi | hi
    · have := h1.range i hi; omega
    · have := h2.range i hi; omega

theorem In.mono {n m k l : Nat} {xs : List Nat} (h : In n m xs) (h1 : k ≤ n) (h2 : m ≤ l) : In k l xs :=
  ⟨by have := h.le; omega, h.nodup, fun i hi => by have := h.range i hi; omega⟩

theorem zipIdx_snd (xs : List Name) (n : Nat) : (xs.zipIdx n).map Prod.snd = List.range' n xs.length := by
  induction xs generalizing n with
  | nil => rfl
  | cons x xs ih => simp [List.zipIdx_cons, List.range'_succ, ih]

theorem In.zipIdx (xs : List Name) (n : Nat) : In n (n + xs.length) ((xs.zipIdx n).map Prod.snd) := by
  rw [zipIdx_snd]
  exact ⟨by omega, List.nodup_range', fun i hi => by rw [List.mem_range'_1] at hi; exact hi⟩

theorem choose_next (s : St) : s.choose.2.next = s.next := by
  unfold St.choose
  split <;> rfl

mutual
theorem literal_next (N : Numbers) (s : St) (l : Parse.Lit) : ∀ (l' : LitT) (s' : St), literal N s l = .ok (l', s') → s'.next = s.next ∧ (noPh l → l'.noPh = true) := by
  match l with
  | .int neg text =>
    intro l' s' h
    simp only [literal] at h
    obtain ⟨i, _, h⟩ := except_bind_ok h
    cases i <;> (obtain ⟨rfl, rfl⟩ := pairInv h; exact ⟨rfl, fun _ => rfl⟩)
  | .dbl _ text =>
    intro l' s' h
    simp only [literal] at h
    obtain ⟨i, _, h⟩ := except_bind_ok h
    obtain ⟨rfl, rfl⟩ := pairInv h; exact ⟨rfl, fun _ => rfl⟩
  | .str _ =>
    intro l' s' h
    cases h
    exact ⟨rfl, fun _ => rfl⟩
  | .sym x =>
    intro l' s' h
    obtain ⟨rfl, rfl⟩ := pairInv h
    refine ⟨rfl, fun hn => ?_⟩
    simp only [noPh] at hn
    simp [LitT.noPh, hn]
  | .arr es =>
    intro l' s' h
    simp only [literal] at h
    obtain ⟨⟨es', s1⟩, h1, h⟩ := except_bind_ok h
    obtain ⟨rfl, rfl⟩ := pairInv h
    have := literals_next N s es es' _ h1
    exact ⟨this.1, this.2⟩
theorem literals_next (N : Numbers) (s : St) (ls : List Parse.Lit) : ∀ (ls' : LitTs) (s' : St), literals N s ls = .ok (ls', s') →
    s'.next = s.next ∧ (noPhL ls → ls'.noPh = true) := by
  match ls with
  | [] =>
    intro ls' s' h
    cases h
    exact ⟨rfl, fun _ => rfl⟩
  | e :: es =>
    intro ls' s' h
    simp only [literals] at h
    obtain ⟨⟨e', s1⟩, h1, h⟩ := except_bind_ok h
    obtain ⟨⟨es', s2⟩, h2, h⟩ := except_bind_ok h
    obtain ⟨rfl, rfl⟩ := pairInv h
    have a := literal_next N s e e' s1 h1
    have b := literals_next N s1 es es' _ h2
    exact ⟨b.1.trans a.1, fun hn => by simp only [LitTs.noPh, a.2 hn.1, b.2 hn.2, Bool.and_self]⟩
end

/-! ## What comes out -/

theorem newScope_ok {n : Nat} {first : Name} {ps ls : List Name} {S : NScope} (h : newScope n first ps ls = .ok S) :
    S = ⟨(first :: ps).zipIdx n, ls.zipIdx (n + (ps.length + 1))⟩ ∧ addArguments [first] ps = .ok () ∧ addLocals [] ls = .ok () := by
  simp only [newScope] at h
  obtain ⟨_, h1, h⟩ := except_bind_ok h
  obtain ⟨_, h2, h⟩ := except_bind_ok h
  cases h
  exact ⟨rfl, h1, h2⟩

theorem isOne_inv {as : List Tree} (h : isOne as = true) : ∃ l, as = [.lit l] := by
  unfold isOne at h
  split at h
  · exact ⟨_, rfl⟩
  · cases h

theorem isSelf_inv {t : Tree} (h : isSelf t = true) : t = .var selfName := by
  unfold isSelf at h
  split at h
  · rw [of_decide_eq_true h]
  · cases h

/-- What is known of an expression. -/
structure ExOut (n m : Nat) (t : Tree) (e : Ex SBlock) : Prop where
  next : m = n + decls t
  wf : arity t → plain t → e.Wf
  ids : In n m e.sids
  locals : In n m e.slocals

structure ExsOut (n m : Nat) (ts : List Tree) (es : Exs SBlock) : Prop where
  next : m = n + declsL ts
  length : es.length = ts.length
  wf : arityL ts → plainL ts → es.Wf
  ids : In n m es.sids
  locals : In n m es.slocals

structure BodyOut (n m : Nat) (isBlock : Bool) (ts : List Tree) (b : Body SBlock) : Prop where
  next : m = n + declsL ts
  wf : arityL ts → plainL ts → b.Wf
  fits : b.fits isBlock
  ids : In n m b.sids
  locals : In n m b.slocals

theorem pushVariable_out (Γ : Ctx) (x : Name) : (pushVariable Γ x).Wf ∧ (pushVariable Γ x).sids = [] ∧ (pushVariable Γ x).slocals = [] := by
  unfold pushVariable
  split
  · exact ⟨trivial, rfl, rfl⟩
  · split <;> exact ⟨trivial, rfl, rfl⟩

mutual
theorem expr_out (N : Numbers) (Γ : Ctx) (s : St) (t : Tree) : ∀ (e : Ex SBlock) (s' : St), expr N Γ s t = .ok (e, s') → ExOut s.next s'.next t e := by
  match t with
  | .var x =>
    intro e s' h
    obtain ⟨rfl, rfl⟩ := pairInv h
    obtain ⟨h1, h2, h3⟩ := pushVariable_out Γ x
    exact ⟨rfl, fun _ _ => h1, by rw [h2]; exact .nil' (Nat.le_refl _), by rw [h3]; exact .nil' (Nat.le_refl _)⟩
  | .lit l =>
    intro e s' h
    simp only [expr] at h
    obtain ⟨⟨l', s1⟩, h1, h⟩ := except_bind_ok h
    obtain ⟨rfl, rfl⟩ := pairInv h
    obtain ⟨h2, h3⟩ := literal_next N s l l' _ h1
    refine ⟨h2, fun _ hp => ?_, .nil' (Nat.le_of_eq h2.symm), .nil' (Nat.le_of_eq h2.symm)⟩
    cases l with
    | arr es =>
      simp only [literal] at h1
      obtain ⟨⟨es', s2⟩, h4, h1⟩ := except_bind_ok h1
      cases h1
      exact h3 hp
    | int neg text =>
      simp only [literal] at h1
      obtain ⟨i, _, h1⟩ := except_bind_ok h1
      cases i <;> (cases h1; rfl)
    | dbl neg text =>
      simp only [literal] at h1
      obtain ⟨i, _, h1⟩ := except_bind_ok h1
      cases h1; rfl
    | str _ => cases h1; rfl
    | sym _ => cases h1; rfl
  | .send sup sel r as =>
    intro e s' h
    simp only [expr] at h
    obtain ⟨⟨r', s1⟩, h1, h⟩ := except_bind_ok h
    have a := expr_out N Γ s r r' s1 h1
    dsimp only at h
    split at h
    · next hc =>
      obtain ⟨rfl, rfl⟩ := pairInv h
      obtain ⟨l, rfl⟩ := isOne_inv hc.2.2.1
      have hn : s1.choose.2.next = s.next + decls (.send sup sel r [.lit l]) := by
        rw [choose_next]; simp only [decls, declsL, Nat.add_zero]; exact a.next
      refine ⟨hn, fun ha hp => ?_, ?_, ?_⟩
      · split <;> exact a.wf ha.1 hp.1
      · rw [choose_next]; split <;> exact a.ids
      · rw [choose_next]; split <;> exact a.locals
    · obtain ⟨⟨as', s2⟩, h2, h⟩ := except_bind_ok h
      obtain ⟨rfl, rfl⟩ := pairInv h
      have b := args_out N Γ s1.choose.2 as as' _ h2
      rw [choose_next] at b
      refine ⟨?_, fun ha hp => ?_, ?_, ?_⟩
      · rw [b.next, a.next]; simp only [decls]; omega
      · have : r'.Wf ∧ as'.Wf ∧ Sym.numberOfSignatureArguments sel = as'.length + 1 := ⟨a.wf ha.1 hp.1, b.wf ha.2.1 hp.2, by rw [b.length]; exact ha.2.2⟩
        cases sup <;> exact this
      · cases sup <;> exact a.ids.append b.ids
      · cases sup <;> exact a.locals.append b.locals
  | .assign xs v =>
    intro e s' h
    simp only [expr] at h
    obtain ⟨⟨v', s1⟩, h1, h⟩ := except_bind_ok h
    obtain ⟨ts, h2, h⟩ := except_bind_ok h
    have a := expr_out N Γ s v v' s1 h1
    cases ts with
    | nil => obtain ⟨rfl, rfl⟩ := pairInv h; exact ⟨a.next, a.wf, a.ids, a.locals⟩
    | cons t ts => obtain ⟨rfl, rfl⟩ := pairInv h; exact ⟨a.next, a.wf, a.ids, a.locals⟩
  | .block ps ls ts ex =>
    intro e s' h
    simp only [expr] at h
    obtain ⟨S, h1, h⟩ := except_bind_ok h
    obtain ⟨⟨b, s1⟩, h2, h⟩ := except_bind_ok h
    obtain ⟨rfl, rfl⟩ := pairInv h
    obtain ⟨rfl, _, _⟩ := newScope_ok h1
    have a := body_out N true _ _ ex ts b _ h2
    refine ⟨?_, fun ha hp => ⟨a.wf ha hp, a.fits⟩, ?_, ?_⟩
    · rw [a.next]; simp only [decls]; omega
    · have h0 : In s.next (s.next + 1) [s.next] := ⟨by omega, by simp, fun i hi => by rw [List.mem_singleton.1 hi]; omega⟩
      exact h0.append (a.ids.mono (by simp only; omega) (Nat.le_refl _))
    · exact In.append ((In.zipIdx ls _).mono (Nat.le_trans (Nat.le_succ _) (Nat.le_add_right _ _)) (by simp only; omega)) a.locals
theorem args_out (N : Numbers) (Γ : Ctx) (s : St) (ts : List Tree) : ∀ (es : Exs SBlock) (s' : St), args N Γ s ts = .ok (es, s') → ExsOut s.next s'.next ts es := by
  match ts with
  | [] =>
    intro es s' h
    cases h
    exact ⟨rfl, rfl, fun _ _ => trivial, .nil' (Nat.le_refl _), .nil' (Nat.le_refl _)⟩
  | t :: ts =>
    intro es s' h
    simp only [args] at h
    obtain ⟨⟨e, s1⟩, h1, h⟩ := except_bind_ok h
    obtain ⟨⟨es', s2⟩, h2, h⟩ := except_bind_ok h
    obtain ⟨rfl, rfl⟩ := pairInv h
    have a := expr_out N Γ s t e s1 h1
    have b := args_out N Γ s1 ts es' _ h2
    refine ⟨?_, by simp only [Exs.length, b.length, List.length_cons], fun ha hp => ⟨a.wf ha.1 hp.1, b.wf ha.2 hp.2⟩, a.ids.append b.ids, a.locals.append b.locals⟩
    rw [b.next, a.next]; simp only [declsL]; omega
theorem body_out (N : Numbers) (isBlock : Bool) (Γ : Ctx) (s : St) (ex : Bool) (ts : List Tree) : ∀ (b : Body SBlock) (s' : St), body N isBlock Γ s ex ts = .ok (b, s') →
    BodyOut s.next s'.next isBlock ts b := by
  match ts with
  | [] =>
    intro b s' h
    cases h
    exact ⟨rfl, fun _ _ => trivial, trivial, .nil' (Nat.le_refl _), .nil' (Nat.le_refl _)⟩
  | t :: ts =>
    intro b s' h
    simp only [body] at h
    split at h
    · next hc =>
      have hnil : ts = [] := List.isEmpty_iff.1 hc.1
      subst hnil
      split at h
      · next hs =>
        obtain ⟨rfl, rfl⟩ := pairInv h
        rw [isSelf_inv hs.2.1]
        rw [choose_next]
        exact ⟨rfl, fun _ _ => trivial, hs.1, .nil' (Nat.le_refl _), .nil' (Nat.le_refl _)⟩
      · obtain ⟨⟨e, s1⟩, h1, h⟩ := except_bind_ok h
        obtain ⟨rfl, rfl⟩ := pairInv h
        have a := expr_out N Γ s.choose.2 t e _ h1
        rw [choose_next] at a
        exact ⟨a.next, fun ha hp => a.wf ha.1 hp.1, trivial, a.ids, a.locals⟩
    · obtain ⟨⟨e, s1⟩, h1, h⟩ := except_bind_ok h
      have a := expr_out N Γ s t e s1 h1
      dsimp only at h
      split at h
      · next hc =>
        obtain ⟨rfl, rfl⟩ := pairInv h
        have hnil : ts = [] := List.isEmpty_iff.1 hc.1
        subst hnil
        rw [choose_next]
        exact ⟨a.next, fun ha hp => a.wf ha.1 hp.1, trivial, a.ids, a.locals⟩
      · obtain ⟨⟨b', s2⟩, h2, h⟩ := except_bind_ok h
        obtain ⟨rfl, rfl⟩ := pairInv h
        have c := body_out N isBlock Γ s1.choose.2 ex ts b' _ h2
        rw [choose_next] at c
        refine ⟨?_, fun ha hp => ⟨a.wf ha.1 hp.1, c.wf ha.2 hp.2⟩, c.fits, a.ids.append c.ids, a.locals.append c.locals⟩
        rw [c.next, a.next]; simp only [declsL]; omega
end

/-! ## Names -/

theorem indexOf_cons (p : Name × Nat) (xs : List (Name × Nat)) (x : Name) : indexOf (p :: xs) x = if p.1 = x then some 0 else (indexOf xs x).map (· + 1) := by
  simp only [indexOf, List.findIdx?_cons, decide_eq_true_eq]

theorem indexOf_lookup (xs : List (Name × Nat)) (x : Name) :
    match indexOf xs x with
    | some i => ∃ v, xs.lookup x = some v ∧ (xs.map Prod.snd)[i]? = some v
    | none => xs.lookup x = none := by
  induction xs with
  | nil => rfl
  | cons p xs ih =>
    rw [indexOf_cons]
    obtain ⟨y, v⟩ := p
    by_cases hx : y = x
    · rw [if_pos hx]
      subst hx
      exact ⟨v, by simp [List.lookup_cons], rfl⟩
    · rw [if_neg hx]
      have hl : ((y, v) :: xs).lookup x = xs.lookup x := by
        have : (x == y) = false := by simpa using Ne.symm hx
        simp only [List.lookup_cons, this]
      rw [hl]
      cases hi : indexOf xs x with
      | none => rw [hi] at ih; exact ih
      | some i => rw [hi] at ih; exact ih

theorem findVar_level (Γ : List NScope) (x : Name) (l : Nat) : findVar Γ x (l + 1) = (findVar Γ x l).map fun p => (p.1, p.2.1, p.2.2 + 1) := by
  induction Γ generalizing l with
  | nil => rfl
  | cons s rest ih =>
    simp only [findVar]
    split
    · rfl
    · split
      · rfl
      · exact ih (l + 1)

/-- The names mean the same. -/
structure Rel (lvl : Nat) (Γ : List NScope) (chain : List Scope) (env : Env) : Prop where
  found : ∀ x, x ≠ blockSelf → ∀ a i l, findVar Γ x 0 = some (a, i, l) → ∃ v, denotes chain a i l = some v ∧ env.lookup x = some v
  lost : ∀ x, x ≠ blockSelf → findVar Γ x 0 = none → env.lookup x = none
  self : denotes chain true 0 lvl = some 0

theorem Rel.method {ps ls : List Name} : Rel 0 [⟨(selfName :: ps).zipIdx 0, ls.zipIdx (0 + (ps.length + 1))⟩]
    [⟨((selfName :: ps).zipIdx 0).map fun p => some p.2, (ls.zipIdx (0 + (ps.length + 1))).map Prod.snd⟩] (ls.zipIdx (ps.length + 1) ++ (selfName :: ps).zipIdx 0) := by
  have e : 0 + (ps.length + 1) = ps.length + 1 := by omega
  rw [e]
  have h1 := indexOf_lookup (ls.zipIdx (ps.length + 1))
  have h2 := indexOf_lookup ((selfName :: ps).zipIdx 0)
  refine ⟨?_, ?_, rfl⟩
  · intro x _ a i l h
    simp only [findVar] at h
    have h1 := h1 x
    have h2 := h2 x
    rw [List.lookup_append]
    cases e1 : indexOf (ls.zipIdx (ps.length + 1)) x with
    | some j =>
      rw [e1] at h h1
      cases h
      obtain ⟨v, hv, hj⟩ := h1
      exact ⟨v, by simpa [denotes] using hj, by rw [hv]; rfl⟩
    | none =>
      rw [e1] at h h1
      cases e2 : indexOf ((selfName :: ps).zipIdx 0) x with
      | some j =>
        rw [e2] at h h2
        cases h
        obtain ⟨v, hv, hj⟩ := h2
        refine ⟨v, ?_, by simp only at h1; rw [h1, hv]; rfl⟩
        simp only [denotes, List.getElem?_cons_zero, if_true]
        rw [show (fun p : Name × Nat => some p.2) = some ∘ Prod.snd from rfl, ← List.map_map, List.getElem?_map, hj]
        rfl
      | none => rw [e2] at h; cases h
  · intro x _ h
    simp only [findVar] at h
    have h1 := h1 x
    have h2 := h2 x
    rw [List.lookup_append]
    cases e1 : indexOf (ls.zipIdx (ps.length + 1)) x with
    | some j => rw [e1] at h; cases h
    | none =>
      rw [e1] at h h1
      cases e2 : indexOf ((selfName :: ps).zipIdx 0) x with
      | some j => rw [e2] at h; cases h
      | none =>
        rw [e2] at h2
        simp only at h1 h2
        rw [h1, h2]; rfl

theorem Rel.block {lvl : Nat} {Γ : List NScope} {chain : List Scope} {env : Env} (hr : Rel lvl Γ chain env) (n : Nat) (ps ls : List Name) :
    Rel (lvl + 1) (⟨(blockSelf :: ps).zipIdx (n + 1), ls.zipIdx (n + 1 + (ps.length + 1))⟩ :: Γ)
      (Scope.block (((blockSelf :: ps).zipIdx (n + 1)).map Prod.snd) ((ls.zipIdx (n + 1 + (ps.length + 1))).map Prod.snd) :: chain)
      (ls.zipIdx (n + 2 + ps.length) ++ (ps.zipIdx (n + 2) ++ env)) := by
  have e : n + 1 + (ps.length + 1) = n + 2 + ps.length := by omega
  rw [e]
  have h1 := indexOf_lookup (ls.zipIdx (n + 2 + ps.length))
  have h2 := indexOf_lookup (ps.zipIdx (n + 2))
  have hidx : ∀ x, x ≠ blockSelf → indexOf ((blockSelf :: ps).zipIdx (n + 1)) x = (indexOf (ps.zipIdx (n + 2)) x).map (· + 1) := by
    intro x hx
    rw [List.zipIdx_cons, indexOf_cons, if_neg (Ne.symm hx)]
  refine ⟨?_, ?_, ?_⟩
  · intro x hx a i l h
    simp only [findVar, hidx x hx] at h
    have h1 := h1 x
    have h2 := h2 x
    rw [List.lookup_append, List.lookup_append]
    cases e1 : indexOf (ls.zipIdx (n + 2 + ps.length)) x with
    | some j =>
      rw [e1] at h h1
      cases h
      obtain ⟨v, hv, hj⟩ := h1
      exact ⟨v, by simpa [denotes, Scope.block] using hj, by rw [hv]; rfl⟩
    | none =>
      rw [e1] at h h1
      simp only at h1
      cases e2 : indexOf (ps.zipIdx (n + 2)) x with
      | some j =>
        rw [e2] at h h2
        cases h
        obtain ⟨v, hv, hj⟩ := h2
        refine ⟨v, ?_, by rw [h1, hv]; rfl⟩
        simp only [denotes, List.getElem?_cons_zero, if_true, Scope.block, List.zipIdx_cons, List.map_cons, List.getElem?_cons_succ]
        rw [List.getElem?_map, hj]
        rfl
      | none =>
        rw [e2] at h h2
        simp only [Option.map_none] at h h2
        rw [findVar_level] at h
        cases e3 : findVar Γ x 0 with
        | none => rw [e3] at h; cases h
        | some p =>
          obtain ⟨a', i', l'⟩ := p
          rw [e3] at h
          cases h
          obtain ⟨v, hv, hl⟩ := hr.found x hx _ _ _ e3
          exact ⟨v, by simpa [denotes] using hv, by rw [h1, h2, hl]; rfl⟩
  · intro x hx h
    simp only [findVar, hidx x hx] at h
    have h1 := h1 x
    have h2 := h2 x
    rw [List.lookup_append, List.lookup_append]
    cases e1 : indexOf (ls.zipIdx (n + 2 + ps.length)) x with
    | some j => rw [e1] at h; cases h
    | none =>
      rw [e1] at h h1
      simp only at h1
      cases e2 : indexOf (ps.zipIdx (n + 2)) x with
      | some j => rw [e2] at h; cases h
      | none =>
        rw [e2] at h h2
        simp only [Option.map_none] at h h2
        rw [findVar_level] at h
        cases e3 : findVar Γ x 0 with
        | some p => rw [e3] at h; cases h
        | none => rw [h1, h2, hr.lost x hx e3]; rfl
  · have := hr.self
    simpa [denotes] using this

theorem reads_ok {lvl : Nat} {Γ : Ctx} {chain : List Scope} {env : Env} (hr : Rel lvl Γ.scopes chain env) {x : Name} (hx : x ≠ blockSelf) :
    (pushVariable Γ x).sacc lvl chain = reads Γ.fields env x := by
  simp only [pushVariable, reads]
  cases e1 : findVar Γ.scopes x 0 with
  | some p =>
    obtain ⟨a, i, l⟩ := p
    obtain ⟨v, hv, hl⟩ := hr.found x hx _ _ _ e1
    simp only [hl, Ex.sacc, hv]
  | none =>
    simp only [hr.lost x hx e1]
    cases Γ.fields.idxOf? x with
    | none => rfl
    | some i => simp only [Ex.sacc, hr.self]

theorem writes_ok {lvl : Nat} {Γ : Ctx} {chain : List Scope} {env : Env} (hr : Rel lvl Γ.scopes chain env) : ∀ {xs : List Name} {ts : List Tgt}, (∀ x ∈ xs, x ≠ blockSelf) →
    popVariables Γ xs = .ok ts → ts.map (Tgt.acc lvl chain) = xs.flatMap (writes Γ.fields env) := by
  intro xs
  induction xs with
  | nil => intro ts _ h; cases h; rfl
  | cons x xs ih =>
    intro ts hx h
    simp only [popVariables] at h
    obtain ⟨t, h1, h⟩ := except_bind_ok h
    obtain ⟨ts', h2, h⟩ := except_bind_ok h
    cases h
    rw [List.map_cons, List.flatMap_cons, ih (fun y hy => hx y (List.mem_cons_of_mem _ hy)) h2]
    have hx := hx x List.mem_cons_self
    suffices hs : [Tgt.acc lvl chain t] = writes Γ.fields env x by rw [← hs]; rfl
    simp only [popVariable] at h1
    simp only [writes]
    cases e1 : findVar Γ.scopes x 0 with
    | some p =>
      obtain ⟨a, i, l⟩ := p
      obtain ⟨v, hv, hl⟩ := hr.found x hx _ _ _ e1
      rw [e1] at h1
      cases h1
      simp only [hl, Tgt.acc, hv]
    | none =>
      rw [e1] at h1
      simp only [hr.lost x hx e1]
      simp only at h1
      cases e2 : Γ.fields.idxOf? x with
      | none => rw [e2] at h1; cases h1
      | some i => rw [e2] at h1; cases h1; simp only [Tgt.acc, hr.self]

theorem popVariables_nil {Γ : Ctx} {xs : List Name} (h : popVariables Γ xs = .ok []) : xs = [] := by
  cases xs with
  | nil => rfl
  | cons x xs =>
    simp only [popVariables] at h
    obtain ⟨t, h1, h⟩ := except_bind_ok h
    obtain ⟨ts', h2, h⟩ := except_bind_ok h
    cases h

mutual
theorem expr_acc (N : Numbers) (Γ : Ctx) (s : St) (t : Tree) : ∀ (e : Ex SBlock) (s' : St), expr N Γ s t = .ok (e, s') → ∀ (lvl : Nat) (chain : List Scope) (env : Env),
    Rel lvl Γ.scopes chain env → (∀ x ∈ names t, x ≠ blockSelf) →
    (e.sacc lvl chain) = (uses Γ.fields env s.next t) := by
  match t with
  | .var x =>
    intro e s' h lvl chain env hr hn
    obtain ⟨rfl, rfl⟩ := pairInv h
    exact reads_ok hr (hn x List.mem_cons_self)
  | .lit l =>
    intro e s' h lvl chain env hr hn
    simp only [expr] at h
    obtain ⟨⟨l', s1⟩, h1, h⟩ := except_bind_ok h
    obtain ⟨rfl, rfl⟩ := pairInv h
    rfl
  | .send sup sel r as =>
    intro e s' h lvl chain env hr hn
    simp only [expr] at h
    obtain ⟨⟨r', s1⟩, h1, h⟩ := except_bind_ok h
    have a := expr_acc N Γ s r r' s1 h1 lvl chain env hr fun x hx => hn x (List.mem_append_left _ hx)
    have an := (expr_out N Γ s r r' s1 h1).next
    dsimp only at h
    split at h
    · next hc =>
      obtain ⟨rfl, rfl⟩ := pairInv h
      obtain ⟨l, rfl⟩ := isOne_inv hc.2.2.1
      have : (if sel = ['+'] then Ex.inc r' else Ex.dec r').sacc lvl chain = r'.sacc lvl chain := by split <;> rfl
      rw [this, a]
      simp only [uses, usesL, List.append_nil]
    · obtain ⟨⟨as', s2⟩, h2, h⟩ := except_bind_ok h
      obtain ⟨rfl, rfl⟩ := pairInv h
      have b := args_acc N Γ s1.choose.2 as as' _ h2 lvl chain env hr fun x hx => hn x (List.mem_append_right _ hx)
      rw [choose_next] at b
      have : (if sup = true then Ex.superSend sel r' as' else Ex.send sel r' as').sacc lvl chain = r'.sacc lvl chain ++ as'.sacc lvl chain := by split <;> rfl
      rw [this, a, b, an]
      rfl
  | .assign xs v =>
    intro e s' h lvl chain env hr hn
    simp only [expr] at h
    obtain ⟨⟨v', s1⟩, h1, h⟩ := except_bind_ok h
    obtain ⟨ts, h2, h⟩ := except_bind_ok h
    have a := expr_acc N Γ s v v' s1 h1 lvl chain env hr fun x hx => hn x (List.mem_append_right _ hx)
    have w := writes_ok hr (fun x hx => hn x (List.mem_append_left _ hx)) h2
    cases ts with
    | nil =>
      obtain ⟨rfl, rfl⟩ := pairInv h
      simp only [uses, ← w, a, List.map_nil, List.append_nil]
    | cons t ts =>
      obtain ⟨rfl, rfl⟩ := pairInv h
      simp only [uses, Ex.sacc, a, w]
  | .block ps ls ts ex =>
    intro e s' h lvl chain env hr hn
    simp only [expr] at h
    obtain ⟨S, h1, h⟩ := except_bind_ok h
    obtain ⟨⟨b, s1⟩, h2, h⟩ := except_bind_ok h
    obtain ⟨rfl, rfl⟩ := pairInv h
    obtain ⟨rfl, _, _⟩ := newScope_ok h1
    have a := body_acc N true _ _ ex ts b _ h2 (lvl + 1) _ _ (hr.block s.next ps ls) (fun x hx => hn x (List.mem_append_right _ hx))
    have e : s.next + 1 + (ps.length + 1) + ls.length = s.next + 2 + ps.length + ls.length := by omega
    have a := a.2 rfl
    simp only [e] at a
    simp only [Ex.sacc, SBlock.sacc, uses]
    exact a
theorem args_acc (N : Numbers) (Γ : Ctx) (s : St) (ts : List Tree) : ∀ (es : Exs SBlock) (s' : St), args N Γ s ts = .ok (es, s') → ∀ (lvl : Nat) (chain : List Scope) (env : Env),
    Rel lvl Γ.scopes chain env → (∀ x ∈ namesL ts, x ≠ blockSelf) → es.sacc lvl chain = usesL Γ.fields env s.next ts := by
  match ts with
  | [] =>
    intro es s' h lvl chain env hr hn
    cases h
    rfl
  | t :: ts =>
    intro es s' h lvl chain env hr hn
    simp only [args] at h
    obtain ⟨⟨e, s1⟩, h1, h⟩ := except_bind_ok h
    obtain ⟨⟨es', s2⟩, h2, h⟩ := except_bind_ok h
    obtain ⟨rfl, rfl⟩ := pairInv h
    have a := expr_acc N Γ s t e s1 h1 lvl chain env hr fun x hx => hn x (List.mem_append_left _ hx)
    have an := (expr_out N Γ s t e s1 h1).next
    have b := args_acc N Γ s1 ts es' _ h2 lvl chain env hr fun x hx => hn x (List.mem_append_right _ hx)
    simp only [Exs.sacc, usesL, a, b, an]
/-- In a method `^ self` takes the receiver without reading a variable. -/
theorem body_acc (N : Numbers) (isBlock : Bool) (Γ : Ctx) (s : St) (ex : Bool) (ts : List Tree) : ∀ (b : Body SBlock) (s' : St), body N isBlock Γ s ex ts = .ok (b, s') →
    ∀ (lvl : Nat) (chain : List Scope) (env : Env), Rel lvl Γ.scopes chain env → (∀ x ∈ namesL ts, x ≠ blockSelf) →
    (env.lookup selfName = some 0 → usesL Γ.fields env s.next ts = b.sacc lvl chain ∨ usesL Γ.fields env s.next ts = b.sacc lvl chain ++ [.read (some 0)]) ∧
    (isBlock = true → b.sacc lvl chain = usesL Γ.fields env s.next ts) := by
  match ts with
  | [] =>
    intro b s' h lvl chain env hr hn
    cases h
    exact ⟨fun _ => .inl rfl, fun _ => rfl⟩
  | t :: ts =>
    intro b s' h lvl chain env hr hn
    simp only [body] at h
    split at h
    · next hc =>
      have hnil : ts = [] := List.isEmpty_iff.1 hc.1
      subst hnil
      split at h
      · next hs =>
        obtain ⟨rfl, rfl⟩ := pairInv h
        refine ⟨fun h0 => .inr ?_, fun hb => by rw [hs.1] at hb; cases hb⟩
        rw [isSelf_inv hs.2.1]
        simp only [usesL, uses, reads, h0, Body.sacc, List.append_nil, List.nil_append]
      · obtain ⟨⟨e, s1⟩, h1, h⟩ := except_bind_ok h
        obtain ⟨rfl, rfl⟩ := pairInv h
        have a := expr_acc N Γ s.choose.2 t e _ h1 lvl chain env hr fun x hx => hn x (List.mem_append_left _ hx)
        rw [choose_next] at a
        have : (Body.exit e).sacc lvl chain = usesL Γ.fields env s.next [t] := by simp only [Body.sacc, usesL, List.append_nil, a]
        exact ⟨fun _ => .inl this.symm, fun _ => this⟩
    · obtain ⟨⟨e, s1⟩, h1, h⟩ := except_bind_ok h
      have a := expr_acc N Γ s t e s1 h1 lvl chain env hr fun x hx => hn x (List.mem_append_left _ hx)
      have an := (expr_out N Γ s t e s1 h1).next
      dsimp only at h
      split at h
      · next hc =>
        obtain ⟨rfl, rfl⟩ := pairInv h
        have hnil : ts = [] := List.isEmpty_iff.1 hc.1
        subst hnil
        have : (Body.last e).sacc lvl chain = usesL Γ.fields env s.next [t] := by simp only [Body.sacc, usesL, List.append_nil, a]
        exact ⟨fun _ => .inl this.symm, fun _ => this⟩
      · obtain ⟨⟨b', s2⟩, h2, h⟩ := except_bind_ok h
        obtain ⟨rfl, rfl⟩ := pairInv h
        have c := body_acc N isBlock Γ s1.choose.2 ex ts b' _ h2 lvl chain env hr fun x hx => hn x (List.mem_append_right _ hx)
        rw [choose_next] at c
        refine ⟨fun h0 => ?_, fun hb => ?_⟩
        · simp only [usesL, Body.sacc, a, ← an]
          rcases c.1 h0 with hc | hc <;> rw [hc]
          · exact .inl rfl
          · exact .inr (List.append_assoc _ _ _).symm
        · simp only [usesL, Body.sacc, a, ← an, c.2 hb]
end

/-! ## What is accepted -/

/-- All numbers can be read. -/
structure Numbers.Total (N : Numbers) : Prop where
  int : ∀ x, ∃ r, N.int x = .ok r
  dbl : ∀ x, N.dbl x = .ok ()

mutual
theorem literal_total {N : Numbers} (hN : N.Total) (s : St) (l : Parse.Lit) : ∃ p, literal N s l = .ok p := by
  match l with
  | .int neg text =>
    obtain ⟨r, hr⟩ := hN.int text
    simp only [literal, hr, bind, Except.bind]
    cases r <;> exact ⟨_, rfl⟩
  | .dbl _ text => simp only [literal, hN.dbl text, bind, Except.bind]; exact ⟨_, rfl⟩
  | .str _ => exact ⟨_, rfl⟩
  | .sym x => exact ⟨_, rfl⟩
  | .arr es =>
    obtain ⟨p, hp⟩ := literals_total hN s es
    simp only [literal, hp, bind, Except.bind]
    exact ⟨_, rfl⟩
theorem literals_total {N : Numbers} (hN : N.Total) (s : St) (ls : List Parse.Lit) : ∃ p, literals N s ls = .ok p := by
  match ls with
  | [] => exact ⟨_, rfl⟩
  | e :: es =>
    obtain ⟨p, hp⟩ := literal_total hN s e
    obtain ⟨q, hq⟩ := literals_total hN p.2 es
    simp only [literals, hp, hq, bind, Except.bind]
    exact ⟨_, rfl⟩
end

theorem addArguments_ok {seen xs : List Name} : addArguments seen xs = .ok () ↔ xs.Nodup ∧ ∀ x ∈ xs, x ∉ seen ∧ x ≠ selfName ∧ x ≠ blockSelf := by
  induction xs generalizing seen with
  | nil => simp [addArguments]
  | cons x xs ih =>
    simp only [addArguments]
    by_cases h1 : x ∈ seen
    · rw [if_pos h1]
      constructor
      · intro h; cases h
      · intro h; exact absurd h1 (h.2 x List.mem_cons_self).1
    · rw [if_neg h1]
      by_cases h2 : x = selfName ∨ x = blockSelf
      · rw [if_pos h2]
        constructor
        · intro h; cases h
        · intro h
          have := (h.2 x List.mem_cons_self).2
          exact h2.elim (fun e => absurd e this.1) (fun e => absurd e this.2)
      · rw [if_neg h2, ih, List.nodup_cons]
        have h2 := not_or.1 h2
        constructor
        · intro ⟨hn, hx⟩
          refine ⟨⟨fun hm => (hx x hm).1 (List.mem_append_right _ List.mem_cons_self), hn⟩, fun y hy => ?_⟩
          rcases List.mem_cons.1 hy with rfl | hy
          · exact ⟨h1, h2⟩
          · exact ⟨fun hm => (hx y hy).1 (List.mem_append_left _ hm), (hx y hy).2⟩
        · intro ⟨⟨hx, hn⟩, hs⟩
          refine ⟨hn, fun y hy => ⟨fun hm => ?_, (hs y (List.mem_cons_of_mem _ hy)).2⟩⟩
          rcases List.mem_append.1 hm with hm | hm
          · exact (hs y (List.mem_cons_of_mem _ hy)).1 hm
          · rw [List.mem_singleton.1 hm] at hy; exact hx hy

theorem addLocals_ok {seen xs : List Name} : addLocals seen xs = .ok () ↔ xs.Nodup ∧ ∀ x ∈ xs, x ∉ seen := by
  induction xs generalizing seen with
  | nil => simp [addLocals]
  | cons x xs ih =>
    simp only [addLocals]
    by_cases h1 : x ∈ seen
    · rw [if_pos h1]
      constructor
      · intro h; cases h
      · intro h; exact absurd h1 (h.2 x List.mem_cons_self)
    · rw [if_neg h1, ih, List.nodup_cons]
      constructor
      · intro ⟨hn, hx⟩
        refine ⟨⟨fun hm => hx x hm (List.mem_append_right _ List.mem_cons_self), hn⟩, fun y hy => ?_⟩
        rcases List.mem_cons.1 hy with rfl | hy
        · exact h1
        · exact fun hm => hx y hy (List.mem_append_left _ hm)
      · intro ⟨⟨hx, hn⟩, hs⟩
        refine ⟨hn, fun y hy hm => ?_⟩
        rcases List.mem_append.1 hm with hm | hm
        · exact hs y (List.mem_cons_of_mem _ hy) hm
        · rw [List.mem_singleton.1 hm] at hy; exact hx hy

theorem newScope_iff {n : Nat} {first : Name} {ps ls : List Name} (hf : first = selfName ∨ first = blockSelf) (hb : ∀ x ∈ ps, x ≠ blockSelf) :
    (∃ S, newScope n first ps ls = .ok S) ↔ ParamsOk ps ∧ ls.Nodup := by
  constructor
  · rintro ⟨S, h⟩
    obtain ⟨_, h1, h2⟩ := newScope_ok h
    rw [addArguments_ok] at h1
    rw [addLocals_ok] at h2
    exact ⟨⟨h1.1, fun hm => (h1.2 _ hm).2.1 rfl⟩, h2.1⟩
  · rintro ⟨⟨h1, h2⟩, h3⟩
    have ha : addArguments [first] ps = .ok () := by
      refine addArguments_ok.2 ⟨h1, fun x hx => ?_⟩
      have hs : x ≠ selfName := fun e => h2 (e ▸ hx)
      refine ⟨fun hm => ?_, hs, hb x hx⟩
      rw [List.mem_singleton] at hm
      exact hf.elim (fun e => hs (hm.trans e)) (fun e => hb x hx (hm.trans e))
    have hl : addLocals [] ls = .ok () := addLocals_ok.2 ⟨h3, fun _ _ h => nomatch h⟩
    simp only [newScope, ha, hl, bind, Except.bind]
    exact ⟨_, rfl⟩

/-- The same names are declared. -/
def Same (Γ : List NScope) (D : List Name) : Prop := ∀ x, x ≠ blockSelf → ((findVar Γ x 0).isSome = true ↔ x ∈ D)

theorem indexOf_isSome (xs : List (Name × Nat)) (x : Name) : (indexOf xs x).isSome = true ↔ x ∈ xs.map Prod.fst := by
  induction xs with
  | nil => exact ⟨fun h => (nomatch h), fun h => (nomatch h)⟩
  | cons p xs ih =>
    rw [indexOf_cons, List.map_cons, List.mem_cons]
    by_cases hp : p.1 = x
    · rw [if_pos hp]; exact ⟨fun _ => .inl hp.symm, fun _ => rfl⟩
    · rw [if_neg hp, Option.isSome_map, ih]
      exact ⟨.inr, fun h => h.elim (fun e => absurd e.symm hp) id⟩

theorem zipIdx_fst (xs : List Name) (n : Nat) : (xs.zipIdx n).map Prod.fst = xs := by
  induction xs generalizing n with
  | nil => rfl
  | cons x xs ih => simp [List.zipIdx_cons, ih]

theorem findVar_isSome (S : NScope) (Γ : List NScope) (x : Name) :
    (findVar (S :: Γ) x 0).isSome = true ↔ x ∈ S.locals.map Prod.fst ∨ x ∈ S.args.map Prod.fst ∨ (findVar Γ x 0).isSome = true := by
  rw [← indexOf_isSome, ← indexOf_isSome]
  simp only [findVar]
  cases indexOf S.locals x with
  | some i => simp
  | none =>
    cases indexOf S.args x with
    | some i => simp
    | none => simp only [findVar_level, Option.isSome_map]; simp

theorem Same.method {ps ls : List Name} {n m : Nat} : Same [⟨(selfName :: ps).zipIdx n, ls.zipIdx m⟩] (ls ++ (selfName :: ps)) := by
  intro x _
  rw [findVar_isSome]
  simp only [zipIdx_fst, findVar, List.mem_append, Option.isSome_none, Bool.false_eq_true, or_false]

theorem Same.block {Γ : List NScope} {D : List Name} (h : Same Γ D) {ps ls : List Name} {n m : Nat} :
    Same (⟨(blockSelf :: ps).zipIdx n, ls.zipIdx m⟩ :: Γ) (ls ++ ps ++ D) := by
  intro x hx
  rw [findVar_isSome]
  simp only [zipIdx_fst, List.mem_append, List.mem_cons, h x hx]
  constructor
  · rintro (h | (h | h) | h)
    · exact .inl (.inl h)
    · exact absurd h hx
    · exact .inl (.inr h)
    · exact .inr h
  · rintro ((h | h) | h)
    · exact .inl h
    · exact .inr (.inl (.inr h))
    · exact .inr (.inr h)

theorem popVariables_iff {Γ : Ctx} {D : List Name} (hD : Same Γ.scopes D) {xs : List Name} (hx : ∀ x ∈ xs, x ≠ blockSelf) :
    (∃ ts, popVariables Γ xs = .ok ts) ↔ ∀ x ∈ xs, x ∈ D ∨ x ∈ Γ.fields := by
  have one : ∀ x, x ≠ blockSelf → ((∃ t, popVariable Γ x = .ok t) ↔ x ∈ D ∨ x ∈ Γ.fields) := by
    intro x hx
    rw [← hD x hx]
    simp only [popVariable]
    cases findVar Γ.scopes x 0 with
    | some p => exact ⟨fun _ => .inl rfl, fun _ => ⟨_, rfl⟩⟩
    | none =>
      have hi : (Γ.fields.idxOf? x).isSome = true ↔ x ∈ Γ.fields := by simp
      cases hf : Γ.fields.idxOf? x with
      | some i => rw [hf] at hi; exact ⟨fun _ => .inr (hi.1 rfl), fun _ => ⟨_, rfl⟩⟩
      | none =>
        rw [hf] at hi
        constructor
        · rintro ⟨_, h⟩; cases h
        · rintro (h | h)
          · cases h
          · exact absurd (hi.2 h) (by simp)
  induction xs with
  | nil => exact ⟨fun _ _ h => (nomatch h), fun _ => ⟨[], rfl⟩⟩
  | cons x xs ih =>
    have ih' := ih fun y hy => hx y (List.mem_cons_of_mem _ hy)
    have hx' := one x (hx x List.mem_cons_self)
    simp only [List.mem_cons, forall_eq_or_imp]
    refine Iff.trans ?_ (and_congr hx' ih')
    constructor
    · rintro ⟨ts, h⟩
      simp only [popVariables] at h
      obtain ⟨t, h1, h⟩ := except_bind_ok h
      obtain ⟨ts', h2, h⟩ := except_bind_ok h
      exact ⟨⟨t, h1⟩, ts', h2⟩
    · rintro ⟨⟨t, h1⟩, ts, h2⟩
      exact ⟨t :: ts, by simp only [popVariables, h1, h2, bind, Except.bind]⟩

mutual
theorem expr_iff {N : Numbers} (hN : N.Total) (Γ : Ctx) (D : List Name) (s : St) (hD : Same Γ.scopes D) (t : Tree) (hn : ∀ x ∈ names t, x ≠ blockSelf) :
    (∃ p, expr N Γ s t = .ok p) ↔ Valid Γ.fields D t := by
  match t with
  | .var x => exact ⟨fun _ => trivial, fun _ => ⟨_, rfl⟩⟩
  | .lit l =>
    obtain ⟨p, hp⟩ := literal_total hN s l
    simp only [expr, hp, bind, Except.bind]
    exact ⟨fun _ => trivial, fun _ => ⟨_, rfl⟩⟩
  | .send sup sel r as =>
    have ih := expr_iff hN Γ D s hD r fun x hx => hn x (List.mem_append_left _ hx)
    have ih2 := fun s => args_iff hN Γ D s hD as fun x hx => hn x (List.mem_append_right _ hx)
    constructor
    · rintro ⟨p, h⟩
      simp only [expr] at h
      obtain ⟨⟨r', s1⟩, h1, h⟩ := except_bind_ok h
      refine ⟨ih.1 ⟨_, h1⟩, ?_⟩
      dsimp only at h
      split at h
      · next hc =>
        obtain ⟨l, rfl⟩ := isOne_inv hc.2.2.1
        exact ⟨trivial, trivial⟩
      · obtain ⟨⟨as', s2⟩, h2, h⟩ := except_bind_ok h
        exact (ih2 _).1 ⟨_, h2⟩
    · rintro ⟨h1, h2⟩
      obtain ⟨⟨r', s1⟩, h1⟩ := ih.2 h1
      obtain ⟨⟨as', s2⟩, h2⟩ := (ih2 s1.choose.2).2 h2
      simp only [expr, h1, bind, Except.bind]
      split
      · exact ⟨_, rfl⟩
      · simp only [h2]
        exact ⟨_, rfl⟩
  | .assign xs v =>
    have ih := expr_iff hN Γ D s hD v fun x hx => hn x (List.mem_append_right _ hx)
    have ih2 := popVariables_iff hD (xs := xs) fun x hx => hn x (List.mem_append_left _ hx)
    constructor
    · rintro ⟨p, h⟩
      simp only [expr] at h
      obtain ⟨⟨r', s1⟩, h1, h⟩ := except_bind_ok h
      obtain ⟨ts, h2, h⟩ := except_bind_ok h
      exact ⟨ih.1 ⟨_, h1⟩, ih2.1 ⟨_, h2⟩⟩
    · rintro ⟨h1, h2⟩
      obtain ⟨⟨r', s1⟩, h1⟩ := ih.2 h1
      obtain ⟨ts, h2⟩ := ih2.2 h2
      simp only [expr, h1, h2, bind, Except.bind]
      cases ts <;> exact ⟨_, rfl⟩
  | .block ps ls ts ex =>
    have hps : ∀ x ∈ ps, x ≠ blockSelf := fun x hx => hn x (List.mem_append_left _ (List.mem_append_left _ hx))
    have sc := newScope_iff (n := s.next + 1) (first := blockSelf) (ls := ls) (.inr rfl) hps
    have ih := fun Γ' s hD => body_iff hN true Γ' (ls ++ ps ++ D) s ex hD ts fun x hx => hn x (List.mem_append_right _ hx)
    constructor
    · rintro ⟨p, h⟩
      simp only [expr] at h
      obtain ⟨S, h1, h⟩ := except_bind_ok h
      obtain ⟨⟨b, s1⟩, h2, h⟩ := except_bind_ok h
      have h3 := sc.1 ⟨S, h1⟩
      obtain ⟨rfl, _, _⟩ := newScope_ok h1
      have h4 := (ih _ _ hD.block).1 ⟨_, h2⟩
      exact ⟨h3.1, h3.2, h4⟩
    · rintro ⟨h1, h2, h3⟩
      obtain ⟨S, h1⟩ := sc.2 ⟨h1, h2⟩
      obtain ⟨e, _, _⟩ := newScope_ok h1
      obtain ⟨⟨b, s1⟩, h4⟩ := (ih { Γ with scopes := S :: Γ.scopes } { s with next := s.next + 1 + (ps.length + 1) + ls.length } (e ▸ hD.block)).2 h3
      simp only [expr, h1, h4, bind, Except.bind]
      exact ⟨_, rfl⟩
theorem args_iff {N : Numbers} (hN : N.Total) (Γ : Ctx) (D : List Name) (s : St) (hD : Same Γ.scopes D) (ts : List Tree) (hn : ∀ x ∈ namesL ts, x ≠ blockSelf) :
    (∃ p, args N Γ s ts = .ok p) ↔ ValidL Γ.fields D ts := by
  match ts with
  | [] => exact ⟨fun _ => trivial, fun _ => ⟨_, rfl⟩⟩
  | t :: ts =>
    have ih := expr_iff hN Γ D s hD t fun x hx => hn x (List.mem_append_left _ hx)
    have ih2 := fun s => args_iff hN Γ D s hD ts fun x hx => hn x (List.mem_append_right _ hx)
    constructor
    · rintro ⟨p, h⟩
      simp only [args] at h
      obtain ⟨⟨r', s1⟩, h1, h⟩ := except_bind_ok h
      obtain ⟨⟨as', s2⟩, h2, h⟩ := except_bind_ok h
      exact ⟨ih.1 ⟨_, h1⟩, (ih2 s1).1 ⟨_, h2⟩⟩
    · rintro ⟨h1, h2⟩
      obtain ⟨⟨r', s1⟩, h1⟩ := ih.2 h1
      obtain ⟨⟨as', s2⟩, h2⟩ := (ih2 s1).2 h2
      simp only [args, h1, h2, bind, Except.bind]
      exact ⟨_, rfl⟩
theorem body_iff {N : Numbers} (hN : N.Total) (isBlock : Bool) (Γ : Ctx) (D : List Name) (s : St) (ex : Bool) (hD : Same Γ.scopes D) (ts : List Tree)
    (hn : ∀ x ∈ namesL ts, x ≠ blockSelf) : (∃ p, body N isBlock Γ s ex ts = .ok p) ↔ ValidL Γ.fields D ts := by
  match ts with
  | [] => exact ⟨fun _ => trivial, fun _ => ⟨_, rfl⟩⟩
  | t :: ts =>
    have ih := fun s => expr_iff hN Γ D s hD t fun x hx => hn x (List.mem_append_left _ hx)
    have ih2 := fun s => body_iff hN isBlock Γ D s ex hD ts fun x hx => hn x (List.mem_append_right _ hx)
    constructor
    · rintro ⟨p, h⟩
      simp only [body] at h
      split at h
      · next hc =>
        have hnil : ts = [] := List.isEmpty_iff.1 hc.1
        split at h
        · next hs =>
          rw [isSelf_inv hs.2.1, hnil]
          exact ⟨trivial, trivial⟩
        · obtain ⟨⟨r', s1⟩, h1, h⟩ := except_bind_ok h
          rw [hnil]
          exact ⟨(ih _).1 ⟨_, h1⟩, trivial⟩
      · obtain ⟨⟨r', s1⟩, h1, h⟩ := except_bind_ok h
        refine ⟨(ih _).1 ⟨_, h1⟩, ?_⟩
        dsimp only at h
        split at h
        · next hc =>
          rw [List.isEmpty_iff.1 hc.1]
          exact trivial
        · obtain ⟨⟨as', s2⟩, h2, h⟩ := except_bind_ok h
          exact (ih2 _).1 ⟨_, h2⟩
    · rintro ⟨h1, h2⟩
      obtain ⟨⟨r0, s0⟩, h0⟩ := (ih s.choose.2).2 h1
      obtain ⟨⟨r', s1⟩, h1⟩ := (ih s).2 h1
      obtain ⟨⟨as', s2⟩, h2⟩ := (ih2 s1.choose.2).2 h2
      simp only [body]
      split
      · split
        · exact ⟨_, rfl⟩
        · simp only [h0, bind, Except.bind]
          exact ⟨_, rfl⟩
      · simp only [h1, bind, Except.bind]
        split
        · exact ⟨_, rfl⟩
        · simp only [h2]
          exact ⟨_, rfl⟩
end

/-! ## Methods -/

theorem method_inv {N : Numbers} {fields : List Name} {bits : List Bool} {ps ls : List Name} {ts : List Tree} {ex : Bool} {S : SMethod} (h : method N fields bits ps ls ts ex = .ok S) :
    ∃ b s', body N false ⟨[⟨(selfName :: ps).zipIdx 0, ls.zipIdx (0 + (ps.length + 1))⟩], fields⟩ ⟨ps.length + 1 + ls.length, 0, bits⟩ ex ts = .ok (b, s') ∧
      S = ⟨((selfName :: ps).zipIdx 0).map fun p => some p.2, (ls.zipIdx (0 + (ps.length + 1))).map Prod.snd, b⟩ := by
  simp only [method] at h
  obtain ⟨S', h1, h⟩ := except_bind_ok h
  obtain ⟨⟨b, s'⟩, h2, h⟩ := except_bind_ok h
  obtain ⟨rfl, _, _⟩ := newScope_ok h1
  cases h
  exact ⟨b, s', h2, rfl⟩

theorem method_wf {N : Numbers} {fields : List Name} {bits : List Bool} {ps ls : List Name} {ts : List Tree} {ex : Bool} {S : SMethod} (h : method N fields bits ps ls ts ex = .ok S)
    (ha : arityL ts) (hp : plainL ts) : S.Wf := by
  obtain ⟨b, s', hb, rfl⟩ := method_inv h
  have o := body_out _ _ _ _ _ _ _ _ hb
  exact ⟨o.wf ha hp, o.fits, o.ids.nodup⟩

theorem method_nodup {N : Numbers} {fields : List Name} {bits : List Bool} {ps ls : List Name} {ts : List Tree} {ex : Bool} {S : SMethod} (h : method N fields bits ps ls ts ex = .ok S) :
    (S.env ++ S.body.slocals).Nodup := by
  obtain ⟨b, s', hb, rfl⟩ := method_inv h
  have o := body_out _ _ _ _ _ _ _ _ hb
  refine (In.append ((In.zipIdx ls _).mono (Nat.le_refl _) ?_) o.locals).nodup
  simp only
  omega

theorem lookup_self {ps ls : List Name} (h : selfName ∉ ls) : (ls.zipIdx (ps.length + 1) ++ (selfName :: ps).zipIdx 0).lookup selfName = some 0 := by
  rw [List.lookup_append]
  have : (ls.zipIdx (ps.length + 1)).lookup selfName = none := by
    have h1 := indexOf_lookup (ls.zipIdx (ps.length + 1)) selfName
    have h2 := indexOf_isSome (ls.zipIdx (ps.length + 1)) selfName
    rw [zipIdx_fst] at h2
    cases e : indexOf (ls.zipIdx (ps.length + 1)) selfName with
    | some i => rw [e] at h2; exact absurd (h2.1 rfl) h
    | none => rw [e] at h1; exact h1
  rw [this]
  simp [List.zipIdx_cons]

theorem method_acc {N : Numbers} {fields : List Name} {bits : List Bool} {ps ls : List Name} {ts : List Tree} {ex : Bool} {S : SMethod} (h : method N fields bits ps ls ts ex = .ok S)
    (hn : ∀ x ∈ namesL ts, x ≠ blockSelf) (hs : selfName ∉ ls) : methodUses fields ps ls ts = S.accesses ∨ methodUses fields ps ls ts = S.accesses ++ [.read (some 0)] := by
  obtain ⟨b, s', hb, rfl⟩ := method_inv h
  exact (body_acc _ _ _ _ _ _ _ _ hb 0 _ _ Rel.method hn).1 (lookup_self hs)

mutual
theorem uses_known (fields : List Name) (Γ : Env) (n : Nat) (t : Tree) : Known (uses fields Γ n t) := by
  match t with
  | .var x => simp only [uses]; exact reads_known fields Γ x
  | .lit _ => exact fun _ h => nomatch h
  | .send _ _ r as =>
    exact fun a h => (List.mem_append.1 h).elim (uses_known fields Γ n r a) (usesL_known fields Γ _ as a)
  | .assign xs v =>
    refine fun a h => (List.mem_append.1 h).elim (uses_known fields Γ n v a) fun h => ?_
    obtain ⟨x, _, hx⟩ := List.mem_flatMap.1 h
    exact writes_known fields Γ x a hx
  | .block ps ls ts _ => exact usesL_known fields _ _ ts
theorem usesL_known (fields : List Name) (Γ : Env) (n : Nat) (ts : List Tree) : Known (usesL fields Γ n ts) := by
  match ts with
  | [] => exact fun _ h => nomatch h
  | t :: ts => exact fun a h => (List.mem_append.1 h).elim (uses_known fields Γ n t a) (usesL_known fields Γ _ ts a)
theorem reads_known (fields : List Name) (Γ : Env) (x : Name) : Known (reads fields Γ x) := by
  intro a h
  unfold reads at h
  split at h
  · rw [List.mem_singleton.1 h]; rfl
  · split at h
    · rw [List.mem_singleton.1 h]; rfl
    · cases h
theorem writes_known (fields : List Name) (Γ : Env) (x : Name) : Known (writes fields Γ x) := by
  intro a h
  unfold writes at h
  split at h
  · rw [List.mem_singleton.1 h]; rfl
  · split at h
    · rw [List.mem_singleton.1 h]; rfl
    · cases h
end

end PySOM.Elab

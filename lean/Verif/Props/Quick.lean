import Verif.Lemmas.Quick
import Verif.Lemmas.Scope
/-!
# C47: self-rewriting bytecode is unobservable
-/
set_option autoImplicit false
namespace PySOM.Quick
open PySOM PySOM.BC

section
variable {M I W E : Type}

/-- The places from which the interpreter continues are instruction boundaries. -/
theorem plain_boundary {me : Meth M I} (hwf : BC.Spec.WellFormed me.code.lits me.code.bytes) {pc : Nat}
    (hb : BC.Spec.Boundary me.code.bytes pc) (s : List Val) :
    (∀ pc' s', Spec.plain me pc s = .goto pc' s' → BC.Spec.Boundary me.code.bytes pc') ∧
    (∀ a n pc', Spec.plain me pc s = .act a n pc' → BC.Spec.Boundary me.code.bytes pc') := by
  rcases hwf.whole pc hb with h0 | ⟨op, n, d, ho, hn, hle, hd⟩
  · have e : decode me.code.lits (me.code.bytes.drop pc) = none := by
      rw [decode_at, List.getElem?_eq_none_iff.mpr (by omega)]
    simp only [Spec.plain, e]
    exact ⟨fun _ _ h => (nomatch h), fun _ _ _ h => (nomatch h)⟩
  · have hlen : d.len = n := by
      have hd' := hd
      rw [decode_at, ho] at hd'
      have := C44_lengths_agree me.code.lits op ((me.code.bytes.drop pc).drop 1) d (by
        show decodeOp _ _ _ _ = _
        rw [List.getElem?_drop, List.getElem?_drop, List.getElem?_drop, List.getElem?_drop]
        simpa only [← Nat.add_assoc] using hd')
      rw [hn] at this
      cases this
      rfl
    have hnext : BC.Spec.Boundary me.code.bytes (pc + d.len) := hlen ▸ .next pc op n hb ho hn
    have hj : ∀ t : Int, d.target pc = some t → ∃ r : Nat, t = r ∧ BC.Spec.Boundary me.code.bytes r := by
      intro t ht
      obtain ⟨r, hr, _, hr'⟩ := hwf.jumps pc t hb (target_jumpsTo hd ht (by omega))
      exact ⟨r, hr, hr'⟩
    have hinv : ∀ (sel : Sel) (k : Nat) (x : LOut M I), (match me.look sel with
        | some inv => invokeOut pc s inv k
        | none => .fail .attribute) = x → (∀ pc' s', x = .goto pc' s' → False) ∧ (∀ a n pc', x = .act a n pc' → pc' = pc + 2) := by
      intro sel k x hx
      subst hx
      cases me.look sel with
      | none => exact ⟨fun _ _ h => (nomatch h), fun _ _ _ h => (nomatch h)⟩
      | some inv =>
        simp only [invokeOut]
        split
        · exact ⟨fun _ _ h => (nomatch h), fun _ _ _ h => by cases h; rfl⟩
        · exact ⟨fun _ _ h => (nomatch h), fun _ _ _ h => (nomatch h)⟩
    have hins : ∀ (i : Ins M) (len : Nat), d = .ins i len →
        (∀ pc' s', outOf (Spec.meaning me) me.code.max pc s d = .goto pc' s' → pc' = pc + len) ∧
        (∀ a n pc', outOf (Spec.meaning me) me.code.max pc s d = .act a n pc' → pc' = pc + len) := by
      intro i len he
      subst he
      simp only [outOf]
      cases i.eff s with
      | pure s' =>
        simp only [move]
        split
        · exact ⟨fun _ _ h => by cases h; rfl, fun _ _ _ h => (nomatch h)⟩
        · exact ⟨fun _ _ h => (nomatch h), fun _ _ _ h => (nomatch h)⟩
      | act a n =>
        dsimp only
        cases Spec.meaning me a with
        | ok q => exact ⟨fun _ _ h => (nomatch h), fun _ _ _ h => by cases h; rfl⟩
        | error e => exact ⟨fun _ _ h => (nomatch h), fun _ _ _ h => (nomatch h)⟩
      | ret v => exact ⟨fun _ _ h => (nomatch h), fun _ _ _ h => (nomatch h)⟩
      | underflow => exact ⟨fun _ _ h => (nomatch h), fun _ _ _ h => (nomatch h)⟩
    have hent : ∀ (p' : Nat) (s' : List Val), BC.Spec.Boundary me.code.bytes p' →
        (∀ pc' s'', ofCfg (M := M) (I := I) (enter me.code.max p' s' ()) = .goto pc' s'' → BC.Spec.Boundary me.code.bytes pc') ∧
        (∀ a n pc', ofCfg (M := M) (I := I) (enter me.code.max p' s' ()) = .act a n pc' → BC.Spec.Boundary me.code.bytes pc') := by
      intro p' s' hp
      simp only [enter]
      split
      · exact ⟨fun _ _ h => by cases h; exact hp, fun _ _ _ h => (nomatch h)⟩
      · exact ⟨fun _ _ h => (nomatch h), fun _ _ _ h => (nomatch h)⟩
    simp only [Spec.plain, hd]
    cases d with
    | ins i len =>
      have key := hins i len rfl
      cases i with
      | superSend sel k =>
        have h2 : len = 2 := by
          have h1 : Nameless (.ins (.superSend sel k) len : Dec M) → False := fun h => h
          have hd' := hd
          rw [decode_at, ho] at hd'
          dsimp only at hd'
          by_cases hnm : op ∈ named
          · simp only [named, List.mem_cons, List.not_mem_nil, or_false] at hnm
            rcases hnm with rfl | rfl | rfl | rfl | rfl
            · change (do let s ← constSym me.code.lits (← me.code.bytes[pc + 1]?); some (Dec.ins (.superSend s (Sym.numberOfSignatureArguments s)) 2)) = _ at hd'
              simp only [Option.bind_eq_bind, Option.bind_eq_some_iff, Option.some.injEq] at hd'
              obtain ⟨_, _, _, _, h⟩ := hd'
              cases h
              rfl
            all_goals
              exfalso
              unfold decodeOp at hd'
              repeat rw [if_neg (by decide)] at hd'
              rw [if_pos rfl] at hd'
              simp only [Option.bind_eq_bind, Option.bind_eq_some_iff, Option.some.injEq] at hd'
              obtain ⟨_, _, _, _, h⟩ := hd'
              cases h
          · exact (h1 (decodeOp_nameless hd' hnm)).elim
        subst h2
        have := hinv sel k _ rfl
        exact ⟨fun pc' s' h => (this.1 pc' s' h).elim, fun a n pc' h => this.2 a n pc' h ▸ hnext⟩
      | _ => exact ⟨fun pc' s' h => key.1 pc' s' h ▸ hnext, fun a n pc' h => key.2 a n pc' h ▸ hnext⟩
    | jump off =>
      obtain ⟨r, hr, hb'⟩ := hj _ rfl
      have : pc + off = r := by omega
      exact hent _ _ (this ▸ hb')
    | jumpTop c off =>
      obtain ⟨r, hr, hb'⟩ := hj _ rfl
      have : pc + off = r := by omega
      simp only [outOf, jumpTo]
      cases s with
      | nil => exact ⟨fun _ _ h => (nomatch h), fun _ _ _ h => (nomatch h)⟩
      | cons v s =>
        dsimp only
        split
        · exact hent _ _ (this ▸ hb')
        · exact hent _ _ hnext
    | jumpPop c off =>
      obtain ⟨r, hr, hb'⟩ := hj _ rfl
      have : pc + off = r := by omega
      simp only [outOf, jumpTo]
      cases s with
      | nil => exact ⟨fun _ _ h => (nomatch h), fun _ _ _ h => (nomatch h)⟩
      | cons v s =>
        dsimp only
        split
        · exact hent _ _ (this ▸ hb')
        · exact hent _ _ hnext
    | jumpBack off =>
      obtain ⟨r, hr, hb'⟩ := hj _ rfl
      simp only [outOf, jumpTo]
      split
      · have : pc - off = r := by omega
        exact hent _ _ (this ▸ hb')
      · exact ⟨fun _ _ h => (nomatch h), fun _ _ _ h => (nomatch h)⟩

/-- All activations are at instruction boundaries. -/
structure Placed (ms : Nat → Meth M I) (st : St W E) : Prop where
  run : ∀ m pc s w, st.ctl = .run m pc s w → BC.Spec.Boundary (ms m).code.bytes pc
  act : ∀ t m pc n, st.ctl = .act t m pc n → BC.Spec.Boundary (ms m).code.bytes pc
  stack : ∀ k ∈ st.stack, BC.Spec.Boundary (ms k.m).code.bytes k.pc

theorem Placed.step {ms : Nat → Meth M I} {B : Behaviour M I W E} {max : Nat → Nat} {py : Err → E}
    (hwf : ∀ m, BC.Spec.WellFormed (ms m).code.lits (ms m).code.bytes) {st st' : St W E} (hp : Placed ms st)
    (h : Step (Spec.loop ms) B max py ((), st) ((), st')) : Placed ms st' := by
  generalize hc : ((), st) = c at h
  generalize hc' : ((), st') = c' at h
  cases h with
  | goto _ _ m pc s w stk pc' s' h =>
    cases hc; cases hc'
    have hb := hp.run _ _ _ _ rfl
    exact ⟨fun m pc s w e => by cases e; exact (plain_boundary (hwf _) hb _).1 _ _ (Prod.mk.inj h).2, fun _ _ _ _ e => (nomatch e), hp.stack⟩
  | ret _ _ m pc s w stk v h =>
    cases hc; cases hc'
    exact ⟨fun _ _ _ _ e => (nomatch e), fun _ _ _ _ e => (nomatch e), hp.stack⟩
  | fail _ _ m pc s w stk v h =>
    cases hc; cases hc'
    exact ⟨fun _ _ _ _ e => (nomatch e), fun _ _ _ _ e => (nomatch e), hp.stack⟩
  | crash _ _ m pc s w stk v h =>
    cases hc; cases hc'
    exact ⟨fun _ _ _ _ e => (nomatch e), fun _ _ _ _ e => (nomatch e), hp.stack⟩
  | act _ _ m pc s w stk a n pc' t h hb =>
    cases hc; cases hc'
    have hb := hp.run _ _ _ _ rfl
    exact ⟨fun _ _ _ _ e => (nomatch e), fun t m pc n e => by cases e; exact (plain_boundary (hwf _) hb _).2 _ _ _ (Prod.mk.inj h).2, hp.stack⟩
  | fin _ m pc n v w stk =>
    cases hc; cases hc'
    have hb := hp.act _ _ _ _ rfl
    refine ⟨fun m' pc' s' w' e => ?_, fun t m' pc' n' e => ?_, hp.stack⟩
    · dsimp only [resume] at e
      cases n with
      | push s => dsimp only at e; split at e <;> cases e; exact hb
      | drop s => dsimp only at e; split at e <;> cases e; exact hb
      | ret => cases e
    · dsimp only [resume] at e
      cases n with
      | push s => dsimp only at e; split at e <;> cases e
      | drop s => dsimp only at e; split at e <;> cases e
      | ret => cases e
  | raise _ m pc n e w stk =>
    cases hc; cases hc'
    exact ⟨fun _ _ _ _ e => (nomatch e), fun _ _ _ _ e => (nomatch e), hp.stack⟩
  | call _ m pc n m' w k stk =>
    cases hc; cases hc'
    refine ⟨fun _ _ _ _ e => by cases e; exact .zero, fun _ _ _ _ e => (nomatch e), fun x hx => ?_⟩
    cases hx with
    | head => exact hp.act _ _ _ _ rfl
    | tail _ hx => exact hp.stack x hx
  | back _ m pc n r w k stk =>
    cases hc; cases hc'
    refine ⟨fun _ _ _ _ e => (nomatch e), fun _ _ _ _ e => by cases e; exact hp.stack ⟨m, pc, n, k⟩ (.head _), fun x hx => hp.stack x (.tail _ hx)⟩

/-- The steps of the machine in which the interpreter loop takes no part. -/
theorem Step.cases_run {T : Type} {L : T → Nat → Nat → List Val → T × LOut M I} {B : Behaviour M I W E} {max : Nat → Nat} {py : Err → E}
    {S S' : T} {st st' : St W E} (h : Step L B max py (S, st) (S', st')) :
    (∃ m pc s w, st.ctl = .run m pc s w ∧ (L S m pc s).1 = S' ∧
      ∀ {T' : Type} (L' : T' → Nat → Nat → List Val → T' × LOut M I) (S2 : T'), (L' S2 m pc s).2 = (L S m pc s).2 →
        Step L' B max py (S2, st) ((L' S2 m pc s).1, st')) ∨
    ((∀ m pc s w, st.ctl ≠ .run m pc s w) ∧ S' = S ∧
      ∀ {T' : Type} (L' : T' → Nat → Nat → List Val → T' × LOut M I) (S2 : T'), Step L' B max py (S2, st) (S2, st')) := by
  generalize hc : (S, st) = c at h
  generalize hc' : (S', st') = c' at h
  cases h with
  | goto _ _ m pc s w stk pc' s' h =>
    cases hc; cases hc'
    exact .inl ⟨m, pc, s, w, rfl, congrArg Prod.fst h, fun L' S2 e => .goto _ _ _ _ _ _ _ _ _ (Prod.ext rfl (e.trans (congrArg Prod.snd h)))⟩
  | ret _ _ m pc s w stk v h =>
    cases hc; cases hc'
    exact .inl ⟨m, pc, s, w, rfl, congrArg Prod.fst h, fun L' S2 e => .ret _ _ _ _ _ _ _ _ (Prod.ext rfl (e.trans (congrArg Prod.snd h)))⟩
  | fail _ _ m pc s w stk v h =>
    cases hc; cases hc'
    exact .inl ⟨m, pc, s, w, rfl, congrArg Prod.fst h, fun L' S2 e => .fail _ _ _ _ _ _ _ _ (Prod.ext rfl (e.trans (congrArg Prod.snd h)))⟩
  | crash _ _ m pc s w stk v h =>
    cases hc; cases hc'
    exact .inl ⟨m, pc, s, w, rfl, congrArg Prod.fst h, fun L' S2 e => .crash _ _ _ _ _ _ _ _ (Prod.ext rfl (e.trans (congrArg Prod.snd h)))⟩
  | act _ _ m pc s w stk a n pc' t h hb =>
    cases hc; cases hc'
    exact .inl ⟨m, pc, s, w, rfl, congrArg Prod.fst h, fun L' S2 e => .act _ _ _ _ _ _ _ _ _ _ _ (Prod.ext rfl (e.trans (congrArg Prod.snd h))) hb⟩
  | fin _ m pc n v w stk => cases hc; cases hc'; exact .inr ⟨fun _ _ _ _ e => (nomatch e), rfl, fun L' S2 => .fin ..⟩
  | raise _ m pc n e w stk => cases hc; cases hc'; exact .inr ⟨fun _ _ _ _ e => (nomatch e), rfl, fun L' S2 => .raise ..⟩
  | call _ m pc n m' w k stk => cases hc; cases hc'; exact .inr ⟨fun _ _ _ _ e => (nomatch e), rfl, fun L' S2 => .call ..⟩
  | back _ m pc n r w k stk => cases hc; cases hc'; exact .inr ⟨fun _ _ _ _ e => (nomatch e), rfl, fun L' S2 => .back ..⟩

/-- All methods are as compiled up to rewriting. -/
def AllRw (nargs : I → Nat) (ms : Nat → Meth M I) (S : Nat → Dyn I) : Prop := ∀ m, Rw nargs (ms m) (S m)

theorem AllRw.set {nargs : I → Nat} {ms : Nat → Meth M I} {S : Nat → Dyn I} (h : AllRw nargs ms S) {m : Nat} {d : Dyn I} (hd : Rw nargs (ms m) d) :
    AllRw nargs ms (fun i => if i = m then d else S i) := by
  intro i
  by_cases e : i = m
  · subst e
    simp only [if_pos]
    exact hd
  · simp only [if_neg e]
    exact h i

/-- A step of the interpreter is a step of the specification, or it only rewrites an instruction, and the step after it is a step of
the specification. -/
theorem sim_step {nargs : I → Nat} {ms : Nat → Meth M I} (ok : ∀ m, OK nargs (ms m)) {B : Behaviour M I W E} {max : Nat → Nat} {py : Err → E}
    {S S' : Nat → Dyn I} {st st' : St W E} (hS : AllRw nargs ms S) (hp : Placed ms st) (h : Step (loop nargs ms) B max py (S, st) (S', st')) :
    AllRw nargs ms S' ∧ (Step (Spec.loop ms) B max py ((), st) ((), st') ∨ (st' = st ∧
      ∀ S2 st2, Step (loop nargs ms) B max py (S', st) (S2, st2) → AllRw nargs ms S2 ∧ Step (Spec.loop ms) B max py ((), st) ((), st2))) := by
  rcases h.cases_run with ⟨m, pc, s, w, hc, hS', hL⟩ | ⟨_, rfl, hL⟩
  · obtain ⟨d', hd', hcase⟩ := local_ok (ok m) (hS m) (hp.run m pc s w hc) s
    rcases hcase with hq | ⟨d1, hd1, hq, hq1⟩
    · refine ⟨?_, .inl (hL (Spec.loop ms) () ?_)⟩
      · rw [← hS']
        simp only [loop, hq]
        exact hS.set hd'
      · simp only [Spec.loop, loop, hq]
    · refine ⟨?_, .inr ⟨?_, fun S2 st2 h2 => ?_⟩⟩
      · rw [← hS']
        simp only [loop, hq]
        exact hS.set hd1
      · obtain ⟨ctl, stk⟩ := st
        cases hc
        have hg : (loop nargs ms S m pc s).2 = .goto pc s := by simp only [loop, hq]
        generalize hx : (S, (⟨.run m pc s w, stk⟩ : St W E)) = c at h
        generalize hy : (S', st') = c' at h
        cases h with
        | goto _ _ _ _ _ _ _ _ _ h => cases hx; cases hy; rw [h] at hg; cases hg; rfl
        | ret _ _ _ _ _ _ _ _ h => cases hx; rw [h] at hg; cases hg
        | fail _ _ _ _ _ _ _ _ h => cases hx; rw [h] at hg; cases hg
        | crash _ _ _ _ _ _ _ _ h => cases hx; rw [h] at hg; cases hg
        | act _ _ _ _ _ _ _ _ _ _ _ h => cases hx; rw [h] at hg; cases hg
        | fin => cases hx
        | raise => cases hx
        | call => cases hx
        | back => cases hx
      · rcases h2.cases_run with ⟨m', pc', s', w', hc2, hS2, hL2⟩ | ⟨hn, _, _⟩
        · rw [hc] at hc2
          cases hc2
          have hm : S' m = d1 := by rw [← hS']; simp only [loop, hq, if_pos]
          refine ⟨?_, hL2 (Spec.loop ms) () ?_⟩
          · rw [← hS2]
            simp only [loop, hm, hq1]
            have : AllRw nargs ms S' := by
              rw [← hS']
              simp only [loop, hq]
              exact hS.set hd1
            exact this.set hd'
          · simp only [Spec.loop, loop, hm, hq1]
        · exact absurd hc (hn m pc s w)
  · exact ⟨hS, .inl (hL (Spec.loop ms) ())⟩

/-- A step of the specification is one or two steps of the interpreter. -/
theorem sim_back {nargs : I → Nat} {ms : Nat → Meth M I} (ok : ∀ m, OK nargs (ms m)) {B : Behaviour M I W E} {max : Nat → Nat} {py : Err → E}
    {S : Nat → Dyn I} {st st' : St W E} (hS : AllRw nargs ms S) (hp : Placed ms st) (h : Step (Spec.loop ms) B max py ((), st) ((), st')) :
    ∃ S', AllRw nargs ms S' ∧ (Step (loop nargs ms) B max py (S, st) (S', st') ∨
      ∃ S1, Step (loop nargs ms) B max py (S, st) (S1, st) ∧ Step (loop nargs ms) B max py (S1, st) (S', st')) := by
  rcases h.cases_run with ⟨m, pc, s, w, hc, hS', hL⟩ | ⟨_, _, hL⟩
  · obtain ⟨d', hd', hcase⟩ := local_ok (ok m) (hS m) (hp.run m pc s w hc) s
    rcases hcase with hq | ⟨d1, hd1, hq, hq1⟩
    · refine ⟨_, ?_, .inl (hL (loop nargs ms) S ?_)⟩
      · simp only [loop, hq]
        exact hS.set hd'
      · simp only [Spec.loop, loop, hq]
    · have hS1 : AllRw nargs ms (fun i => if i = m then d1 else S i) := hS.set hd1
      have h1 : Step (loop nargs ms) B max py (S, st) (fun i => if i = m then d1 else S i, st) := by
        obtain ⟨ctl, stk⟩ := st
        cases hc
        exact .goto _ _ _ _ _ _ _ _ _ (by simp only [loop, hq])
      refine ⟨_, ?_, .inr ⟨_, h1, hL (loop nargs ms) _ ?_⟩⟩
      · simp only [loop, if_pos, hq1]
        exact hS1.set hd'
      · simp only [Spec.loop, loop, if_pos, hq1]
  · exact ⟨S, hS, .inl (hL (loop nargs ms) S)⟩

theorem sim_steps {nargs : I → Nat} {ms : Nat → Meth M I} (ok : ∀ m, OK nargs (ms m)) {B : Behaviour M I W E} {max : Nat → Nat} {py : Err → E}
    (n : Nat) : ∀ {S S' : Nat → Dyn I} {st st' : St W E}, AllRw nargs ms S → Placed ms st → Steps (loop nargs ms) B max py n (S, st) (S', st') →
    AllRw nargs ms S' ∧ ∃ k, k ≤ n ∧ n ≤ 2 * k + 1 ∧ Steps (Spec.loop ms) B max py k ((), st) ((), st') := by
  induction n using Nat.strongRecOn with
  | _ n ih =>
    intro S S' st st' hS hp hs
    generalize hc : (S, st) = c at hs
    generalize hc' : (S', st') = c' at hs
    cases hs with
    | refl => cases hc; cases hc'; exact ⟨hS, 0, by omega, by omega, .refl _⟩
    | step n _ d _ h hs =>
      cases hc; cases hc'
      obtain ⟨S1, st1⟩ := d
      obtain ⟨hS1, hcase⟩ := sim_step ok hS hp h
      rcases hcase with h1 | ⟨rfl, h1⟩
      · obtain ⟨hS2, k, hk, hk', hs'⟩ := ih n (by omega) hS1 (hp.step (fun m => (ok m).wf) h1) hs
        exact ⟨hS2, k + 1, by omega, by omega, .step _ _ _ _ h1 hs'⟩
      · generalize hc : (S1, st1) = c at hs
        generalize hc' : (S', st') = c' at hs
        cases hs with
        | refl => cases hc; cases hc'; exact ⟨hS1, 0, by omega, by omega, .refl _⟩
        | step n _ d _ h2 hs =>
          cases hc; cases hc'
          obtain ⟨S2, st2⟩ := d
          obtain ⟨hS2, h3⟩ := h1 S2 st2 h2
          obtain ⟨hS3, k, hk, hk', hs'⟩ := ih n (by omega) hS2 (hp.step (fun m => (ok m).wf) h3) hs
          exact ⟨hS3, k + 1, by omega, by omega, .step _ _ _ _ h3 hs'⟩

theorem sim_backs {nargs : I → Nat} {ms : Nat → Meth M I} (ok : ∀ m, OK nargs (ms m)) {B : Behaviour M I W E} {max : Nat → Nat} {py : Err → E}
    (n : Nat) : ∀ {S : Nat → Dyn I} {st st' : St W E}, AllRw nargs ms S → Placed ms st → Steps (Spec.loop ms) B max py n ((), st) ((), st') →
    ∃ S' k, n ≤ k ∧ k ≤ 2 * n ∧ AllRw nargs ms S' ∧ Steps (loop nargs ms) B max py k (S, st) (S', st') := by
  induction n with
  | zero =>
    intro S st st' hS hp hs
    cases hs
    exact ⟨S, 0, by omega, by omega, hS, .refl _⟩
  | succ n ih =>
    intro S st st' hS hp hs
    generalize hc : ((), st) = c at hs
    cases hs with
    | step n _ d _ h hs =>
      cases hc
      obtain ⟨_, st1⟩ := d
      obtain ⟨S1, hS1, hcase⟩ := sim_back ok hS hp h
      obtain ⟨S2, k, hk, hk', hS2, hs'⟩ := ih hS1 (hp.step (fun m => (ok m).wf) h) hs
      rcases hcase with h1 | ⟨S0, h0, h1⟩
      · exact ⟨S2, k + 1, by omega, by omega, hS2, .step _ _ _ _ h1 hs'⟩
      · exact ⟨S2, k + 2, by omega, by omega, hS2, .step _ _ _ _ h0 (.step _ _ _ _ h1 hs')⟩

/-! ## The property -/

/-- The beginning of an execution: method `m` is activated in state `w`. -/
def start (m : Nat) (w : W) : St W E := ⟨.run m 0 [] w, []⟩

/-- The sizes of the operand stacks. -/
def sizes (ms : Nat → Meth M I) (m : Nat) : Nat := (ms m).code.max

/-- The bytes and caches of all methods after any number of executions, complete or not, one after the other; each may have its own
behaviour of the rest of the system. -/
inductive History (W E : Type) (nargs : I → Nat) (ms : Nat → Meth M I) : (Nat → Dyn I) → Prop where
  | fresh : History W E nargs ms fun m => (ms m).fresh
  | run (S S' : Nat → Dyn I) (B : Behaviour M I W E) (py : Err → E) (n m : Nat) (w : W) (st : St W E) (h : History W E nargs ms S)
      (hs : Steps (loop nargs ms) B (sizes ms) py n (S, start m w) (S', st)) : History W E nargs ms S'

theorem start_placed (ms : Nat → Meth M I) (m : Nat) (w : W) : Placed ms (start m w : St W E) :=
  ⟨fun _ _ _ _ e => by cases e; exact .zero, fun _ _ _ _ e => (nomatch e), fun _ h => nomatch h⟩

theorem History.allRw {nargs : I → Nat} {ms : Nat → Meth M I} (ok : ∀ m, OK nargs (ms m)) {S : Nat → Dyn I} (h : History W E nargs ms S) :
    AllRw nargs ms S := by
  induction h with
  | fresh => exact fun m => Rw.fresh nargs (ms m) (ok m).wf
  | run S S' B py n m w st h hs ih => exact (sim_steps ok n ih (start_placed ms m w) hs).1

/-- **C47**, soundness: after any history of executions, everything the rewriting interpreter does, an interpreter that looks up every
variable and every super method anew, and never changes the code, does too: same state of the rest of the system, same activations at
the same places with the same operands.  At most every second step is spent on rewriting.  Partial: `OK` asks that the slots of the accessed variables are at most 255, see
`C47_violated_half_patched`; the full statement has only well-formed code and correct scopes as hypotheses. -/
theorem C47_sound_partial {nargs : I → Nat} {ms : Nat → Meth M I} (ok : ∀ m, OK nargs (ms m)) {S : Nat → Dyn I} (hist : History W E nargs ms S)
    (B : Behaviour M I W E) (py : Err → E) (n m : Nat) (w : W) (S' : Nat → Dyn I) (st : St W E)
    (h : Steps (loop nargs ms) B (sizes ms) py n (S, start m w) (S', st)) :
    ∃ k, k ≤ n ∧ n ≤ 2 * k + 1 ∧ Steps (Spec.loop ms) B (sizes ms) py k ((), start m w) ((), st) :=
  (sim_steps ok n (hist.allRw ok) (start_placed ms m w) h).2

/-- **C47**, completeness: after any history of executions, everything an interpreter that never rewrites the code does, the rewriting
interpreter does too. -/
theorem C47_complete_partial {nargs : I → Nat} {ms : Nat → Meth M I} (ok : ∀ m, OK nargs (ms m)) {S : Nat → Dyn I} (hist : History W E nargs ms S)
    (B : Behaviour M I W E) (py : Err → E) (n m : Nat) (w : W) (st : St W E)
    (h : Steps (Spec.loop ms) B (sizes ms) py n ((), start m w) ((), st)) :
    ∃ S' k, n ≤ k ∧ k ≤ 2 * n ∧ Steps (loop nargs ms) B (sizes ms) py k (S, start m w) (S', st) := by
  obtain ⟨S', k, h1, h2, _, h3⟩ := sim_backs ok n (hist.allRw ok) (start_placed ms m w) h
  exact ⟨S', k, h1, h2, h3⟩

/-- **C47**: two histories cannot be told apart: an execution that can end with result `r` in state `w'` after one history can after
any other one. -/
theorem C47_histories_partial {nargs : I → Nat} {ms : Nat → Meth M I} (ok : ∀ m, OK nargs (ms m)) {S T : Nat → Dyn I} (hS : History W E nargs ms S)
    (hT : History W E nargs ms T) (B : Behaviour M I W E) (py : Err → E) (m : Nat) (w : W) (r : Res E) (w' : W)
    (h : ∃ n S', Steps (loop nargs ms) B (sizes ms) py n (S, start m w) (S', ⟨.out r w', []⟩)) :
    ∃ n T', Steps (loop nargs ms) B (sizes ms) py n (T, start m w) (T', ⟨.out r w', []⟩) := by
  obtain ⟨n, S', h⟩ := h
  obtain ⟨k, _, _, hk⟩ := C47_sound_partial ok hS B py n m w S' _ h
  obtain ⟨T', j, _, _, hj⟩ := C47_complete_partial ok hT B py k m w _ hk
  exact ⟨j, T', hj⟩

/-! ## The slots of variables -/

open PySOM.Scope in
/-- The lexical scope of a method or block of a program: `prepare_frame` sets `access_idx` of each variable. -/
def lscope (P : Prog) (s : Nat) (S : Scope.Scope) : LScope :=
  match layoutOf P s S with
  | .ok m => ⟨List.zipWith Var.mk (argFlags P s S) m.argIdx, List.zipWith Var.mk (localFlags P s S) m.localIdx⟩
  | .error _ => ⟨[], []⟩

/-- A scope and those around it. -/
def lscopes (P : Scope.Prog) (s : Nat) : List LScope := (Scope.chain P.scopes s).map fun x => lscope P x.1 x.2

theorem layout_small (P : Scope.Prog) (s : Nat) (S : Scope.Scope) (m : Frame.Layout) (h : Scope.layoutOf P s S = .ok m) :
    m.sizeFrame ≤ 1 + S.args.length + S.locals.length ∧ m.sizeInner ≤ 1 + S.args.length + S.locals.length := by
  have la : (Scope.argFlags P s S).length = S.args.length := by simp [Scope.argFlags]
  have ll : (Scope.localFlags P s S).length = S.locals.length := by simp [Scope.localFlags]
  rw [Scope.layoutOf] at h
  cases hf : Scope.argFlags P s S with
  | nil => rw [hf] at h; cases h
  | cons self rest =>
    rw [hf] at h la
    obtain ⟨m', h1, _, h3⟩ := Frame.C26_separate_storage self rest (Scope.localFlags P s S) (Scope.requires P s)
    rw [h1] at h
    cases h
    have c1 := h3.frame_size
    have c2 := h3.inner_size
    have e := List.length_append (as := rest) (bs := Scope.localFlags P s S)
    simp only [List.tail_cons] at c1 c2
    have k1 := List.count_le_length (a := false) (l := rest ++ Scope.localFlags P s S)
    have k2 := List.count_le_length (a := true) (l := rest ++ Scope.localFlags P s S)
    simp only [List.length_cons] at la
    refine ⟨by omega, ?_⟩
    split at c2 <;> omega

theorem findVar_getVar (P : Scope.Prog) (hargs : ∀ S ∈ P.scopes, S.args ≠ []) (x : String) : ∀ (ch : List (Nat × Scope.Scope)) (lvl : Nat) (f : Scope.Found),
    (∀ p ∈ ch, P.scopes[p.1]? = some p.2) → Scope.findVar ch x lvl = some f →
    ∃ v S, P.scopes[f.scope]? = some S ∧ lvl ≤ f.level ∧ getVar (ch.map fun y => lscope P y.1 y.2) f.isArg f.idx (f.level - lvl) = .ok v ∧
      Scope.place P f = .ok (v.captured, v.idx) ∧ v.captured = Scope.captured P f.scope f.isArg f.idx ∧ 1 ≤ v.idx ∧
      v.idx ≤ S.args.length + S.locals.length := by
  intro ch
  induction ch with
  | nil => intro lvl f _ h; cases h
  | cons p rest ih =>
    intro lvl f hch h
    obtain ⟨s, S⟩ := p
    have hS := hch (s, S) (.head _)
    dsimp only at hS
    have hne := hargs S (List.mem_of_getElem? hS)
    have here : ∀ (isArg : Bool) (i : Nat), i < (if isArg then S.args.length else S.locals.length) → ∃ v, 
        getVar (lscope P s S :: rest.map fun y => lscope P y.1 y.2) isArg i 0 = .ok v ∧ 
        Scope.place P ⟨lvl, s, isArg, i⟩ = .ok (v.captured, v.idx) ∧ v.captured = Scope.captured P s isArg i ∧ 1 ≤ v.idx ∧
        v.idx ≤ S.args.length + S.locals.length := by
      intro isArg i hi
      obtain ⟨m, hm, lok⟩ := Scope.layout_ok P s S hne
      have hsm := layout_small P s S m hm
      obtain ⟨k, hk⟩ := lok.has isArg i hi
      refine ⟨⟨Scope.captured P s isArg i, k⟩, ?_, Scope.place_ok P lvl s S m isArg i k hS hm hk, rfl, ?_, ?_⟩
      · simp only [getVar, lscope, hm]
        have hg : (if isArg = true then List.zipWith Var.mk (Scope.argFlags P s S) m.argIdx else List.zipWith Var.mk (Scope.localFlags P s S) m.localIdx)[i]? =
            some ⟨Scope.captured P s isArg i, k⟩ := by
          cases isArg with
          | true =>
            simp only [if_true] at hi ⊢
            rw [List.getElem?_zipWith]
            have hk' : m.argIdx[i]? = some k := hk
            rw [hk']
            simp [Scope.argFlags, hi]
          | false =>
            simp only [Bool.false_eq_true, if_false] at hi ⊢
            rw [List.getElem?_zipWith]
            have hk' : m.localIdx[i]? = some k := hk
            rw [hk']
            simp [Scope.localFlags, hi]
        rw [hg]
      · by_cases h0 : isArg = true ∧ i = 0
        · obtain ⟨rfl, rfl⟩ := h0
          rw [lok.self] at hk
          cases hk
          exact Nat.le_refl _
        · have := lok.inside isArg i k hk h0
          exact Nat.le_trans (by omega) this.1
      · by_cases h0 : isArg = true ∧ i = 0
        · obtain ⟨rfl, rfl⟩ := h0
          rw [lok.self] at hk
          cases hk
          have : 0 < S.args.length := List.length_pos_iff.mpr hne
          show 1 ≤ _
          omega
        · have := (lok.inside isArg i k hk h0).2
          show k ≤ _
          split at this <;> omega
    simp only [Scope.findVar] at h
    cases h1 : S.locals.idxOf? x with
    | some i =>
      rw [h1] at h
      cases h
      obtain ⟨v, a, b, c, d, e⟩ := here false i (Scope.idxOf?_lt h1)
      exact ⟨v, S, hS, Nat.le_refl _, by rw [Nat.sub_self]; exact a, b, c, d, e⟩
    | none =>
      rw [h1] at h
      dsimp only at h
      cases h2 : S.args.idxOf? x with
      | some i =>
        rw [h2] at h
        cases h
        obtain ⟨v, a, b, c, d, e⟩ := here true i (Scope.idxOf?_lt h2)
        exact ⟨v, S, hS, Nat.le_refl _, by rw [Nat.sub_self]; exact a, b, c, d, e⟩
      | none =>
        rw [h2] at h
        dsimp only at h
        obtain ⟨v, S', a, b, c, d⟩ := ih (lvl + 1) f (fun p hp => hch p (.tail _ hp)) h
        refine ⟨v, S', a, by omega, ?_, d⟩
        obtain ⟨j, hj⟩ : ∃ j, f.level - lvl = j + 1 := ⟨f.level - lvl - 1, by omega⟩
        have hj' : f.level - (lvl + 1) = j := by omega
        rw [hj'] at c
        rw [hj]
        exact c

theorem chain_scopes (sc : List Scope.Scope) (s : Nat) : ∀ p ∈ Scope.chain sc s, sc[p.1]? = some p.2 := by
  induction s using Nat.strongRecOn with
  | _ s ih =>
    intro p hp
    rw [Scope.chain] at hp
    cases h : sc[s]? with
    | none => rw [h] at hp; cases hp
    | some S =>
      rw [h] at hp
      dsimp only at hp
      cases hp with
      | head => exact h
      | tail _ hp =>
        cases ho : S.outer with
        | none => rw [ho] at hp; cases hp
        | some o =>
          rw [ho] at hp
          dsimp only at hp
          split at hp
          · rename_i hlt; exact ih o hlt p hp
          · cases hp

/-- The hypothesis of the theorems above on variable accesses holds for what the compiler produces, as long as the scope of the variable has
at most 255 arguments and locals together: an access to the name `x` in scope `s` is compiled to the kind, index and level of `find_var`; with
these `patch_variable_access` finds the variable's place (`place`, see C28), variables of outer scopes are in contexts, and the slot fits into a
byte. -/
theorem C47_slots (P : Scope.Prog) (hargs : ∀ S ∈ P.scopes, S.args ≠ []) (s : Nat) (x : String) (hu : (s, x) ∈ P.uses) (f : Scope.Found)
    (hf : Scope.findVar (Scope.chain P.scopes s) x 0 = some f)
    (hn : ∀ S, P.scopes[f.scope]? = some S → S.args.length + S.locals.length ≤ 255) :
    ∃ v, getVar (lscopes P s) f.isArg f.idx f.level = .ok v ∧ Scope.place P f = .ok (v.captured, v.idx) ∧ 1 ≤ v.idx ∧ v.idx ≤ 255 ∧
      (0 < f.level → v.captured = true) := by
  obtain ⟨v, S, hS, _, a, b, c, d, e⟩ := findVar_getVar P hargs x _ 0 f (chain_scopes P.scopes s) hf
  refine ⟨v, a, b, d, Nat.le_trans e (hn S hS), fun hl => ?_⟩
  rw [c]
  exact Scope.captured_of_use hu hf hl

/-! ## A concrete program -/
namespace Ex

/-- `foo: x = ( | t | t := x. ^ super foo: t )`, method 0; the superclass's `foo:` is method 1 (`^ x`). -/
def bytes0 : List Nat :=
  [Op.pushArgument, 1, 0, Op.popLocal, 0, 0, Op.pushArgument, 0, 0, Op.pushLocal, 0, 0, Op.superSend, 0, Op.returnLocal]

def foo : Sel := "foo:".toList

def sc : List LScope := [⟨[⟨false, 1⟩, ⟨false, 2⟩], [⟨false, 3⟩]⟩]

def me0 : Meth Nat Nat := ⟨⟨[.val (.sym foo)], bytes0, 4⟩, sc, fun s => if s = foo then some 1 else none⟩

theorem bounds {p : Nat} (h : BC.Spec.Boundary bytes0 p) : p ∈ [0, 3, 6, 9, 12, 14, 15] := by
  induction h with
  | zero => decide
  | next p op n _ ho hn ih =>
    simp only [List.mem_cons, List.not_mem_nil, or_false] at ih
    rcases ih with rfl | rfl | rfl | rfl | rfl | rfl | rfl <;> cases ho <;> cases hn <;> decide

theorem ok0 : OK (fun _ => 2) me0 := by
  refine ⟨⟨by decide, fun p hp => ?_, fun p t hp hj => ?_⟩, fun p isArg isPush idx lvl hp ho h1 h2 => ?_, fun sel inv h => ?_⟩
  · have := bounds hp
    simp only [List.mem_cons, List.not_mem_nil, or_false] at this
    rcases this with rfl | rfl | rfl | rfl | rfl | rfl | rfl
    · exact .inr ⟨_, _, _, rfl, rfl, by decide, rfl⟩
    · exact .inr ⟨_, _, _, rfl, rfl, by decide, rfl⟩
    · exact .inr ⟨_, _, _, rfl, rfl, by decide, rfl⟩
    · exact .inr ⟨_, _, _, rfl, rfl, by decide, rfl⟩
    · exact .inr ⟨_, _, _, rfl, rfl, by decide, rfl⟩
    · exact .inr ⟨_, _, _, rfl, rfl, by decide, rfl⟩
    · exact .inl rfl
  · exfalso
    have := bounds hp
    simp only [List.mem_cons, List.not_mem_nil, or_false] at this
    obtain ⟨op, a, b, ho, _, _, h⟩ := hj
    rcases this with rfl | rfl | rfl | rfl | rfl | rfl | rfl <;> cases ho <;>
      (rcases h with h | h | h | h <;> (have := h.1; revert this; decide))
  · have := bounds hp
    simp only [List.mem_cons, List.not_mem_nil, or_false] at this
    rcases this with rfl | rfl | rfl | rfl | rfl | rfl | rfl <;> cases h1 <;> cases h2 <;> cases isArg <;> cases isPush <;>
      first
      | (exfalso; revert ho; decide)
      | exact ⟨_, rfl, by decide, by decide, by decide⟩
  · simp only [me0] at h
    split at h
    · rename_i e
      subst e
      rfl
    · cases h

/-- The first execution rewrites the instructions as it meets them. -/
example : (qlocal (fun _ => 2) me0 me0.fresh 0 []).1.bytes.take 3 = [Op.pushFrame1, 2, 0] := rfl
example : (qlocal (fun _ => 2) me0 me0.fresh 12 [.int 7, .nil]).1.bytes.drop 12 = [Op.qSuperSend2, 0, Op.returnLocal] := rfl
example : (qlocal (fun _ => 2) me0 me0.fresh 12 [.int 7, .nil]).2 = .act (.invoke 1 [.nil, .int 7]) (.push []) 14 := rfl

/-- All methods of the example program are the method above; super sends run it again. -/
example (B : Behaviour Nat Nat Nat Nat) (py : Err → Nat) (n : Nat) (S' : Nat → Dyn Nat) (st : St Nat Nat)
    (h : Steps (loop (fun _ => 2) fun _ => me0) B (sizes fun _ => me0) py n (fun _ => me0.fresh, start 0 5) (S', st)) :
    ∃ k, k ≤ n ∧ n ≤ 2 * k + 1 ∧ Steps (Spec.loop fun _ => me0) B (sizes fun _ => me0) py k ((), start 0 5) ((), st) :=
  C47_sound_partial (fun _ => ok0) .fresh B py n 0 5 S' st h

/-- Variables of a block and of the method around it. -/
example : lscopes ⟨[⟨["self", "x"], ["t"], none⟩, ⟨["$blockSelf", "y"], [], some 0⟩], [(1, "x"), (1, "y"), (0, "t")], []⟩ 1 =
    [⟨[⟨false, 1⟩, ⟨false, 2⟩], []⟩, ⟨[⟨false, 1⟩, ⟨true, 2⟩], [⟨false, 2⟩]⟩] := by
  decide +kernel
end Ex

/-! ## Too many variables -/

/-- **C47 is violated** in methods with more than 255 variables.  The assertion on the slot comes after the opcode has been replaced: the first
execution of the instruction fails, and every later one silently reads the slot numbered like the variable's *index*, which belongs to another
variable, where an interpreter without rewriting reads the variable.  Here: the last of 255 locals, `| v0 … v254 |`, whose slot is 256; the
second execution reads slot 254, which is `v252`. -/
theorem C47_violated_half_patched :
    let P : Scope.Prog := ⟨[⟨["self"], (List.range 255).map fun i => "v" ++ toString i, none⟩], [], []⟩
    let me : Meth Nat Nat := ⟨⟨[], [Op.pushLocal, 254, 0, Op.returnLocal], 4⟩, lscopes P 0, fun _ => none⟩
    let first := qlocal (fun _ => 1) me me.fresh 0 []
    let second := qlocal (fun _ => 1) me first.1 0 []
    Spec.plain me 0 [] = .act (.rdFrame 256) (.push []) 3 ∧
    first.2 = .fail .assertion ∧
    second.2 = .act (.rdFrame 254) (.push []) 3 ∧
    getVar me.scopes false 252 0 = .ok ⟨false, 254⟩ := by
  decide +kernel

end
end PySOM.Quick

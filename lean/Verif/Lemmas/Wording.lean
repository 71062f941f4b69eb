import Verif.Spec.Wording
import Verif.Lemmas.Elab
/-! # The source that is made of a text is written as the text -/
set_option autoImplicit false
namespace PySOM.Elab
open PySOM PySOM.Parse PySOM.BC PySOM.Elab.Spec

/-- The names of a context. -/
def NScope.decl (S : NScope) : Decl := ⟨S.args.map Prod.fst, S.locals.map Prod.fst⟩

theorem indexOf_at {xs : List (Name × Nat)} {x : Name} {i : Nat} (h : indexOf xs x = some i) : At (xs.map Prod.fst) x i := by
  induction xs generalizing i with
  | nil => cases h
  | cons p xs ih =>
    rw [indexOf_cons] at h
    split at h
    · next hp =>
      cases h
      exact ⟨by rw [List.map_cons, ← hp]; rfl, fun j hj => absurd hj (Nat.not_lt_zero j)⟩
    · next hp =>
      obtain ⟨j, hj, rfl⟩ := Option.map_eq_some_iff.1 h
      obtain ⟨h1, h2⟩ := ih hj
      refine ⟨h1, fun k hk => ?_⟩
      cases k with
      | zero => exact fun e => hp (Option.some.inj e)
      | succ k => exact h2 k (by omega)

theorem indexOf_none {xs : List (Name × Nat)} {x : Name} (h : indexOf xs x = none) : x ∉ xs.map Prod.fst := by
  intro hm
  rw [← indexOf_isSome, h] at hm
  cases hm

theorem findVar_names {Γ : List NScope} {x : Name} {a : Bool} {i l : Nat} (h : findVar Γ x 0 = some (a, i, l)) : Names (Γ.map NScope.decl) x a i l := by
  induction Γ generalizing l with
  | nil => cases h
  | cons S Γ ih =>
    simp only [findVar] at h
    cases hl : indexOf S.locals x with
    | some j =>
      rw [hl] at h
      cases h
      exact ⟨⟨S.decl, rfl, indexOf_at hl⟩, fun j _ hj => absurd hj (Nat.not_lt_zero j)⟩
    | none =>
      rw [hl] at h
      dsimp only at h
      cases hp : indexOf S.args x with
      | some j =>
        rw [hp] at h
        cases h
        exact ⟨⟨S.decl, rfl, indexOf_none hl, indexOf_at hp⟩, fun j _ hj => absurd hj (Nat.not_lt_zero j)⟩
      | none =>
        rw [hp] at h
        dsimp only at h
        rw [findVar_level] at h
        obtain ⟨⟨a', i', l'⟩, h1, h2⟩ := Option.map_eq_some_iff.1 h
        cases h2
        obtain ⟨h3, h4⟩ := ih h1
        refine ⟨h3, fun j d hj hd => ?_⟩
        cases j with
        | zero =>
          cases hd
          rintro (h | h)
          · exact indexOf_none hp h
          · exact indexOf_none hl h
        | succ j => exact h4 j d (Nat.lt_of_succ_lt_succ hj) hd

theorem findVar_undeclared {Γ : List NScope} {x : Name} (h : findVar Γ x 0 = none) : Undeclared (Γ.map NScope.decl) x := by
  induction Γ with
  | nil => intro d hd; cases hd
  | cons S Γ ih =>
    simp only [findVar] at h
    cases hl : indexOf S.locals x with
    | some j => rw [hl] at h; cases h
    | none =>
      rw [hl] at h
      dsimp only at h
      cases hp : indexOf S.args x with
      | some j => rw [hp] at h; cases h
      | none =>
        rw [hp] at h
        dsimp only at h
        rw [findVar_level, Option.map_eq_none_iff] at h
        intro d hd
        rcases List.mem_cons.1 hd with rfl | hd
        · rintro (h | h)
          · exact indexOf_none hp h
          · exact indexOf_none hl h
        · exact ih h d hd

theorem idxOf_at {xs : List Name} {x : Name} {i : Nat} (h : xs.idxOf? x = some i) : At xs x i := by
  induction xs generalizing i with
  | nil => cases h
  | cons y xs ih =>
    rw [List.idxOf?_cons] at h
    split at h
    · next hp =>
      cases h
      exact ⟨by rw [eq_of_beq hp]; rfl, fun j hj => absurd hj (Nat.not_lt_zero j)⟩
    · next hp =>
      obtain ⟨j, hj, rfl⟩ := Option.map_eq_some_iff.1 h
      obtain ⟨h1, h2⟩ := ih hj
      refine ⟨h1, fun k hk => ?_⟩
      cases k with
      | zero => exact fun e => hp (by rw [Option.some.inj e]; exact beq_self_eq_true x)
      | succ k => exact h2 k (by omega)

theorem pushVariable_is (N : Numbers) (O : Nat → Option Parse.Lit) (Γ : Ctx) (x : Name) : Is N O Γ.fields (Γ.scopes.map NScope.decl) (.var x) (pushVariable Γ x) := by
  unfold pushVariable
  split
  · next h => exact .var _ _ _ _ _ (findVar_names h)
  · next h =>
    split
    · next hi => exact .fld _ _ _ (findVar_undeclared h) (idxOf_at hi)
    · next hi => exact .glob _ _ (findVar_undeclared h) (List.idxOf?_eq_none_iff.1 hi)

theorem popVariable_is {Γ : Ctx} {x : Name} {t : Tgt} (h : popVariable Γ x = .ok t) : TgtIs Γ.fields (Γ.scopes.map NScope.decl) x t := by
  unfold popVariable at h
  split at h
  · next hf => cases h; exact .var _ _ _ _ (findVar_names hf)
  · next hf =>
    split at h
    · next hi => cases h; exact .fld _ _ (findVar_undeclared hf) (idxOf_at hi)
    · cases h

theorem popVariables_are {Γ : Ctx} {xs : List Name} {ts : List Tgt} (h : popVariables Γ xs = .ok ts) : TgtsAre Γ.fields (Γ.scopes.map NScope.decl) xs ts := by
  induction xs generalizing ts with
  | nil => cases h; exact .nil
  | cons x xs ih =>
    simp only [popVariables] at h
    obtain ⟨t, h1, h⟩ := except_bind_ok h
    obtain ⟨ts', h2, h⟩ := except_bind_ok h
    cases h
    exact .cons _ _ _ _ (popVariable_is h1) (ih h2)

/-! ## Objects -/

/-- The objects from `n` on are these literals. -/
def Holds (O : Nat → Option Parse.Lit) (n : Nat) (ls : List Parse.Lit) : Prop := ∀ (k : Nat) (l : Parse.Lit), ls[k]? = some l → O (n + k) = some l

theorem Holds.left {O : Nat → Option Parse.Lit} {n : Nat} {xs ys : List Parse.Lit} (h : Holds O n (xs ++ ys)) : Holds O n xs := by
  intro k l hk
  obtain ⟨hl, _⟩ := List.getElem?_eq_some_iff.1 hk
  exact h k l (by rw [List.getElem?_append_left hl]; exact hk)

theorem Holds.right {O : Nat → Option Parse.Lit} {n : Nat} {xs ys : List Parse.Lit} (h : Holds O n (xs ++ ys)) : Holds O (n + xs.length) ys := by
  intro k l hk
  rw [Nat.add_assoc]
  exact h (xs.length + k) l (by rw [List.getElem?_append_right (by omega)]; simpa using hk)

/-- From one state to another the objects for some literals are made, and then `R` holds. -/
def Makes (s s' : St) (R : (Nat → Option Parse.Lit) → Prop) : Prop := ∃ ls : List Parse.Lit, s'.objs = s.objs + ls.length ∧ ∀ O, Holds O s.objs ls → R O

theorem Makes.none {s s' : St} {R : (Nat → Option Parse.Lit) → Prop} (h : s'.objs = s.objs) (hR : ∀ O, R O) : Makes s s' R := ⟨[], h, fun O _ => hR O⟩

theorem Makes.one {s : St} {R : (Nat → Option Parse.Lit) → Prop} (l : Parse.Lit) (hR : ∀ O, O s.objs = some l → R O) : Makes s s.fresh.2 R :=
  ⟨[l], rfl, fun O h => hR O (h 0 l rfl)⟩

theorem Makes.imp {s s' t t' : St} {R Q : (Nat → Option Parse.Lit) → Prop} (h : Makes s s' R) (h1 : t.objs = s.objs) (h2 : t'.objs = s'.objs) (hi : ∀ O, R O → Q O) : Makes t t' Q := by
  obtain ⟨ls, e, hR⟩ := h
  exact ⟨ls, by omega, fun O hO => hi O (hR O (h1 ▸ hO))⟩

theorem Makes.both {s s1 t1 s2 : St} {R Q T : (Nat → Option Parse.Lit) → Prop} (h : Makes s s1 R) (h' : Makes t1 s2 Q) (ht : t1.objs = s1.objs) (hi : ∀ O, R O → Q O → T O) : Makes s s2 T := by
  obtain ⟨ls, e, hR⟩ := h
  obtain ⟨ms, e', hQ⟩ := h'
  refine ⟨ls ++ ms, by rw [List.length_append]; omega, fun O hO => hi O (hR O hO.left) (hQ O ?_)⟩
  have := hO.right
  rwa [← e, ← ht] at this

theorem choose_objs (s : St) : s.choose.2.objs = s.objs := by
  unfold St.choose
  split <;> rfl

mutual
theorem literal_is (N : Numbers) (s : St) : ∀ (l : Parse.Lit) (l' : LitT) (s' : St), literal N s l = .ok (l', s') → Makes s s' fun O => LitIs N O l l'
  | .int neg t => by
    intro l' s' h
    simp only [literal] at h
    obtain ⟨i, h1, h⟩ := except_bind_ok h
    cases i with
    | none => obtain ⟨rfl, rfl⟩ := pairInv h; exact .one _ fun O ho => .big _ _ _ h1 ho
    | some i =>
      obtain ⟨rfl, rfl⟩ := pairInv h
      refine .none rfl fun O => ?_
      have := LitIs.int (O := O) neg t i h1
      rwa [show -i = 0 - i from (Int.zero_sub i).symm] at this
  | .dbl neg t => by
    intro l' s' h
    simp only [literal] at h
    obtain ⟨_, h1, h⟩ := except_bind_ok h
    obtain ⟨rfl, rfl⟩ := pairInv h
    exact .one _ fun O ho => .dbl _ _ _ ho
  | .str t => by
    intro l' s' h
    simp only [literal] at h
    obtain ⟨rfl, rfl⟩ := pairInv h
    exact .one _ fun O ho => .str _ _ ho
  | .sym t => by
    intro l' s' h
    simp only [literal] at h
    obtain ⟨rfl, rfl⟩ := pairInv h
    exact .none rfl fun O => .sym _
  | .arr es => by
    intro l' s' h
    simp only [literal] at h
    obtain ⟨⟨es', s1⟩, h1, h⟩ := except_bind_ok h
    obtain ⟨rfl, rfl⟩ := pairInv h
    exact (literals_are N s es es' s1 h1).imp rfl rfl fun O h => .arr _ _ h
theorem literals_are (N : Numbers) (s : St) : ∀ (es : List Parse.Lit) (es' : LitTs) (s' : St), literals N s es = .ok (es', s') → Makes s s' fun O => LitsAre N O es es'
  | [] => by
    intro es' s' h
    simp only [literals] at h
    obtain ⟨rfl, rfl⟩ := pairInv h
    exact .none rfl fun O => .nil
  | e :: es => by
    intro es' s' h
    simp only [literals] at h
    obtain ⟨⟨e1, s1⟩, h1, h⟩ := except_bind_ok h
    obtain ⟨⟨es1, s2⟩, h2, h⟩ := except_bind_ok h
    obtain ⟨rfl, rfl⟩ := pairInv h
    exact (literal_is N s e e1 s1 h1).both (literals_are N s1 es es1 _ h2) rfl fun O a b => .cons _ _ _ _ a b
end

theorem isOne_text {as : List Tree} (h : isOne as = true) : as = [.lit (.int false ['1'])] := by
  unfold isOne at h
  split at h
  · rw [of_decide_eq_true h]
  · cases h

theorem newScope_decl {n : Nat} {first : Name} {ps ls : List Name} {S : NScope} (h : newScope n first ps ls = .ok S) :
    S.decl = ⟨first :: ps, ls⟩ ∧ S.args.length = ps.length + 1 ∧ S.locals.length = ls.length := by
  obtain ⟨rfl, _, _⟩ := newScope_ok h
  refine ⟨?_, by simp, by simp⟩
  simp only [NScope.decl, Decl.mk.injEq]
  exact ⟨List.zipIdx_map_fst .., List.zipIdx_map_fst ..⟩

mutual
theorem expr_is (N : Numbers) (Γ : Ctx) (s : St) : ∀ (t : Tree) (e : Ex SBlock) (s' : St), expr N Γ s t = .ok (e, s') → Makes s s' fun O => Is N O Γ.fields (Γ.scopes.map NScope.decl) t e
  | .var x => by
    intro e s' h
    simp only [expr] at h
    obtain ⟨rfl, rfl⟩ := pairInv h
    exact .none rfl fun O => pushVariable_is N O Γ x
  | .lit l => by
    intro e s' h
    simp only [expr] at h
    obtain ⟨⟨l', s1⟩, h1, h⟩ := except_bind_ok h
    obtain ⟨rfl, rfl⟩ := pairInv h
    exact (literal_is N s l l' s1 h1).imp rfl rfl fun O h => .lit _ _ _ h
  | .send sup sel r as => by
    intro e s' h
    simp only [expr] at h
    obtain ⟨⟨r', s1⟩, h1, h⟩ := except_bind_ok h
    have a := expr_is N Γ s r r' s1 h1
    dsimp only at h
    split at h
    · next hc =>
      obtain ⟨rfl, rfl⟩ := pairInv h
      obtain ⟨rfl, hs, ho, _⟩ := hc
      cases isOne_text ho
      refine a.imp rfl (choose_objs s1) fun O hr => ?_
      split
      · next hs' => cases hs'; exact .inc _ _ _ hr
      · next hs' => cases hs.resolve_left hs'; exact .dec _ _ _ hr
    · obtain ⟨⟨as', s2⟩, h2, h⟩ := except_bind_ok h
      obtain ⟨rfl, rfl⟩ := pairInv h
      refine a.both (args_are N Γ s1.choose.2 as as' _ h2) (choose_objs s1) fun O hr ha => ?_
      cases sup
      · exact .send _ _ _ _ _ _ hr ha
      · exact .super _ _ _ _ _ _ hr ha
  | .assign xs v => by
    intro e s' h
    simp only [expr] at h
    obtain ⟨⟨v', s1⟩, h1, h⟩ := except_bind_ok h
    obtain ⟨ts, h2, h⟩ := except_bind_ok h
    have a := expr_is N Γ s v v' s1 h1
    have b := popVariables_are h2
    cases b with
    | nil => obtain ⟨rfl, rfl⟩ := pairInv h; exact a.imp rfl rfl fun O h => .value _ _ _ h
    | cons x t xs ts ht hts => obtain ⟨rfl, rfl⟩ := pairInv h; exact a.imp rfl rfl fun O h => .assign _ _ _ _ _ _ _ h (.cons _ _ _ _ ht hts)
  | .block ps ls ts ex => by
    intro e s' h
    simp only [expr] at h
    obtain ⟨S, h1, h⟩ := except_bind_ok h
    obtain ⟨⟨b, s1⟩, h2, h⟩ := except_bind_ok h
    obtain ⟨rfl, rfl⟩ := pairInv h
    obtain ⟨e1, e2, e3⟩ := newScope_decl h1
    refine (body_are N true { Γ with scopes := S :: Γ.scopes } _ ex ts b _ (fun h => (nomatch h)) h2).imp rfl rfl fun O h => ?_
    refine .block _ _ _ _ _ _ _ _ _ (by rw [List.length_map]; exact e2) (by rw [List.length_map]; exact e3) ?_
    rw [List.map_cons, e1] at h
    exact h
theorem args_are (N : Numbers) (Γ : Ctx) (s : St) : ∀ (as : List Tree) (es : Exs SBlock) (s' : St), args N Γ s as = .ok (es, s') → Makes s s' fun O => AreArgs N O Γ.fields (Γ.scopes.map NScope.decl) as es
  | [] => by
    intro es s' h
    simp only [args] at h
    obtain ⟨rfl, rfl⟩ := pairInv h
    exact .none rfl fun O => .nil _
  | a :: as => by
    intro es s' h
    simp only [args] at h
    obtain ⟨⟨a1, s1⟩, h1, h⟩ := except_bind_ok h
    obtain ⟨⟨as1, s2⟩, h2, h⟩ := except_bind_ok h
    obtain ⟨rfl, rfl⟩ := pairInv h
    exact (expr_is N Γ s a a1 s1 h1).both (args_are N Γ s1 as as1 _ h2) rfl fun O x y => .cons _ _ _ _ _ x y
theorem body_are (N : Numbers) (isBlock : Bool) (Γ : Ctx) (s : St) (ex : Bool) : ∀ (ts : List Tree) (b : Body SBlock) (s' : St),
    (isBlock = false → Names (Γ.scopes.map NScope.decl) selfName true 0 0) → body N isBlock Γ s ex ts = .ok (b, s') →
      Makes s s' fun O => AreStmts N O Γ.fields isBlock (Γ.scopes.map NScope.decl) ex ts b
  | [] => by
    intro b s' _ h
    simp only [body] at h
    obtain ⟨rfl, rfl⟩ := pairInv h
    exact .none rfl fun O => .none _ _ _
  | t :: ts => by
    intro b s' hself h
    simp only [body] at h
    split at h
    · next hc =>
      obtain ⟨hts, rfl⟩ := hc
      cases List.isEmpty_iff.1 hts
      split at h
      · next hs =>
        obtain ⟨rfl, hs, _⟩ := hs
        obtain ⟨rfl, rfl⟩ := pairInv h
        cases isSelf_inv hs
        exact .none (choose_objs s) fun O => .exitSelf _ (hself rfl)
      · obtain ⟨⟨e, s1⟩, h1, h⟩ := except_bind_ok h
        obtain ⟨rfl, rfl⟩ := pairInv h
        exact (expr_is N Γ s.choose.2 t e _ h1).imp (choose_objs s).symm rfl fun O h => .exit _ _ _ _ h
    · next hc =>
      obtain ⟨⟨e, s1⟩, h1, h⟩ := except_bind_ok h
      have a := expr_is N Γ s t e s1 h1
      have hx : ts = [] → ex = false := by
        rintro rfl
        cases ex
        · rfl
        · exact absurd ⟨rfl, rfl⟩ hc
      dsimp only at h
      split at h
      · next hl =>
        obtain ⟨rfl, rfl⟩ := pairInv h
        cases List.isEmpty_iff.1 hl.1
        cases hx rfl
        exact a.imp rfl (choose_objs s1) fun O h => .last _ _ _ _ h
      · obtain ⟨⟨b1, s2⟩, h2, h⟩ := except_bind_ok h
        obtain ⟨rfl, rfl⟩ := pairInv h
        exact a.both (body_are N isBlock Γ s1.choose.2 ex ts b1 _ hself h2) (choose_objs s1) fun O x y => .stmt _ _ _ _ _ _ _ x y hx
end

theorem methodAt_is {N : Numbers} {fields : List Name} {n o : Nat} {bits : List Bool} {params locals : List Name} {ts : List Tree} {ex : Bool} {m : SMethod} {s' : St} (hl : selfName ∉ locals)
    (h : methodAt N fields n o bits params locals ts ex = .ok (m, s')) :
    ∃ ls : List Parse.Lit, s'.objs = o + ls.length ∧ ∀ O, Holds O o ls → IsMethod N O fields params locals ts ex m := by
  simp only [methodAt] at h
  obtain ⟨S, h1, h⟩ := except_bind_ok h
  obtain ⟨⟨b, s1⟩, h2, h⟩ := except_bind_ok h
  obtain ⟨rfl, rfl⟩ := pairInv h
  obtain ⟨e1, e2, e3⟩ := newScope_decl h1
  have hself : Names ([S].map NScope.decl) selfName true 0 0 := by
    refine ⟨⟨_, rfl, ?_⟩, fun j _ hj => absurd hj (Nat.not_lt_zero j)⟩
    rw [e1]
    exact ⟨hl, rfl, fun j hj => absurd hj (Nat.not_lt_zero j)⟩
  obtain ⟨ls, h3, h4⟩ := body_are N false ⟨[S], fields⟩ _ ex ts b _ (fun _ => hself) h2
  refine ⟨ls, h3, fun O hO => ⟨by rw [List.length_map]; exact e2, by rw [List.length_map]; exact e3, ?_⟩⟩
  have := h4 O hO
  rwa [List.map_cons, e1] at this

end PySOM.Elab

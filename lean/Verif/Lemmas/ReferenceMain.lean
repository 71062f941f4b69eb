import Verif.Lemmas.ReferenceInline
/-!
# The compiler makes translations
-/
set_option autoImplicit false
namespace PySOM.BC
open PySOM

/-! ## Control structures -/

/-- What the two tables say about a selector. -/
inductive Kind (sel : Sel) : Prop where
  | one (k : Inl1) (c : Control) (ha : aspecial? sel = some (.one k)) (hl : loops.lookup sel = none) (hc : controls.lookup sel = some c) (hb : c.blocks = 1)
      (he : ∀ (W E : Type) (err : Err → E) (r a : Src.Rel W E), c.eval err r [a] = k.exec err r a)
  | two (k : Inl2) (c : Control) (ha : aspecial? sel = some (.two k)) (hl : loops.lookup sel = none) (hc : controls.lookup sel = some c) (hb : c.blocks = 2)
      (he : ∀ (W E : Type) (err : Err → E) (r a b : Src.Rel W E), c.eval err r [a, b] = k.exec err r a b)
  | while (b : Bool) (ha : aspecial? sel = some (.while b)) (hl : loops.lookup sel = some b)
  | none (ha : aspecial? sel = none) (hl : loops.lookup sel = none) (hc : controls.lookup sel = none)

theorem kind (sel : Sel) : Kind sel := by
  by_cases h1 : sel = "ifTrue:".toList
  · subst h1
    refine .one (.ifBool true) ⟨1, byBool (.run 0) (.give .nil) .notImplemented⟩ rfl rfl rfl rfl fun W E err r a => ?_
    exact congrArg (Src.bind r) (funext fun v => by cases v <;> rfl)
  by_cases h2 : sel = "ifFalse:".toList
  · subst h2
    refine .one (.ifBool false) ⟨1, byBool (.give .nil) (.run 0) .notImplemented⟩ rfl rfl rfl rfl fun W E err r a => ?_
    exact congrArg (Src.bind r) (funext fun v => by cases v <;> rfl)
  by_cases h3 : sel = "ifTrue:ifFalse:".toList
  · subst h3
    refine .two (.ifElse true) ⟨2, byBool (.run 0) (.run 1) .notImplemented⟩ rfl rfl rfl rfl fun W E err r a b => ?_
    exact congrArg (Src.bind r) (funext fun v => by cases v <;> rfl)
  by_cases h4 : sel = "ifFalse:ifTrue:".toList
  · subst h4
    refine .two (.ifElse false) ⟨2, byBool (.run 1) (.run 0) .notImplemented⟩ rfl rfl rfl rfl fun W E err r a b => ?_
    exact congrArg (Src.bind r) (funext fun v => by cases v <;> rfl)
  by_cases h5 : sel = "ifNil:".toList
  · subst h5
    refine .one .ifNil ⟨1, byNil (.run 0) .give⟩ rfl rfl rfl rfl fun W E err r a => ?_
    exact congrArg (Src.bind r) (funext fun v => by cases v <;> rfl)
  by_cases h6 : sel = "ifNotNil:".toList
  · subst h6
    refine .one .ifNotNil ⟨1, byNil (.give .nil) fun _ => .run 0⟩ rfl rfl rfl rfl fun W E err r a => ?_
    exact congrArg (Src.bind r) (funext fun v => by cases v <;> rfl)
  by_cases h7 : sel = "ifNil:ifNotNil:".toList
  · subst h7
    refine .two (.ifNil true) ⟨2, byNil (.run 0) fun _ => .run 1⟩ rfl rfl rfl rfl fun W E err r a b => ?_
    exact congrArg (Src.bind r) (funext fun v => by cases v <;> rfl)
  by_cases h8 : sel = "ifNotNil:ifNil:".toList
  · subst h8
    refine .two (.ifNil false) ⟨2, byNil (.run 1) fun _ => .run 0⟩ rfl rfl rfl rfl fun W E err r a b => ?_
    exact congrArg (Src.bind r) (funext fun v => by cases v <;> rfl)
  by_cases h9 : sel = "and:".toList
  · subst h9
    refine .one .and ⟨1, byBool (.run 0) (.give .fls) .assertion⟩ rfl rfl rfl rfl fun W E err r a => ?_
    exact congrArg (Src.bind r) (funext fun v => by cases v <;> rfl)
  by_cases h10 : sel = "&&".toList
  · subst h10
    refine .one .and ⟨1, byBool (.run 0) (.give .fls) .assertion⟩ rfl rfl rfl rfl fun W E err r a => ?_
    exact congrArg (Src.bind r) (funext fun v => by cases v <;> rfl)
  by_cases h11 : sel = "or:".toList
  · subst h11
    refine .one .or ⟨1, byBool (.give .tru) (.run 0) .assertion⟩ rfl rfl rfl rfl fun W E err r a => ?_
    exact congrArg (Src.bind r) (funext fun v => by cases v <;> rfl)
  by_cases h12 : sel = "||".toList
  · subst h12
    refine .one .or ⟨1, byBool (.give .tru) (.run 0) .assertion⟩ rfl rfl rfl rfl fun W E err r a => ?_
    exact congrArg (Src.bind r) (funext fun v => by cases v <;> rfl)
  by_cases h13 : sel = "whileTrue:".toList
  · subst h13; exact .while true rfl rfl
  by_cases h14 : sel = "whileFalse:".toList
  · subst h14; exact .while false rfl rfl
  have no : ∀ {x : Sel}, ¬ sel = x → (sel == x) = false := fun h => beq_eq_false_iff_ne.mpr h
  refine .none ?_ ?_ ?_
  · simp only [aspecial?, aspecials, List.lookup, no h1, no h2, no h3, no h4, no h5, no h6, no h7, no h8, no h9, no h10, no h11, no h12, no h13, no h14]
  · simp only [loops, List.lookup, no h13, no h14]
  · simp only [controls, List.lookup, no h1, no h2, no h3, no h4, no h5, no h6, no h7, no h8, no h9, no h10, no h11, no h12]

section
variable {known : Sel → Bool} {alloc : LitTs → Val} {outer : List (List Nat)}

/-- Literal blocks, and nothing else, become block nodes. -/
theorem ast_isBlk {e : Ex SBlock} {env env2 : List Nat} {nd : Node} (h : e.ast known alloc outer env = .ok (nd, env2)) : e.isBlk = true ↔ ∃ c m, nd = .blk c m := by
  constructor
  · intro hb
    cases e <;> simp only [Ex.isBlk, Bool.false_eq_true] at hb
    simp only [Ex.ast] at h
    obtain ⟨m, _, h⟩ := except_bind_ok h
    cases h
    exact ⟨_, _, rfl⟩
  · intro hb
    obtain ⟨c, s, rfl⟩ := (ast_leaf h).2.2 hb
    rfl

/-- One literal block. -/
theorem asts_one_blk {as : Exs SBlock} {env env2 : List Nat} {nds : Nodes} (h : as.ast known alloc outer env = .ok (nds, env2)) :
    (as.allBlk = true ∧ as.length = 1) ↔ ∃ c m, nds = .cons (.blk c m) .nil := by
  rcases as with _ | ⟨e, es⟩
  · simp only [Exs.ast] at h; cases h
    exact ⟨fun h => (nomatch h.2), fun ⟨_, _, h⟩ => (nomatch h)⟩
  · simp only [Exs.ast] at h
    obtain ⟨⟨x, y⟩, h1, h2⟩ := except_bind_ok h
    obtain ⟨⟨z, u⟩, h3, h4⟩ := except_bind_ok h2
    cases h4
    simp only [Exs.allBlk, Exs.length, Bool.and_eq_true]
    constructor
    · rintro ⟨⟨hb, _⟩, hl⟩
      obtain ⟨c, m, rfl⟩ := (ast_isBlk h1).mp hb
      rcases es with _ | ⟨f, fs⟩
      · simp only [Exs.ast] at h3; cases h3; exact ⟨c, m, rfl⟩
      · simp only [Exs.length] at hl; omega
    · rintro ⟨c, m, hn⟩
      cases hn
      rcases es with _ | ⟨f, fs⟩
      · exact ⟨⟨(ast_isBlk h1).mpr ⟨c, m, rfl⟩, rfl⟩, rfl⟩
      · simp only [Exs.ast] at h3
        obtain ⟨⟨a, b⟩, _, h5⟩ := except_bind_ok h3
        obtain ⟨⟨a', b'⟩, _, h6⟩ := except_bind_ok h5
        cases h6

/-- Two literal blocks. -/
theorem asts_two_blk {as : Exs SBlock} {env env2 : List Nat} {nds : Nodes} (h : as.ast known alloc outer env = .ok (nds, env2)) :
    (as.allBlk = true ∧ as.length = 2) ↔ ∃ c m c' m', nds = .cons (.blk c m) (.cons (.blk c' m') .nil) := by
  rcases as with _ | ⟨e, es⟩
  · simp only [Exs.ast] at h; cases h
    exact ⟨fun h => (nomatch h.2), fun ⟨_, _, _, _, h⟩ => (nomatch h)⟩
  · simp only [Exs.ast] at h
    obtain ⟨⟨x, y⟩, h1, h2⟩ := except_bind_ok h
    obtain ⟨⟨z, u⟩, h3, h4⟩ := except_bind_ok h2
    cases h4
    simp only [Exs.allBlk, Exs.length, Bool.and_eq_true]
    constructor
    · rintro ⟨⟨hb, hbs⟩, hl⟩
      obtain ⟨c, m, rfl⟩ := (ast_isBlk h1).mp hb
      obtain ⟨c', m', rfl⟩ := (asts_one_blk h3).mp ⟨hbs, by omega⟩
      exact ⟨c, m, c', m', rfl⟩
    · rintro ⟨c, m, c', m', hn⟩
      cases hn
      have := (asts_one_blk h3).mpr ⟨c', m', rfl⟩
      exact ⟨⟨(ast_isBlk h1).mpr ⟨c, m, rfl⟩, this.1⟩, by omega⟩

/-- Whether a message is a control structure, in the source and in the compiler. -/
theorem send_shape {sel : Sel} {r : Ex SBlock} {as : Exs SBlock} {env env1 env2 env3 : List Nat} {x nd : Node} {xs : Nodes} (hr : r.ast known alloc outer env = .ok (x, env1))
    (ha : as.ast known alloc outer env1 = .ok (xs, env2)) (h : sendNode known outer.length sel x xs env2 = .ok (nd, env3)) :
    (∃ c k q m a, shape sel r as = some (.choice c) ∧ aspecial? sel = some (.one k) ∧ xs = .cons (.blk q m) .nil ∧ m.inline known outer.length env2 = .ok (a, env3) ∧ nd = .inl1 k x a) ∨
    (∃ c k q1 m1 q2 m2 a env4 b, shape sel r as = some (.choice c) ∧ aspecial? sel = some (.two k) ∧ xs = .cons (.blk q1 m1) (.cons (.blk q2 m2) .nil) ∧
      m1.inline known outer.length env2 = .ok (a, env4) ∧ m2.inline known outer.length env4 = .ok (b, env3) ∧ nd = .inl2 k x a b) ∨
    (∃ w q1 m1 q2 m2 a env4 b, shape sel r as = some (.loop w) ∧ x = .blk q1 m1 ∧ xs = .cons (.blk q2 m2) .nil ∧ m1.inline known outer.length env2 = .ok (a, env4) ∧
      m2.inline known outer.length env4 = .ok (b, env3) ∧ nd = .while w a b) ∨
    (shape sel r as = none ∧ env3 = env2 ∧ plainSend sel x xs = .ok nd) := by
  have one := asts_one_blk ha
  have two := asts_two_blk ha
  have rcv := ast_isBlk hr
  rcases sendNode_cases h with ⟨k, q, m, a, hs, rfl, hm, rfl⟩ | ⟨k, q1, m1, q2, m2, a, env4, b, hs, rfl, hm, hm2, rfl⟩ | ⟨w, q1, m1, q2, m2, a, env4, b, hs, rfl, rfl, hm, hm2, rfl⟩ | ⟨rfl, hp, n1, n2, n3⟩
  · have := one.mpr ⟨q, m, rfl⟩
    cases kind sel with
    | one k' c ha hl hc hb he =>
      refine .inl ⟨c, k, q, m, a, ?_, hs, rfl, hm, rfl⟩
      simp only [shape, hl, hc, hb, this.1, this.2, beq_self_eq_true, Bool.and_self, if_true]
    | two k' c ha hl hc hb he => rw [hs] at ha; cases ha
    | «while» b ha hl => rw [hs] at ha; cases ha
    | none ha hl hc => rw [hs] at ha; cases ha
  · have := two.mpr ⟨q1, m1, q2, m2, rfl⟩
    cases kind sel with
    | one k' c ha hl hc hb he => rw [hs] at ha; cases ha
    | two k' c ha hl hc hb he =>
      refine .inr (.inl ⟨c, k, q1, m1, q2, m2, a, env4, b, ?_, hs, rfl, hm, hm2, rfl⟩)
      simp only [shape, hl, hc, hb, this.1, this.2, beq_self_eq_true, Bool.and_self, if_true]
    | «while» b ha hl => rw [hs] at ha; cases ha
    | none ha hl hc => rw [hs] at ha; cases ha
  · have := one.mpr ⟨q2, m2, rfl⟩
    have h1 := rcv.mpr ⟨q1, m1, rfl⟩
    cases kind sel with
    | one k' c ha hl hc hb he => rw [hs] at ha; cases ha
    | two k' c ha hl hc hb he => rw [hs] at ha; cases ha
    | «while» b' ha hl =>
      rw [hs] at ha; cases ha
      refine .inr (.inr (.inl ⟨w, q1, m1, q2, m2, a, env4, b, ?_, rfl, rfl, hm, hm2, rfl⟩))
      simp only [shape, hl, h1, this.1, this.2, beq_self_eq_true, Bool.and_self, if_true]
    | none ha hl hc => rw [hs] at ha; cases ha
  · refine .inr (.inr (.inr ⟨?_, rfl, hp⟩))
    cases kind sel with
    | one k' c ha hl hc hb he =>
      simp only [shape, hl, hc, hb]
      rw [if_neg fun h => ?_]
      simp only [Bool.and_eq_true, beq_iff_eq] at h
      obtain ⟨q, m, hx⟩ := one.mp h
      exact n1 k' q m ha hx
    | two k' c ha hl hc hb he =>
      simp only [shape, hl, hc, hb]
      rw [if_neg fun h => ?_]
      simp only [Bool.and_eq_true, beq_iff_eq] at h
      obtain ⟨q, m, q', m', hx⟩ := two.mp h
      exact n2 k' q m q' m' ha hx
    | «while» b' ha hl =>
      simp only [shape, hl]
      rw [if_neg fun h => ?_]
      simp only [Bool.and_eq_true, beq_iff_eq] at h
      obtain ⟨q, m, hx⟩ := rcv.mp h.1.1
      obtain ⟨q', m', hx'⟩ := one.mp ⟨h.1.2, h.2⟩
      exact n3 b' q m q' m' ha hx hx'
    | none ha hl hc => simp only [shape, hl, hc]
end

/-! ## Shapes of translations -/

section
variable {known : Sel → Bool} {σ : Areas}

/-- What a write is not. -/
theorem trTgt_shape {x n : Node} {t : Tgt} (h : trTgt σ x t n) :
    (∀ i l, n ≠ .fld i l) ∧ (∀ y, n ≠ .inc y) ∧ (∀ i l y, n = .fldW i l y → l = depth σ) ∧ (∀ es, n ≠ .seq es) ∧ n.leaf = false := by
  rcases t with ⟨nm, _ | _, i, l⟩ | ⟨nm, i⟩
  · obtain ⟨s, j, _, rfl⟩ := h
    exact ⟨fun _ _ h => (nomatch h), fun _ h => (nomatch h), fun _ _ _ h => (nomatch h), fun _ h => (nomatch h), rfl⟩
  · simp only [trTgt] at h
    subst h
    exact ⟨fun _ _ h => (nomatch h), fun _ h => (nomatch h), fun _ _ _ h => (nomatch h), fun _ h => (nomatch h), rfl⟩
  · rcases h with rfl | ⟨_, rfl⟩
    · exact ⟨fun _ _ h => (nomatch h), fun _ h => (nomatch h), fun _ _ _ h => by cases h; rfl, fun _ h => (nomatch h), rfl⟩
    · exact ⟨fun _ _ h => (nomatch h), fun _ h => (nomatch h), fun _ _ _ h => (nomatch h), fun _ h => (nomatch h), rfl⟩

theorem globNode_shape (l : Nat) (g : Sel) : (∃ v, globNode known l g = .lit v) ∨ globNode known l g = .globK g ∨ globNode known l g = .globU g l := by
  unfold globNode
  by_cases h1 : g = symTrue
  · exact .inl ⟨_, if_pos h1⟩
  · rw [if_neg h1]
    by_cases h2 : g = symFalse
    · exact .inl ⟨_, if_pos h2⟩
    · rw [if_neg h2]
      by_cases h3 : g = symNil
      · exact .inl ⟨_, if_pos h3⟩
      · rw [if_neg h3]
        by_cases h4 : known g = true
        · exact .inr (.inl (if_pos h4))
        · exact .inr (.inr (if_neg h4))

/-- Levels in translations. -/
theorem tr_shape {e : Ex SBlock} {n : Node} (h : e.tr known σ n) :
    (∀ i l, n = .fld i l → l = depth σ) ∧ (∀ i l y, n = .fldW i l y → l = depth σ) ∧ (∀ es, n ≠ .seq es) ∧ n.leaf = e.leaf := by
  cases e with
  | lit v =>
    cases v with
    | val v =>
      simp only [Ex.tr] at h; subst h
      exact ⟨fun _ _ h => (nomatch h), fun _ _ _ h => (nomatch h), fun _ h => (nomatch h), rfl⟩
    | arr => simp only [Ex.tr] at h
  | glob g =>
    simp only [Ex.tr] at h
    obtain ⟨l, rfl⟩ := h
    rcases globNode_shape (known := known) l g with ⟨v, h⟩ | h | h <;> rw [h] <;>
      exact ⟨fun _ _ h => (nomatch h), fun _ _ _ h => (nomatch h), fun _ h => (nomatch h), rfl⟩
  | var a i l =>
    cases a with
    | true =>
      simp only [Ex.tr] at h; subst h
      split <;> exact ⟨fun _ _ h => (nomatch h), fun _ _ _ h => (nomatch h), fun _ h => (nomatch h), rfl⟩
    | false =>
      simp only [Ex.tr] at h
      obtain ⟨s, j, _, rfl⟩ := h
      exact ⟨fun _ _ h => (nomatch h), fun _ _ _ h => (nomatch h), fun _ h => (nomatch h), rfl⟩
  | fld nm i =>
    simp only [Ex.tr] at h; subst h
    exact ⟨fun _ _ h => by cases h; rfl, fun _ _ _ h => (nomatch h), fun _ h => (nomatch h), rfl⟩
  | blk c s =>
    simp only [Ex.tr] at h
    obtain ⟨m, _, rfl⟩ := h
    exact ⟨fun _ _ h => (nomatch h), fun _ _ _ h => (nomatch h), fun _ h => (nomatch h), rfl⟩
  | asg t ts e =>
    simp only [Ex.tr, trTgts] at h
    obtain ⟨x, _, y, _, h⟩ := h
    have := trTgt_shape h
    exact ⟨fun i l h => absurd h (this.1 i l), this.2.2.1, this.2.2.2.1, this.2.2.2.2⟩
  | inc e =>
    simp only [Ex.tr] at h
    obtain ⟨x, _, rfl⟩ := h
    exact ⟨fun _ _ h => (nomatch h), fun _ _ _ h => (nomatch h), fun _ h => (nomatch h), rfl⟩
  | dec e =>
    simp only [Ex.tr] at h
    obtain ⟨x, _, rfl⟩ := h
    exact ⟨fun _ _ h => (nomatch h), fun _ _ _ h => (nomatch h), fun _ h => (nomatch h), rfl⟩
  | send sel r as =>
    simp only [Ex.tr] at h
    split at h
    · obtain ⟨x, xs, _, _, ⟨_, _, _, _, rfl⟩ | ⟨_, _, _, _, _, rfl⟩⟩ := h <;>
        exact ⟨fun _ _ h => (nomatch h), fun _ _ _ h => (nomatch h), fun _ h => (nomatch h), rfl⟩
    · obtain ⟨x, xs, _, _, rfl⟩ := h
      exact ⟨fun _ _ h => (nomatch h), fun _ _ _ h => (nomatch h), fun _ h => (nomatch h), rfl⟩
    · obtain ⟨x, xs, _, _, rfl | ⟨_, _, rfl⟩⟩ := h <;>
        exact ⟨fun _ _ h => (nomatch h), fun _ _ _ h => (nomatch h), fun _ h => (nomatch h), rfl⟩
  | superSend sel r as =>
    simp only [Ex.tr] at h
    obtain ⟨x, xs, _, _, rfl⟩ := h
    exact ⟨fun _ _ h => (nomatch h), fun _ _ _ h => (nomatch h), fun _ h => (nomatch h), rfl⟩

/-- `f + 1` is about the field of the right object. -/
theorem tr_incFld {e : Ex SBlock} {i l : Nat} (h : e.tr known σ (.inc (.fld i l))) : l = depth σ := by
  cases e with
  | lit v =>
    cases v with
    | val v => simp only [Ex.tr] at h; cases h
    | arr => simp only [Ex.tr] at h
  | glob g =>
    simp only [Ex.tr] at h
    obtain ⟨l, h⟩ := h
    rcases globNode_shape (known := known) l g with ⟨v, h1⟩ | h1 | h1 <;> rw [h1] at h <;> cases h
  | var a i l =>
    cases a with
    | true => simp only [Ex.tr] at h; split at h <;> cases h
    | false =>
      simp only [Ex.tr] at h
      obtain ⟨s, j, _, h⟩ := h
      cases h
  | fld nm i => simp only [Ex.tr] at h; cases h
  | blk c s =>
    simp only [Ex.tr] at h
    obtain ⟨m, _, h⟩ := h
    cases h
  | asg t ts e =>
    simp only [Ex.tr, trTgts] at h
    obtain ⟨x, _, y, _, h⟩ := h
    exact absurd rfl ((trTgt_shape h).2.1 _)
  | inc e =>
    simp only [Ex.tr] at h
    obtain ⟨x, hx, h⟩ := h
    cases h
    exact (tr_shape hx).1 _ _ rfl
  | dec e =>
    simp only [Ex.tr] at h
    obtain ⟨x, _, h⟩ := h
    cases h
  | send sel r as =>
    simp only [Ex.tr] at h
    split at h
    · obtain ⟨x, xs, _, _, ⟨_, _, _, _, h⟩ | ⟨_, _, _, _, _, h⟩⟩ := h <;> cases h
    · obtain ⟨x, xs, _, _, h⟩ := h
      cases h
    · obtain ⟨x, xs, hx, _, h | ⟨_, _, h⟩⟩ := h
      · cases h
      · cases h
        exact (tr_shape hx).1 _ _ rfl
  | superSend sel r as =>
    simp only [Ex.tr] at h
    obtain ⟨x, xs, _, _, h⟩ := h
    cases h

/-- Which blocks give trivial methods. -/
theorem body_triv_plain {b : Body SBlock} {ns : Nodes} (h : b.tr known true σ ns) (hd : 0 < depth σ) : (seqNode ns).triv.isSome = b.plain ∧ (b.plain = true → (seqNode ns).leaf = true) := by
  have leafy : ∀ {e : Ex SBlock} {x : Node}, e.tr known σ x → x.triv.isSome = e.leaf := by
    intro e x hx
    have hs := tr_shape hx
    cases hl : e.leaf with
    | true => exact triv_of_leaf (hs.2.2.2.trans hl)
    | false =>
      cases ht : x.triv with
      | none => rfl
      | some t =>
        rcases triv_cases ht with ⟨v, rfl, rfl⟩ | ⟨g, rfl, rfl⟩ | ⟨g, l, rfl, rfl⟩ | ⟨i, l, rfl, rfl⟩ | ⟨i, j, rfl, ⟨l, rfl⟩ | ⟨l, rfl⟩⟩
        · rw [hl] at hs; cases hs.2.2.2
        · rw [hl] at hs; cases hs.2.2.2
        · rw [hl] at hs; cases hs.2.2.2
        · rw [hl] at hs; cases hs.2.2.2
        · have := hs.2.1 _ _ _ rfl
          omega
        · exact absurd rfl (hs.2.2.1 _)
  have plainLast : ∀ e : Ex SBlock, (Body.last e).plain = e.leaf := fun e => by cases e <;> rfl
  have plainStmt : ∀ e : Ex SBlock, (Body.stmt e .done).plain = e.leaf := fun e => by cases e <;> rfl
  have plainMore : ∀ (e : Ex SBlock) (r : Body SBlock), r ≠ .done → (Body.stmt e r).plain = false := fun e r hr => by
    cases e <;> cases r <;> first | rfl | exact absurd rfl hr
  cases b with
  | done =>
    simp only [Body.tr, if_true] at h; subst h
    exact ⟨rfl, fun _ => rfl⟩
  | last e =>
    simp only [Body.tr, if_true] at h
    obtain ⟨x, hx, rfl⟩ := h
    rw [seqNode_one, plainLast]
    exact ⟨leafy hx, fun hl => (tr_shape hx).2.2.2.trans hl⟩
  | stmt e rest =>
    simp only [Body.tr] at h
    obtain ⟨x, xs, hx, hr, rfl⟩ := h
    by_cases hrest : rest = .done
    · subst hrest
      simp only [Body.tr, if_true] at hr; subst hr
      rw [seqNode_one, plainStmt]
      exact ⟨leafy hx, fun hl => (tr_shape hx).2.2.2.trans hl⟩
    · rw [plainMore e rest hrest]
      refine ⟨?_, fun h => nomatch h⟩
      obtain ⟨y, ys, rfl⟩ : ∃ y ys, xs = .cons y ys := by
        cases rest with
        | done => exact absurd rfl hrest
        | last e => simp only [Body.tr, if_true] at hr; obtain ⟨y, _, rfl⟩ := hr; exact ⟨_, _, rfl⟩
        | stmt e r => simp only [Body.tr] at hr; obtain ⟨y, ys, _, _, rfl⟩ := hr; exact ⟨_, _, rfl⟩
        | exit e => simp only [Body.tr, if_true] at hr; obtain ⟨y, _, rfl⟩ := hr; exact ⟨_, _, rfl⟩
        | exitSelf => simp only [Body.tr, if_true] at hr; subst hr; exact ⟨_, _, rfl⟩
      cases ht : (seqNode (.cons x (.cons y ys))).triv with
      | none => rfl
      | some t =>
        rcases triv_cases ht with ⟨v, h, rfl⟩ | ⟨g, h, rfl⟩ | ⟨g, l, h, rfl⟩ | ⟨i, l, h, rfl⟩ | ⟨i, j, rfl, ⟨l, h⟩ | ⟨l, h⟩⟩
        · cases h
        · cases h
        · cases h
        · cases h
        · cases h
        · simp only [seqNode, Node.seq.injEq, Nodes.cons.injEq] at h
          have := (tr_shape hx).2.1 _ _ _ h.1
          omega
  | exit e =>
    simp only [Body.tr, if_true] at h
    obtain ⟨x, hx, rfl⟩ := h
    rw [seqNode_one]
    unfold retNode
    rw [if_neg (by omega)]
    exact ⟨rfl, fun h => nomatch h⟩
  | exitSelf =>
    simp only [Body.tr, if_true] at h
    subst h
    rw [seqNode_one]
    unfold retNode
    rw [if_neg (by omega)]
    exact ⟨rfl, fun h => nomatch h⟩

/-! ## Inlining a block -/

theorem inline_env {s : SBlock} {m : AMeth} {lvl : Nat} {env env2 : List Nat} {a : Node} (h : s.tr known σ m) (hm : m.inline known lvl env = .ok (a, env2)) : env2 = env ++ s.inVars := by
  obtain ⟨id, args, ls, b⟩ := s
  simp only [SBlock.tr] at h
  simp only [SBlock.inVars]
  obtain ⟨ns, _, ⟨hp, rfl⟩ | ⟨hp, t, _, rfl⟩⟩ := h
  · rw [hp]
    simp only [AMeth.inline] at hm
    obtain ⟨e, he, hm⟩ := except_bind_ok hm
    obtain ⟨y, _, hm⟩ := except_bind_ok hm
    cases hm
    unfold mergeLocals at he
    split at he
    · cases he
    · split at he
      · cases he
      · cases he; rfl
  · rw [hp, if_pos rfl, List.append_nil]
    cases t <;> simp only [AMeth.inline] at hm <;> cases hm <;> rfl

theorem inline_trIn {s : SBlock} {m : AMeth} {lvl : Nat} {env env2 : List Nat} {a : Node} (h : s.tr known σ m) (hm : m.inline known lvl env = .ok (a, env2)) (hp : env2 <+: kept σ 0)
    (hd : depth σ = lvl) (hc : 0 < σ.countP (·.frame)) : s.trIn known σ a := by
  obtain ⟨id, args, ls, b⟩ := s
  simp only [SBlock.tr] at h
  simp only [SBlock.trIn]
  obtain ⟨ns, h1, ⟨hq, rfl⟩ | ⟨hpl, t, ht, rfl⟩⟩ := h
  · simp only [AMeth.inline] at hm
    obtain ⟨e, he, hm⟩ := except_bind_ok hm
    obtain ⟨y, hy, hm⟩ := except_bind_ok hm
    cases hm
    obtain ⟨ns', h2, rfl⟩ := seqNode_inline hy
    exact ⟨ns', Body.tr_inline (.here ls _ σ hp hc) b ns ns' h1 h2, rfl⟩
  · have hd' : ∀ (v s : List Nat), depth (⟨false, v, s⟩ :: σ) = lvl := fun v s => by
      rw [← hd]; unfold depth; rw [List.countP_cons]; rfl
    have key : ∀ (v s v' s' : List Nat) {e : Ex SBlock} {x : Node}, e.leaf = true → e.tr known (⟨true, v, s⟩ :: σ) x → x.triv = some t → e.tr known (⟨false, v', s'⟩ :: σ) a := by
      intro v s v' s' e x hl hx hxt
      cases e <;> simp only [Ex.leaf, Bool.false_eq_true] at hl
      case lit l =>
        cases l with
        | val u =>
          simp only [Ex.tr] at hx ⊢; subst hx
          cases hxt; cases hm; rfl
        | arr => simp only [Ex.tr] at hx
      case glob g =>
        simp only [Ex.tr] at hx ⊢
        obtain ⟨l, rfl⟩ := hx
        rcases globNode_shape (known := known) l g with ⟨u, h⟩ | h | h
        · refine ⟨l, ?_⟩
          rw [h] at hxt ⊢; cases hxt; cases hm; rfl
        · rw [h] at hxt; cases hxt; cases hm
        · rw [h] at hxt; cases hxt; cases hm
          exact ⟨lvl, rfl⟩
      case fld nm i =>
        simp only [Ex.tr] at hx ⊢; subst hx
        cases hxt; cases hm
        rw [hd']
    cases b with
    | done =>
      simp only [Body.tr, if_true] at h1 ⊢; subst h1
      cases ht; cases hm
      exact ⟨.nil, rfl, rfl⟩
    | last e =>
      simp only [Body.tr, if_true] at h1 ⊢
      obtain ⟨x, hx, rfl⟩ := h1
      exact ⟨_, ⟨a, key _ _ _ _ (by cases e <;> first | rfl | cases hpl) hx ht, rfl⟩, rfl⟩
    | stmt e rest =>
      simp only [Body.tr] at h1 ⊢
      obtain ⟨x, xs, hx, hr, rfl⟩ := h1
      have hrest : rest = .done := by cases e <;> cases rest <;> first | rfl | cases hpl
      subst hrest
      simp only [Body.tr, if_true] at hr ⊢; subst hr
      exact ⟨_, ⟨a, .nil, key _ _ _ _ (by cases e <;> first | rfl | cases hpl) hx ht, rfl, rfl⟩, rfl⟩
    | exit e => cases hpl
    | exitSelf => cases hpl
end
end PySOM.BC

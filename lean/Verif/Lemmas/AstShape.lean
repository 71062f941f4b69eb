import Verif.Lemmas.AstInline
/-!
# Which source gives which tree
-/
set_option autoImplicit false
namespace PySOM.BC
open PySOM

/-! ## Trivial trees -/

theorem triv_cases {nd : Node} {t : ATriv} (h : nd.triv = some t) :
    (∃ v, nd = .lit v ∧ t = .lit v) ∨ (∃ n, nd = .globK n ∧ t = .globK n) ∨ (∃ n l, nd = .globU n l ∧ t = .globU n l) ∨ (∃ i l, nd = .fld i l ∧ t = .fldRead i l) ∨
    (∃ i j, t = .fldWrite i j ∧ ((∃ l, nd = .fldW i 0 (.readArg j l)) ∨ ∃ l, nd = .seq (.cons (.fldW i 0 (.readArg j l)) (.cons (.self 0) .nil)))) := by
  unfold Node.triv at h
  split at h
  · cases h; exact .inl ⟨_, rfl, rfl⟩
  · cases h; exact .inr (.inl ⟨_, rfl, rfl⟩)
  · cases h; exact .inr (.inr (.inl ⟨_, _, rfl, rfl⟩))
  · cases h; exact .inr (.inr (.inr (.inl ⟨_, _, rfl, rfl⟩)))
  · cases h; exact .inr (.inr (.inr (.inr ⟨_, _, rfl, .inl ⟨_, rfl⟩⟩)))
  · cases h; exact .inr (.inr (.inr (.inr ⟨_, _, rfl, .inr ⟨_, rfl⟩⟩)))
  · cases h

/-- Reading a literal, a global or a field. -/
def Node.leaf : Node → Bool
  | .lit _ => true
  | .globK _ => true
  | .globU _ _ => true
  | .fld _ _ => true
  | _ => false

theorem leaf_of_triv {nd : Node} {t : ATriv} (h : nd.triv = some t) (ht : ∀ i j, t ≠ .fldWrite i j) : nd.leaf = true := by
  rcases triv_cases h with ⟨_, rfl, _⟩ | ⟨_, rfl, _⟩ | ⟨_, _, rfl, _⟩ | ⟨_, _, rfl, _⟩ | ⟨i, j, rfl, _⟩
  · rfl
  · rfl
  · rfl
  · rfl
  · exact absurd rfl (ht i j)

theorem triv_of_leaf {nd : Node} (h : nd.leaf = true) : nd.triv.isSome = true := by
  cases nd <;> first | rfl | cases h

theorem seqNode_one (e : Node) : seqNode (.cons e .nil) = e := rfl

/-! ## Sends -/

theorem plainSend_cases {sel : Sel} {r nd : Node} {as : Nodes} (h : plainSend sel r as = .ok nd) :
    (sel = "+".toList ∧ as = .cons (.lit (.int 1)) .nil ∧ nd = .inc r) ∨ nd = .send sel r as := by
  unfold plainSend at h
  split at h
  · rename_i hs
    split at h
    · cases h; exact .inl ⟨hs, rfl, rfl⟩
    · cases h
    · cases h; exact .inr rfl
  · cases h; exact .inr rfl

/-- What a send becomes. -/
theorem sendNode_cases {known : Sel → Bool} {lvl : Nat} {sel : Sel} {r nd : Node} {as : Nodes} {env env2 : List Nat} (h : sendNode known lvl sel r as env = .ok (nd, env2)) :
    (∃ k c m a, aspecial? sel = some (.one k) ∧ as = .cons (.blk c m) .nil ∧ m.inline known lvl env = .ok (a, env2) ∧ nd = .inl1 k r a) ∨
    (∃ k c1 m1 c2 m2 a env1 b, aspecial? sel = some (.two k) ∧ as = .cons (.blk c1 m1) (.cons (.blk c2 m2) .nil) ∧ m1.inline known lvl env = .ok (a, env1) ∧
      m2.inline known lvl env1 = .ok (b, env2) ∧ nd = .inl2 k r a b) ∨
    (∃ w c1 m1 c2 m2 a env1 b, aspecial? sel = some (.while w) ∧ r = .blk c1 m1 ∧ as = .cons (.blk c2 m2) .nil ∧ m1.inline known lvl env = .ok (a, env1) ∧
      m2.inline known lvl env1 = .ok (b, env2) ∧ nd = .while w a b) ∨
    (env2 = env ∧ plainSend sel r as = .ok nd ∧ (∀ k c m, aspecial? sel = some (.one k) → as ≠ .cons (.blk c m) .nil) ∧
      (∀ k c1 m1 c2 m2, aspecial? sel = some (.two k) → as ≠ .cons (.blk c1 m1) (.cons (.blk c2 m2) .nil)) ∧
      (∀ w c1 m1 c2 m2, aspecial? sel = some (.while w) → r = .blk c1 m1 → as ≠ .cons (.blk c2 m2) .nil)) := by
  unfold sendNode at h
  generalize haS : aspecial? sel = sp at h
  split at h
  · rename_i k c m
    obtain ⟨⟨a, e⟩, h1, h2⟩ := except_bind_ok h
    cases h2
    exact .inl ⟨k, c, m, a, rfl, rfl, h1, rfl⟩
  · rename_i k c1 m1 c2 m2
    obtain ⟨⟨a, e⟩, h1, h2⟩ := except_bind_ok h
    obtain ⟨⟨b, e2⟩, h3, h4⟩ := except_bind_ok h2
    cases h4
    exact .inr (.inl ⟨k, c1, m1, c2, m2, a, e, b, rfl, rfl, h1, h3, rfl⟩)
  · rename_i w c1 m1 c2 m2
    obtain ⟨⟨a, e⟩, h1, h2⟩ := except_bind_ok h
    obtain ⟨⟨b, e2⟩, h3, h4⟩ := except_bind_ok h2
    cases h4
    exact .inr (.inr (.inl ⟨w, c1, m1, c2, m2, a, e, b, rfl, rfl, rfl, h1, h3, rfl⟩))
  · rename_i n1 n2 n3
    obtain ⟨x, h1, h2⟩ := except_bind_ok h
    cases h2
    refine .inr (.inr (.inr ⟨rfl, h1, fun k c m e1 e2 => ?_, fun k c1 m1 c2 m2 e1 e2 => ?_, fun w c1 m1 c2 m2 e1 e2 e3 => ?_⟩))
    · exact n1 k c m e1 e2
    · exact n2 k c1 m1 c2 m2 e1 e2
    · exact n3 w c1 m1 c2 m2 e1 e2 e3

theorem sendNode_leaf {known : Sel → Bool} {lvl : Nat} {sel : Sel} {r nd : Node} {as : Nodes} {env env2 : List Nat} (h : sendNode known lvl sel r as env = .ok (nd, env2)) :
    nd.leaf = false ∧ ∀ c m, nd ≠ .blk c m := by
  rcases sendNode_cases h with ⟨_, _, _, _, _, _, _, rfl⟩ | ⟨_, _, _, _, _, _, _, _, _, _, _, _, rfl⟩ | ⟨_, _, _, _, _, _, _, _, _, _, _, _, _, rfl⟩ | ⟨_, hp, _⟩
  · exact ⟨rfl, fun _ _ h => nomatch h⟩
  · exact ⟨rfl, fun _ _ h => nomatch h⟩
  · exact ⟨rfl, fun _ _ h => nomatch h⟩
  · rcases plainSend_cases hp with ⟨_, _, rfl⟩ | rfl
    · exact ⟨rfl, fun _ _ h => nomatch h⟩
    · exact ⟨rfl, fun _ _ h => nomatch h⟩

theorem writeNode_leaf {chain : List (List Nat)} {lvl : Nat} {e nd : Node} {t : Tgt} (h : writeNode chain lvl e t = .ok nd) :
    nd.leaf = false ∧ (∀ c m, nd ≠ .blk c m) ∧ (∀ x, nd ≠ .inc x) := by
  rcases t with ⟨nm, _ | _, i, l⟩ | ⟨nm, i⟩
  · simp only [writeNode] at h
    obtain ⟨s, hs, h⟩ := except_bind_ok h
    cases h
    exact ⟨rfl, fun _ _ h => (nomatch h), fun _ h => nomatch h⟩
  · cases h
    exact ⟨rfl, fun _ _ h => (nomatch h), fun _ h => nomatch h⟩
  · unfold writeNode at h
    dsimp only at h
    split at h
    · split at h
      · cases h; exact ⟨rfl, fun _ _ h => (nomatch h), fun _ h => nomatch h⟩
      · cases h; exact ⟨rfl, fun _ _ h => (nomatch h), fun _ h => nomatch h⟩
    · cases h; exact ⟨rfl, fun _ _ h => (nomatch h), fun _ h => nomatch h⟩

section
variable {known : Sel → Bool} {alloc : LitTs → Val} {outer : List (List Nat)}

theorem globNode_leaf (lvl : Nat) (n : Sel) : (globNode known lvl n).leaf = true := by
  unfold globNode
  repeat' split
  all_goals rfl

/-- Only literals, globals and fields give such trees. -/
def Ex.leaf {M : Type} : Ex M → Bool
  | .lit _ => true
  | .glob _ => true
  | .fld _ _ => true
  | _ => false

theorem ast_leaf {e : Ex SBlock} {env env2 : List Nat} {nd : Node} (h : e.ast known alloc outer env = .ok (nd, env2)) :
    nd.leaf = e.leaf ∧ (e.leaf = true → env2 = env) ∧ ((∃ c m, nd = .blk c m) → ∃ c s, e = .blk c s) := by
  cases e with
  | lit l => cases l <;> (simp only [Ex.ast] at h; cases h; exact ⟨rfl, fun _ => rfl, fun ⟨_, _, h⟩ => nomatch h⟩)
  | glob n =>
    simp only [Ex.ast] at h; cases h
    refine ⟨globNode_leaf _ _, fun _ => rfl, fun ⟨c, m, h⟩ => ?_⟩
    have := globNode_leaf (known := known) outer.length n
    rw [h] at this; cases this
  | var a i l =>
    cases a with
    | true =>
      simp only [Ex.ast] at h; cases h
      refine ⟨by split <;> rfl, fun h => (nomatch h), fun ⟨c, m, h⟩ => ?_⟩
      split at h <;> cases h
    | false =>
      simp only [Ex.ast] at h
      obtain ⟨x, _, h2⟩ := except_bind_ok h
      cases h2; exact ⟨rfl, fun h => (nomatch h), fun ⟨_, _, h⟩ => nomatch h⟩
  | fld n i => simp only [Ex.ast] at h; cases h; exact ⟨rfl, fun _ => rfl, fun ⟨_, _, h⟩ => nomatch h⟩
  | blk c s =>
    simp only [Ex.ast] at h
    obtain ⟨x, _, h2⟩ := except_bind_ok h
    cases h2; exact ⟨rfl, fun h => (nomatch h), fun _ => ⟨c, s, rfl⟩⟩
  | asg t ts e =>
    simp only [Ex.ast] at h
    obtain ⟨⟨x, y⟩, _, h2⟩ := except_bind_ok h
    obtain ⟨z, hz, h3⟩ := except_bind_ok h2
    cases h3
    rw [writeNodes] at hz
    obtain ⟨u, _, hz⟩ := except_bind_ok hz
    have := writeNode_leaf hz
    exact ⟨this.1, fun h => (nomatch h), fun ⟨c, m, h⟩ => absurd h (this.2.1 c m)⟩
  | inc e =>
    simp only [Ex.ast] at h
    obtain ⟨⟨x, y⟩, _, h2⟩ := except_bind_ok h
    cases h2; exact ⟨rfl, fun h => (nomatch h), fun ⟨_, _, h⟩ => nomatch h⟩
  | dec e =>
    simp only [Ex.ast] at h
    obtain ⟨⟨x, y⟩, _, h2⟩ := except_bind_ok h
    cases h2; exact ⟨rfl, fun h => (nomatch h), fun ⟨_, _, h⟩ => nomatch h⟩
  | send sel r as =>
    simp only [Ex.ast] at h
    obtain ⟨⟨x, y⟩, _, h2⟩ := except_bind_ok h
    obtain ⟨⟨z, u⟩, _, h3⟩ := except_bind_ok h2
    have := sendNode_leaf h3
    exact ⟨this.1, fun h => (nomatch h), fun ⟨c, m, h⟩ => absurd h (this.2 c m)⟩
  | superSend sel r as =>
    simp only [Ex.ast] at h
    obtain ⟨⟨x, y⟩, _, h2⟩ := except_bind_ok h
    obtain ⟨⟨z, u⟩, _, h3⟩ := except_bind_ok h2
    cases h3; exact ⟨rfl, fun h => (nomatch h), fun ⟨_, _, h⟩ => nomatch h⟩

theorem ast_one {e : Ex SBlock} {env env2 : List Nat} (hf : ∀ es, e ≠ .lit (.arr es)) (h : e.ast known alloc outer env = .ok (.lit (.int 1), env2)) : e = .lit (.val (.int 1)) := by
  have hl := (ast_leaf h).1
  cases e with
  | lit l =>
    cases l with
    | val v => simp only [Ex.ast] at h; cases h; rfl
    | arr es => exact absurd rfl (hf es)
  | glob n =>
    simp only [Ex.ast] at h
    injection h with h
    injection h with h h2
    unfold globNode at h
    repeat' split at h
    all_goals cases h
  | fld n i => simp only [Ex.ast] at h; cases h
  | _ => cases hl

theorem ast_fld {e : Ex SBlock} {env env2 : List Nat} {i l : Nat} (h : e.ast known alloc outer env = .ok (.fld i l, env2)) : ∃ n, e = .fld n i := by
  have hl := (ast_leaf h).1
  cases e with
  | lit l => cases l <;> (simp only [Ex.ast] at h; cases h)
  | glob n =>
    simp only [Ex.ast] at h
    injection h with h
    injection h with h h2
    unfold globNode at h
    repeat' split at h
    all_goals cases h
  | fld n j => simp only [Ex.ast] at h; cases h; exact ⟨n, rfl⟩
  | _ => cases hl

theorem asts_one {as : Exs SBlock} {env env2 : List Nat} {I D F C N : Prop} {inner : Bool} (hf : as.fair I D F C N inner)
    (h : as.ast known alloc outer env = .ok (.cons (.lit (.int 1)) .nil, env2)) : as = .cons (.lit (.val (.int 1))) .nil := by
  cases as with
  | nil => simp only [Exs.ast] at h; cases h
  | cons e es =>
    simp only [Exs.ast] at h
    obtain ⟨⟨x, y⟩, h1, h2⟩ := except_bind_ok h
    obtain ⟨⟨z, u⟩, h3, h4⟩ := except_bind_ok h2
    cases h4
    simp only [Exs.fair] at hf
    have he := ast_one (fun es e1 => by rw [e1] at hf; exact hf.1) h1
    subst he
    cases es with
    | nil => rfl
    | cons e2 es =>
      simp only [Exs.ast] at h3
      obtain ⟨⟨x, y⟩, _, h5⟩ := except_bind_ok h3
      obtain ⟨⟨z, u⟩, _, h6⟩ := except_bind_ok h5
      cases h6

/-- Which expressions give an increment of a field. -/
theorem ast_incFld {e : Ex SBlock} {env env2 : List Nat} {i l : Nat} {I D F C N : Prop} {inner : Bool} (hf : e.fair I D F C N inner)
    (h : e.ast known alloc outer env = .ok (.inc (.fld i l), env2)) {ts : List Tgt} (ht : ∃ n, ts.getLast? = some (.fld n i)) : fuses ts e := by
  cases e with
  | lit l => cases l <;> (simp only [Ex.ast] at h; cases h)
  | glob n => have := (ast_leaf h).1; cases this
  | var a i l =>
    cases a with
    | true => simp only [Ex.ast] at h; split at h <;> cases h
    | false =>
      simp only [Ex.ast] at h
      obtain ⟨x, _, h2⟩ := except_bind_ok h
      cases h2
  | fld n j => simp only [Ex.ast] at h; cases h
  | blk c s =>
    simp only [Ex.ast] at h
    obtain ⟨x, _, h2⟩ := except_bind_ok h
    cases h2
  | asg t ts e =>
    simp only [Ex.ast] at h
    obtain ⟨⟨x, y⟩, _, h2⟩ := except_bind_ok h
    obtain ⟨z, hz, h3⟩ := except_bind_ok h2
    cases h3
    rw [writeNodes] at hz
    obtain ⟨u, _, hz⟩ := except_bind_ok hz
    exact absurd rfl ((writeNode_leaf hz).2.2 _)
  | inc e =>
    simp only [Ex.ast] at h
    obtain ⟨⟨x, y⟩, h1, h2⟩ := except_bind_ok h
    cases h2
    obtain ⟨n, rfl⟩ := ast_fld h1
    exact ht
  | dec e =>
    simp only [Ex.ast] at h
    obtain ⟨⟨x, y⟩, _, h2⟩ := except_bind_ok h
    cases h2
  | send sel r as =>
    simp only [Ex.ast] at h
    obtain ⟨⟨x, y⟩, h1, h2⟩ := except_bind_ok h
    obtain ⟨⟨z, u⟩, h3, h4⟩ := except_bind_ok h2
    simp only [Ex.fair] at hf
    rcases sendNode_cases h4 with ⟨_, _, _, _, _, _, _, e⟩ | ⟨_, _, _, _, _, _, _, _, _, _, _, _, e⟩ | ⟨_, _, _, _, _, _, _, _, _, _, _, _, _, e⟩ | ⟨_, hp, _⟩
    · cases e
    · cases e
    · cases e
    · rcases plainSend_cases hp with ⟨hs, rfl, e⟩ | e
      · injection e with e
        subst e
        obtain ⟨n, rfl⟩ := ast_fld h1
        have := asts_one hf.2.1 h3
        subst this
        exact ⟨hs, ht⟩
      · cases e
  | superSend sel r as =>
    simp only [Ex.ast] at h
    obtain ⟨⟨x, y⟩, _, h2⟩ := except_bind_ok h
    obtain ⟨⟨z, u⟩, _, h3⟩ := except_bind_ok h2
    cases h3

/-! ## Blocks -/

/-- Which bodies of blocks give such trees. -/
theorem body_leaf {b : Body SBlock} {env env2 : List Nat} {es : Nodes} (h : b.ast known alloc true outer env = .ok (es, env2)) (hl : (seqNode es).leaf = true) :
    b = .done ∨ ∃ e, e.leaf = true ∧ env2 = env ∧ (b = .last e ∨ b = .stmt e .done) := by
  cases b with
  | done => exact .inl rfl
  | last e =>
    simp only [Body.ast] at h
    obtain ⟨⟨x, y⟩, h1, h2⟩ := except_bind_ok h
    cases h2
    have := ast_leaf h1
    have hl : x.leaf = true := hl
    rw [this.1] at hl
    exact .inr ⟨e, hl, this.2.1 hl, .inl rfl⟩
  | exit e =>
    simp only [Body.ast] at h
    obtain ⟨⟨x, y⟩, h1, h2⟩ := except_bind_ok h
    cases h2
    cases hl
  | exitSelf => simp only [Body.ast] at h; cases h; cases hl
  | stmt e r =>
    simp only [Body.ast] at h
    obtain ⟨⟨x, y⟩, h1, h2⟩ := except_bind_ok h
    obtain ⟨⟨z, u⟩, h3, h4⟩ := except_bind_ok h2
    cases h4
    cases z with
    | cons f fs => cases hl
    | nil =>
      have hr : r = .done := by
        cases r with
        | done => rfl
        | last f =>
          simp only [Body.ast] at h3
          obtain ⟨⟨x, y⟩, _, h5⟩ := except_bind_ok h3
          cases h5
        | exit f =>
          simp only [Body.ast] at h3
          obtain ⟨⟨x, y⟩, _, h5⟩ := except_bind_ok h3
          cases h5
        | exitSelf => simp only [Body.ast] at h3; cases h3
        | stmt f g =>
          simp only [Body.ast] at h3
          obtain ⟨⟨x, y⟩, _, h5⟩ := except_bind_ok h3
          obtain ⟨⟨z, u⟩, _, h6⟩ := except_bind_ok h5
          cases h6
      subst hr
      simp only [Body.ast] at h3
      cases h3
      have := ast_leaf h1
      have hl : x.leaf = true := hl
      rw [this.1] at hl
      exact .inr ⟨e, hl, this.2.1 hl, .inr rfl⟩

theorem build_leaf {n lvl : Nat} {e : Ex SBlock} {e' : Ex Meth} (h : e.build known n lvl = .ok e') : e'.leaf = e.leaf := by
  cases e <;> simp only [Ex.build] at h
  case lit => cases h; rfl
  case glob => cases h; rfl
  case var => cases h; rfl
  case fld => cases h; rfl
  case send =>
    obtain ⟨x, _, h2⟩ := except_bind_ok h
    obtain ⟨y, _, h3⟩ := except_bind_ok h2
    cases h3; rfl
  case superSend =>
    obtain ⟨x, _, h2⟩ := except_bind_ok h
    obtain ⟨y, _, h3⟩ := except_bind_ok h2
    cases h3; rfl
  all_goals
    obtain ⟨x, _, h2⟩ := except_bind_ok h
    cases h2; rfl

theorem triv_leaf {e : Ex Meth} {lvl : Nat} {t : Triv Meth} (h : e.triv lvl = some t) : e.leaf = true := by
  cases e with
  | lit l => rfl
  | glob n => rfl
  | fld n i => rfl
  | _ => cases h

theorem leaf_triv {e : Ex Meth} {lvl : Nat} (h : e.leaf = true) (hf : ∀ es, e ≠ .lit (.arr es)) : (e.triv lvl).isSome = true := by
  cases e with
  | lit l =>
    cases l with
    | val v => rfl
    | arr es => exact absurd rfl (hf es)
  | glob n => rfl
  | fld n i => rfl
  | _ => cases h

/-- If the block is trivial for the bytecode compiler, it is trivial. -/
theorem body_triv {n lvl : Nat} {b : Body SBlock} {b' : Body Meth} {env env2 : List Nat} {es : Nodes} {t : Triv Meth} (hb : b.build known n lvl = .ok b')
    (h : b.ast known alloc true outer env = .ok (es, env2)) (ht : b'.triv true lvl = some t) : (seqNode es).leaf = true := by
  cases b with
  | done => simp only [Body.ast] at h; cases h; rfl
  | last e =>
    simp only [Body.build] at hb
    obtain ⟨x, h1, h2⟩ := except_bind_ok hb
    cases h2
    simp only [Body.ast] at h
    obtain ⟨⟨x, y⟩, h3, h4⟩ := except_bind_ok h
    cases h4
    show x.leaf = true
    rw [(ast_leaf h3).1, ← build_leaf h1]
    exact triv_leaf ht
  | exit e =>
    simp only [Body.build] at hb
    obtain ⟨x, h1, h2⟩ := except_bind_ok hb
    cases h2
    cases ht
  | exitSelf => simp only [Body.build] at hb; cases hb; cases ht
  | stmt e r =>
    simp only [Body.build] at hb
    obtain ⟨x, h1, h2⟩ := except_bind_ok hb
    obtain ⟨y, h3, h4⟩ := except_bind_ok h2
    cases h4
    cases y <;> cases ht

end
end PySOM.BC

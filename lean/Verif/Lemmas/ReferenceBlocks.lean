import Verif.Lemmas.ReferenceRun
import Verif.Lemmas.AstTwin
/-!
# The blocks that translations create
-/
set_option autoImplicit false
namespace PySOM.BC
open PySOM

section
variable {known : Sel → Bool} {I D F C N : Prop}

/-- The block of the tree is a translation of the block of the source. -/
def Renders (known : Sel → Bool) (I D F C N : Prop) (p : Bool × AMeth) (q : Areas × SBlock) : Prop := q.2.tr known q.1 p.2 ∧ 0 < q.1.countP (·.frame) ∧ q.2.fair I D F C N

theorem trTgt_blks {σ : Areas} {x n : Node} {t : Tgt} (h : trTgt σ x t n) : n.blks = x.blks := by
  rcases t with ⟨nm, _ | _, i, l⟩ | ⟨nm, i⟩
  · obtain ⟨s, j, _, rfl⟩ := h
    simp only [Node.blks]
  · simp only [trTgt] at h
    subst h
    simp only [Node.blks]
  · rcases h with rfl | ⟨rfl, rfl⟩ <;> simp only [Node.blks]

theorem trTgts_blks {σ : Areas} {x : Node} : ∀ (ts : List Tgt) (n : Node), trTgts σ x ts n → n.blks = x.blks
  | [], n, h => by cases h; rfl
  | t :: ts, n, ⟨y, h1, h2⟩ => (trTgt_blks h2).trans (trTgts_blks ts y h1)

theorem globNode_blks (l : Nat) (g : Sel) : (globNode known l g).blks = [] := by
  rcases globNode_shape (known := known) l g with ⟨u, h⟩ | h | h <;> rw [h] <;> rfl

theorem seqNode_blks' (ns : Nodes) : (seqNode ns).blks = ns.blks := by
  rcases ns with _ | ⟨e, _ | ⟨f, fs⟩⟩ <;> simp only [seqNode, Node.blks, Nodes.blks, List.append_nil]

theorem retNode_blks (d : Nat) (x : Node) : (retNode d x).blks = x.blks := by
  unfold retNode
  split <;> simp only [Node.blks]

mutual
theorem Ex.tr_blks : ∀ (e : Ex SBlock) (inner : Bool) (σ : Areas) (n : Node), e.fair I D F C N inner → 0 < σ.countP (·.frame) → e.tr known σ n → Match (Renders known I D F C N) n.blks (e.made σ)
  | .lit (.val v), inner, σ, n, hf, hi, h => by simp only [Ex.tr] at h; subst h; simp only [Node.blks, Ex.made]; exact .nil
  | .lit (.arr a), inner, σ, n, hf, hi, h => by simp only [Ex.tr] at h
  | .glob g, inner, σ, n, hf, hi, h => by
    simp only [Ex.tr] at h
    obtain ⟨l, rfl⟩ := h
    rw [globNode_blks]
    simp only [Ex.made]; exact .nil
  | .var true i l, inner, σ, n, hf, hi, h => by
    simp only [Ex.tr] at h; subst h
    split <;> simp only [Node.blks, Ex.made] <;> exact .nil
  | .var false i l, inner, σ, n, hf, hi, h => by
    simp only [Ex.tr] at h
    obtain ⟨s, j, hs, rfl⟩ := h
    simp only [Node.blks, Ex.made]; exact .nil
  | .fld nm i, inner, σ, n, hf, hi, h => by simp only [Ex.tr] at h; subst h; simp only [Node.blks, Ex.made]; exact .nil
  | .blk c s, inner, σ, n, hf, hi, h => by
    simp only [Ex.tr] at h
    obtain ⟨m, hm, rfl⟩ := h
    simp only [Ex.fair] at hf
    simp only [Node.blks, Ex.made]
    exact .one ⟨hm, hi, hf.1⟩
  | .asg t ts e, inner, σ, n, hf, hi, h => by
    simp only [Ex.tr] at h
    obtain ⟨x, hx, h⟩ := h
    simp only [Ex.fair] at hf
    rw [trTgts_blks _ _ h]
    simp only [Ex.made]
    exact Ex.tr_blks e inner σ x hf.1 hi hx
  | .inc e, inner, σ, n, hf, hi, h => by
    simp only [Ex.tr] at h
    obtain ⟨x, hx, rfl⟩ := h
    simp only [Ex.fair] at hf
    simp only [Node.blks, Ex.made]
    exact Ex.tr_blks e inner σ x hf hi hx
  | .dec e, inner, σ, n, hf, hi, h => by
    simp only [Ex.tr] at h
    obtain ⟨x, hx, rfl⟩ := h
    simp only [Ex.fair] at hf
    simp only [Node.blks, Nodes.blks, Ex.made, List.append_nil]
    exact Ex.tr_blks e inner σ x hf.1 hi hx
  | .send sel r as, inner, σ, n, hf, hi, h => by
    simp only [Ex.tr] at h
    simp only [Ex.fair] at hf
    simp only [Ex.made]
    split at h
    · rename_i c hs
      simp only [hs]
      obtain ⟨x, xs, h1, h2, ⟨k, a, _, rfl, rfl⟩ | ⟨k, a, b, _, rfl, rfl⟩⟩ := h
      · have h3 := Exs.trIn_blks as inner σ _ hf.2.1 hi h2
        simp only [Nodes.blks, List.append_nil] at h3
        simp only [Node.blks]
        exact (Ex.tr_blks r inner σ x hf.1 hi h1).append h3
      · have h3 := Exs.trIn_blks as inner σ _ hf.2.1 hi h2
        simp only [Nodes.blks, List.append_nil] at h3
        simp only [Node.blks]
        exact (Ex.tr_blks r inner σ x hf.1 hi h1).append h3
    · rename_i b hs
      simp only [hs]
      obtain ⟨x, y, h1, h2, rfl⟩ := h
      have h3 := Exs.trIn_blks as inner σ _ hf.2.1 hi h2
      simp only [Nodes.blks, List.append_nil] at h3
      simp only [Node.blks]
      exact (Ex.trIn_blks r inner σ x hf.1 hi h1).append h3
    · rename_i hs
      obtain ⟨x, xs, h1, h2, rfl | ⟨rfl, rfl, rfl⟩⟩ := h <;> simp only [hs]
      · simp only [Node.blks]
        exact (Ex.tr_blks r inner σ x hf.1 hi h1).append (Exs.tr_blks as inner σ xs hf.2.1 hi h2)
      · have h3 := (Ex.tr_blks r inner σ x hf.1 hi h1).append (Exs.tr_blks as inner σ _ hf.2.1 hi h2)
        simp only [Nodes.blks, Node.blks, List.append_nil] at h3
        simp only [Node.blks]
        exact h3
  | .superSend sel r as, inner, σ, n, hf, hi, h => by
    simp only [Ex.tr] at h
    obtain ⟨x, xs, h1, h2, rfl⟩ := h
    simp only [Ex.fair] at hf
    simp only [Node.blks, Ex.made]
    exact (Ex.tr_blks r inner σ x hf.1 hi h1).append (Exs.tr_blks as inner σ xs hf.2 hi h2)
theorem Ex.trIn_blks : ∀ (e : Ex SBlock) (inner : Bool) (σ : Areas) (n : Node), e.fair I D F C N inner → 0 < σ.countP (·.frame) → e.trIn known σ n →
    Match (Renders known I D F C N) n.blks (e.madeIn σ)
  | .blk c s, inner, σ, n, hf, hi, h => by
    simp only [Ex.trIn] at h
    simp only [Ex.fair] at hf
    simp only [Ex.madeIn]
    exact SBlock.trIn_blks s σ n hf.1 hi h
  | .lit _, _, _, _, _, _, h => by simp only [Ex.trIn] at h
  | .glob _, _, _, _, _, _, h => by simp only [Ex.trIn] at h
  | .var _ _ _, _, _, _, _, _, h => by simp only [Ex.trIn] at h
  | .fld _ _, _, _, _, _, _, h => by simp only [Ex.trIn] at h
  | .asg _ _ _, _, _, _, _, _, h => by simp only [Ex.trIn] at h
  | .inc _, _, _, _, _, _, h => by simp only [Ex.trIn] at h
  | .dec _, _, _, _, _, _, h => by simp only [Ex.trIn] at h
  | .send _ _ _, _, _, _, _, _, h => by simp only [Ex.trIn] at h
  | .superSend _ _ _, _, _, _, _, _, h => by simp only [Ex.trIn] at h
theorem Exs.trIn_blks : ∀ (es : Exs SBlock) (inner : Bool) (σ : Areas) (ns : Nodes), es.fair I D F C N inner → 0 < σ.countP (·.frame) → es.trIn known σ ns →
    Match (Renders known I D F C N) ns.blks (es.madeIn σ)
  | .nil, inner, σ, ns, hf, hi, h => by simp only [Exs.trIn] at h; subst h; simp only [Nodes.blks, Exs.madeIn]; exact .nil
  | .cons e es, inner, σ, ns, hf, hi, h => by
    simp only [Exs.trIn] at h
    obtain ⟨x, xs, h1, h2, rfl⟩ := h
    simp only [Exs.fair] at hf
    simp only [Nodes.blks, Exs.madeIn]
    exact (Ex.trIn_blks e inner σ x hf.1 hi h1).append (Exs.trIn_blks es inner σ xs hf.2 hi h2)
theorem Exs.tr_blks : ∀ (es : Exs SBlock) (inner : Bool) (σ : Areas) (ns : Nodes), es.fair I D F C N inner → 0 < σ.countP (·.frame) → es.tr known σ ns →
    Match (Renders known I D F C N) ns.blks (es.made σ)
  | .nil, inner, σ, ns, hf, hi, h => by simp only [Exs.tr] at h; subst h; simp only [Nodes.blks, Exs.made]; exact .nil
  | .cons e es, inner, σ, ns, hf, hi, h => by
    simp only [Exs.tr] at h
    obtain ⟨x, xs, h1, h2, rfl⟩ := h
    simp only [Exs.fair] at hf
    simp only [Nodes.blks, Exs.made]
    exact (Ex.tr_blks e inner σ x hf.1 hi h1).append (Exs.tr_blks es inner σ xs hf.2 hi h2)
theorem Body.tr_blks : ∀ (b : Body SBlock) (isBlock inner : Bool) (σ : Areas) (ns : Nodes), b.fair I D F C N inner → 0 < σ.countP (·.frame) → b.tr known isBlock σ ns →
    Match (Renders known I D F C N) ns.blks (b.made σ)
  | .done, isBlock, inner, σ, ns, hf, hi, h => by
    simp only [Body.tr] at h; subst h
    cases isBlock <;> simp only [if_true, Bool.false_eq_true, if_false, Nodes.blks, Node.blks, Body.made, List.append_nil] <;> exact .nil
  | .last e, isBlock, inner, σ, ns, hf, hi, h => by
    simp only [Body.tr] at h
    obtain ⟨x, hx, rfl⟩ := h
    simp only [Body.fair] at hf
    cases isBlock <;> simp only [if_true, Bool.false_eq_true, if_false, Nodes.blks, Node.blks, Body.made, List.append_nil] <;> exact Ex.tr_blks e inner σ x hf hi hx
  | .stmt e rest, isBlock, inner, σ, ns, hf, hi, h => by
    simp only [Body.tr] at h
    obtain ⟨x, xs, hx, hr, rfl⟩ := h
    simp only [Body.fair] at hf
    simp only [Nodes.blks, Body.made]
    exact (Ex.tr_blks e inner σ x hf.1 hi hx).append (Body.tr_blks rest isBlock inner σ xs hf.2 hi hr)
  | .exit e, isBlock, inner, σ, ns, hf, hi, h => by
    simp only [Body.tr] at h
    obtain ⟨x, hx, rfl⟩ := h
    simp only [Body.fair] at hf
    cases isBlock <;> simp only [if_true, Bool.false_eq_true, if_false, Nodes.blks, retNode_blks, Body.made, List.append_nil] <;> exact Ex.tr_blks e inner σ x hf hi hx
  | .exitSelf, isBlock, inner, σ, ns, hf, hi, h => by
    simp only [Body.tr] at h
    subst h
    cases isBlock <;> simp only [if_true, Bool.false_eq_true, if_false, Nodes.blks, Node.blks, retNode_blks, Body.made, List.append_nil] <;> exact .nil
theorem SBlock.trIn_blks : ∀ (s : SBlock) (σ : Areas) (n : Node), s.fair I D F C N → 0 < σ.countP (·.frame) → s.trIn known σ n → Match (Renders known I D F C N) n.blks (s.madeIn false σ)
  | .mk id args env b, σ, n, hf, hi, h => by
    simp only [SBlock.trIn] at h
    obtain ⟨ns, h, rfl⟩ := h
    simp only [SBlock.fair] at hf
    simp only [SBlock.madeIn]
    rw [seqNode_blks']
    exact Body.tr_blks b true true _ ns hf.1 (by rw [List.countP_cons]; exact hi) h
end

/-- A trivial method creates no blocks. -/
theorem triv_no_blks {n : Node} {t : ATriv} (h : n.triv = some t) : n.blks = [] := by
  rcases triv_cases h with ⟨v, rfl, rfl⟩ | ⟨g, rfl, rfl⟩ | ⟨g, l, rfl, rfl⟩ | ⟨i, l, rfl, rfl⟩ | ⟨i, j, rfl, ⟨l, rfl⟩ | ⟨l, rfl⟩⟩ <;>
    simp only [Node.blks, Nodes.blks, List.append_nil]

theorem SBlock.tr_makes {s : SBlock} {σ : Areas} {m : AMeth} (hf : s.fair I D F C N) (h : s.tr known σ m) : Match (Renders known I D F C N) m.makes (s.madeIn true σ) := by
  obtain ⟨id, args, env, b⟩ := s
  simp only [SBlock.tr] at h
  simp only [SBlock.fair] at hf
  simp only [SBlock.madeIn]
  obtain ⟨ns, h, hm⟩ := h
  have h1 := Body.tr_blks b true true _ ns hf.1 (by rw [List.countP_cons]; simp) h
  rw [← seqNode_blks'] at h1
  rcases hm with ⟨_, rfl⟩ | ⟨_, t, ht, rfl⟩
  · exact h1
  · rw [triv_no_blks ht] at h1; exact h1

/-- The blocks of a method. -/
theorem comes_renders {s : SMethod} {xs : List (Bool × AMeth)} (h : Match (Renders known I D F C N) xs (s.body.made [s.scope])) :
    (∀ m, Comes AMeth.makes xs m → ∃ c σ b, s.Has σ b ∧ Renders known I D F C N (c, m) (σ, b)) ∧ ∀ σ b, s.Has σ b → ∃ c m, Comes AMeth.makes xs m ∧ Renders known I D F C N (c, m) (σ, b) := by
  refine ⟨fun m hm => ?_, fun σ b hb => ?_⟩
  · induction hm with
    | here c m hm =>
      obtain ⟨⟨σ, b⟩, h1, h2⟩ := h.1 _ hm
      exact ⟨c, σ, b, .here σ b h1, h2⟩
    | deeper m c m' _ hm ih =>
      obtain ⟨c', σ, b, h1, h2⟩ := ih
      obtain ⟨⟨σ', b'⟩, h3, h4⟩ := (SBlock.tr_makes h2.2.2 h2.1).1 _ hm
      exact ⟨c, σ', b', .deeper σ b σ' b' h1 h3, h4⟩
  · induction hb with
    | here σ b hb =>
      obtain ⟨⟨c, m⟩, h1, h2⟩ := h.2 _ hb
      exact ⟨c, m, .here c m h1, h2⟩
    | deeper σ b σ' b' _ hb ih =>
      obtain ⟨c, m, h1, h2⟩ := ih
      obtain ⟨⟨c', m'⟩, h3, h4⟩ := (SBlock.tr_makes h2.2.2 h2.1).2 _ hb
      exact ⟨c', m', .deeper m c' m' h1 h3, h4⟩
end

/-! ## Methods -/

section
variable {W E : Type} {known : Sel → Bool} {alloc : LitTs → Val} {I D F C N : Prop} {A : World Nat W E} {U : Sel → Nat → Src.Rel W E} {err : Err → E}

/-- The tree of a method is a translation. -/
theorem method_tr {s : SMethod} {am : AMethod} (he : s.env.Nodup) (hb : s.body.bound [s.env]) (hf : s.body.fair I D F C N false) (hm : s.ast known alloc = .ok am) :
    ∃ es env2, s.body.ast known alloc false [] s.env = .ok (es, env2) ∧ s.body.tr known false [s.scope] es := by
  unfold SMethod.ast at hm
  obtain ⟨⟨es, env2⟩, h, _⟩ := except_bind_ok hm
  obtain ⟨h1, h2⟩ := Body.ast_tr false false [] [] s.env s.body s.env env2 es hb hf he (List.prefix_refl _) ⟨[], .nil⟩ (fun h => nomatch h) h
  exact ⟨es, env2, h, h2 _ [] (h1 ▸ List.prefix_refl _) .nil⟩

theorem method_tr_run {s : SMethod} {am : AMethod} (hP : Plain A U) (hN : N → Gone A) (hself : Src.act A .self = Src.act A (.rdVar true 0 0)) (he : s.env.Nodup) (hb : s.body.bound [s.env])
    (hf : s.body.fair I D F C N false) (hset : s.body.setter) (hm : s.ast known alloc = .ok am) : am.run A U err = s.eval known A err := by
  obtain ⟨es, env2, h, ht⟩ := method_tr he hb hf hm
  rw [method_run_of hself err hset h (fun hth => by rw [seqNode_exec]; exact Body.tr_noRet hP false s.body _ es (.inr hth) ht) hm]
  rw [Body.tr_ends hP hN false s.body false [s.scope] es hf (fun h => absurd h (Nat.lt_irrefl 0)) (fun _ => rfl) ht]
  exact (ends_answered _).symm

theorem method_tr_makes {s : SMethod} {am : AMethod} (he : s.env.Nodup) (hb : s.body.bound [s.env]) (hf : s.body.fair I D F C N false) (hm : s.ast known alloc = .ok am) :
    Match (Renders known I D F C N) am.makes (s.body.made [s.scope]) := by
  obtain ⟨es, env2, h, ht⟩ := method_tr he hb hf hm
  have h1 := Body.tr_blks s.body false false _ es hf (by simp [SMethod.scope]) ht
  rw [← seqNode_blks'] at h1
  unfold SMethod.ast at hm
  rw [h] at hm
  replace hm : (if s.body.throws false then Except.ok (AMethod.ast env2 true (seqNode es)) else match (seqNode es).triv with | some t => .ok (.triv t) | none => .ok (.ast env2 false (seqNode es))) = .ok am := hm
  split at hm
  · cases hm; exact h1
  · split at hm
    · rename_i t heq
      cases hm
      rw [triv_no_blks heq] at h1; exact h1
    · cases hm; exact h1
end
end PySOM.BC

import Verif.Lemmas.Reference
/-!
# Inlining and translations
-/
set_option autoImplicit false
namespace PySOM.BC
open PySOM

section
variable {known : Sel → Bool} {env : List Nat} {k : Nat} {σ σ' : Areas}

theorem seqNode_adapt {ns : Nodes} {n : Node} (h : (seqNode ns).adapt k env = .ok n) : ∃ ns', ns.adapt k env = .ok ns' ∧ n = seqNode ns' := by
  rcases ns with _ | ⟨e, _ | ⟨f, fs⟩⟩
  · cases h; exact ⟨.nil, rfl, rfl⟩
  · exact ⟨.cons n .nil, by simp only [Nodes.adapt]; rw [show e.adapt k env = .ok n from h]; rfl, rfl⟩
  · simp only [seqNode, Node.adapt] at h
    obtain ⟨ns', h1, h2⟩ := except_bind_ok h
    cases h2
    refine ⟨ns', h1, ?_⟩
    simp only [Nodes.adapt] at h1
    obtain ⟨a, _, h1⟩ := except_bind_ok h1
    obtain ⟨b, h2, h1⟩ := except_bind_ok h1
    obtain ⟨c, _, h2⟩ := except_bind_ok h2
    obtain ⟨d, _, h2⟩ := except_bind_ok h2
    cases h2; cases h1; rfl

theorem seqNode_inline {ns : Nodes} {n : Node} (h : (seqNode ns).inline env true = .ok n) : ∃ ns', ns.inline env = .ok ns' ∧ n = seqNode ns' := by
  rcases ns with _ | ⟨e, _ | ⟨f, fs⟩⟩
  · cases h; exact ⟨.nil, rfl, rfl⟩
  · exact ⟨.cons n .nil, by simp only [Nodes.inline]; rw [show e.inline env true = .ok n from h]; rfl, rfl⟩
  · simp only [seqNode, Node.inline] at h
    obtain ⟨ns', h1, h2⟩ := except_bind_ok h
    cases h2
    refine ⟨ns', h1, ?_⟩
    simp only [Nodes.inline] at h1
    obtain ⟨a, _, h1⟩ := except_bind_ok h1
    obtain ⟨b, h2, h1⟩ := except_bind_ok h1
    obtain ⟨c, _, h2⟩ := except_bind_ok h2
    obtain ⟨d, _, h2⟩ := except_bind_ok h2
    cases h2; cases h1; rfl

theorem globNode_adapt {g : Sel} {l : Nat} {n : Node} (h : (globNode known l g).adapt k env = .ok n) : n = globNode known l g := by
  unfold globNode at h ⊢
  by_cases h1 : g = symTrue
  · rw [if_pos h1] at h ⊢; cases h; rfl
  · rw [if_neg h1] at h ⊢
    by_cases h2 : g = symFalse
    · rw [if_pos h2] at h ⊢; cases h; rfl
    · rw [if_neg h2] at h ⊢
      by_cases h3 : g = symNil
      · rw [if_pos h3] at h ⊢; cases h; rfl
      · rw [if_neg h3] at h ⊢
        by_cases h4 : known g = true
        · rw [if_pos h4] at h ⊢; cases h; rfl
        · rw [if_neg h4] at h ⊢; cases h; rfl

theorem globNode_inline {g : Sel} {l : Nat} {n : Node} {ad : Bool} (h : (globNode known l g).inline env ad = .ok n) : n = globNode known (l - 1) g := by
  unfold globNode at h ⊢
  by_cases h1 : g = symTrue
  · rw [if_pos h1] at h ⊢; cases h; rfl
  · rw [if_neg h1] at h ⊢
    by_cases h2 : g = symFalse
    · rw [if_pos h2] at h ⊢; cases h; rfl
    · rw [if_neg h2] at h ⊢
      by_cases h3 : g = symNil
      · rw [if_pos h3] at h ⊢; cases h; rfl
      · rw [if_neg h3] at h ⊢
        by_cases h4 : known g = true
        · rw [if_pos h4] at h ⊢; cases h; rfl
        · rw [if_neg h4] at h ⊢; cases h; rfl

theorem adaptSelf_pos {l l' : Nat} (hl : k < l) (h : adaptSelf k l = .ok l') : l' = l - 1 := by
  unfold adaptSelf at h
  rw [if_neg (by omega), if_pos hl] at h
  split at h <;> cases h
  rfl

/-! ## Nested blocks -/

theorem Absorb.adapt_self (h : Absorb env k σ σ') (_hk : 0 < k) {l l' : Nat} (ha : adaptSelf k (BC.hops σ l) = .ok l') : l' = BC.hops σ' l := by
  have := h.hops l
  unfold adaptSelf at ha
  split at ha
  · cases ha; omega
  · split at ha
    · split at ha
      · cases ha; omega
      · cases ha
    · cases ha

theorem Absorb.adapt_depth (h : Absorb env k σ σ') {l' : Nat} (ha : adaptSelf k (BC.depth σ) = .ok l') : l' = BC.depth σ' := by
  have := h.depth
  rw [adaptSelf_pos this.2 ha]
  omega

theorem Absorb.adapt_tgt (h : Absorb env k σ σ') {x y : Node} {n : Node} : ∀ (t : Tgt), trTgt σ x t y → y.adapt k env = .ok n → ∃ x', x.adapt k env = .ok x' ∧ trTgt σ' x' t n
  | .var _ true i l, ht, ha => by
    simp only [trTgt] at ht
    subst ht
    simp only [Node.adapt] at ha
    obtain ⟨x', hx, ha⟩ := except_bind_ok ha
    have := h.hops l
    refine ⟨x', hx, ?_⟩
    split at ha
    · cases ha; simp only [trTgt]; rw [this.2 (by omega)]
    · split at ha
      · cases ha
      · cases ha; simp only [trTgt]; rw [this.1 (by omega)]
  | .var _ false i l, ht, ha => by
    simp only [trTgt] at ht
    obtain ⟨s, j, hi, rfl⟩ := ht
    simp only [Node.adapt] at ha
    obtain ⟨x', hx, ha⟩ := except_bind_ok ha
    have := h.hops l
    refine ⟨x', hx, ?_⟩
    split at ha
    · cases ha
      exact ⟨s, j, h.at hi (by omega), by rw [this.2 (by omega)]⟩
    · split at ha
      · obtain ⟨j', hj, ha⟩ := except_bind_ok ha
        cases ha
        exact ⟨s, j', h.at_moved hi (by omega) hj, by rw [this.1 (by omega)]⟩
      · cases ha
        exact ⟨s, j, h.at hi (by omega), by rw [this.1 (by omega)]⟩
  | .fld _ i, ht, ha => by
    simp only [trTgt] at ht
    rcases ht with rfl | ⟨rfl, rfl⟩
    · simp only [Node.adapt] at ha
      obtain ⟨x', hx, ha⟩ := except_bind_ok ha
      obtain ⟨l', hl, ha⟩ := except_bind_ok ha
      cases ha
      exact ⟨x', hx, .inl (by rw [h.adapt_depth hl])⟩
    · simp only [Node.adapt] at ha
      obtain ⟨l', hl, ha⟩ := except_bind_ok ha
      cases ha
      refine ⟨.inc (.fld i l'), ?_, .inr ?_⟩
      · simp only [Node.adapt]; rw [hl]; rfl
      · rw [h.adapt_depth hl]; exact ⟨rfl, rfl⟩

theorem Absorb.adapt_tgts (h : Absorb env k σ σ') {x : Node} : ∀ (ts : List Tgt) (y n : Node), trTgts σ x ts y → y.adapt k env = .ok n → ∃ x', x.adapt k env = .ok x' ∧ trTgts σ' x' ts n
  | [], y, n, ht, ha => by
    simp only [trTgts] at ht
    subst ht
    exact ⟨n, ha, rfl⟩
  | t :: ts, y, n, ht, ha => by
    obtain ⟨z, h1, h2⟩ := ht
    obtain ⟨z', h3, h4⟩ := h.adapt_tgt t h2 ha
    obtain ⟨x', h5, h6⟩ := h.adapt_tgts ts z z' h1 h3
    exact ⟨x', h5, z', h6, h4⟩

theorem Absorb.adapt_ret (h : Absorb env k σ σ') {x n : Node} (ha : (retNode (BC.depth σ) x).adapt k env = .ok n) : ∃ x', x.adapt k env = .ok x' ∧ n = retNode (BC.depth σ') x' := by
  have hd := h.depth
  unfold retNode at ha ⊢
  rw [if_neg (by omega)] at ha
  simp only [Node.adapt] at ha
  obtain ⟨x', hx, ha⟩ := except_bind_ok ha
  refine ⟨x', hx, ?_⟩
  rw [if_neg (by omega)] at ha
  split at ha
  · cases ha; rw [if_pos (by omega)]
  · cases ha; rw [if_neg (by omega)]; congr 1; omega

mutual
theorem Ex.tr_adapt {k : Nat} {σ σ' : Areas} (h : Absorb env k σ σ') (hk : 0 < k) : ∀ (e : Ex SBlock) (n n' : Node), e.tr known σ n → n.adapt k env = .ok n' → e.tr known σ' n'
  | .lit (.val v), n, n', ht, ha => by
    simp only [Ex.tr] at ht ⊢
    subst ht; cases ha; rfl
  | .lit (.arr _), n, n', ht, ha => by simp only [Ex.tr] at ht
  | .glob g, n, n', ht, ha => by
    simp only [Ex.tr] at ht ⊢
    obtain ⟨l, rfl⟩ := ht
    exact ⟨l, globNode_adapt ha⟩
  | .var true i l, n, n', ht, ha => by
    simp only [Ex.tr] at ht ⊢
    subst ht
    split at ha
    · rename_i hi
      rw [if_pos hi]
      simp only [Node.adapt] at ha
      obtain ⟨l', hl, ha⟩ := except_bind_ok ha
      cases ha
      rw [h.adapt_self hk hl]
    · rename_i hi
      rw [if_neg hi]
      simp only [Node.adapt] at ha
      have := h.hops l
      split at ha
      · cases ha; rw [this.2 (by omega)]
      · split at ha
        · cases ha
        · cases ha; rw [this.1 (by omega)]
  | .var false i l, n, n', ht, ha => by
    simp only [Ex.tr] at ht ⊢
    obtain ⟨s, j, hi, rfl⟩ := ht
    simp only [Node.adapt] at ha
    have := h.hops l
    split at ha
    · cases ha
      exact ⟨s, j, h.at hi (by omega), by rw [this.2 (by omega)]⟩
    · split at ha
      · obtain ⟨j', hj, ha⟩ := except_bind_ok ha
        cases ha
        exact ⟨s, j', h.at_moved hi (by omega) hj, by rw [this.1 (by omega)]⟩
      · cases ha
        exact ⟨s, j, h.at hi (by omega), by rw [this.1 (by omega)]⟩
  | .fld _ i, n, n', ht, ha => by
    simp only [Ex.tr] at ht ⊢
    subst ht
    simp only [Node.adapt] at ha
    obtain ⟨l', hl, ha⟩ := except_bind_ok ha
    cases ha
    rw [h.adapt_depth hl]
  | .blk _ s, n, n', ht, ha => by
    simp only [Ex.tr] at ht ⊢
    obtain ⟨m, h1, rfl⟩ := ht
    cases hc : s.requiresContext known with
    | true =>
      rw [hc] at ha
      simp only [Node.adapt] at ha
      obtain ⟨m', hm, ha⟩ := except_bind_ok ha
      cases ha
      exact ⟨m', SBlock.tr_adapt h s m m' h1 hm, rfl⟩
    | false =>
      rw [hc] at ha
      simp only [Node.adapt] at ha
      cases ha
      exact ⟨m, SBlock.tr_anywhere hc h1 σ', rfl⟩
  | .asg t ts e, n, n', ht, ha => by
    simp only [Ex.tr] at ht ⊢
    obtain ⟨x, h1, h2⟩ := ht
    obtain ⟨x', h3, h4⟩ := h.adapt_tgts (t :: ts) n n' h2 ha
    exact ⟨x', Ex.tr_adapt h hk e x x' h1 h3, h4⟩
  | .inc e, n, n', ht, ha => by
    simp only [Ex.tr] at ht ⊢
    obtain ⟨x, h1, rfl⟩ := ht
    simp only [Node.adapt] at ha
    obtain ⟨x', hx, ha⟩ := except_bind_ok ha
    cases ha
    exact ⟨x', Ex.tr_adapt h hk e x x' h1 hx, rfl⟩
  | .dec e, n, n', ht, ha => by
    simp only [Ex.tr] at ht ⊢
    obtain ⟨x, h1, rfl⟩ := ht
    simp only [Node.adapt] at ha
    obtain ⟨x', hx, ha⟩ := except_bind_ok ha
    cases ha
    exact ⟨x', Ex.tr_adapt h hk e x x' h1 hx, rfl⟩
  | .send sel r as, n, n', ht, ha => by
    simp only [Ex.tr] at ht ⊢
    split at ht
    · obtain ⟨x, xs, h1, h2, ⟨q, a, hq, rfl, rfl⟩ | ⟨q, a, b, hq, rfl, rfl⟩⟩ := ht
      · simp only [Node.adapt] at ha
        obtain ⟨x', hx, ha⟩ := except_bind_ok ha
        obtain ⟨a', ha', ha⟩ := except_bind_ok ha
        cases ha
        refine ⟨x', .cons a' .nil, Ex.tr_adapt h hk r x x' h1 hx, Exs.trIn_adapt h hk as _ _ h2 ?_, .inl ⟨q, a', hq, rfl, rfl⟩⟩
        simp only [Nodes.adapt]; rw [ha']; rfl
      · simp only [Node.adapt] at ha
        obtain ⟨x', hx, ha⟩ := except_bind_ok ha
        obtain ⟨a', ha', ha⟩ := except_bind_ok ha
        obtain ⟨b', hb', ha⟩ := except_bind_ok ha
        cases ha
        refine ⟨x', .cons a' (.cons b' .nil), Ex.tr_adapt h hk r x x' h1 hx, Exs.trIn_adapt h hk as _ _ h2 ?_, .inr ⟨q, a', b', hq, rfl, rfl⟩⟩
        simp only [Nodes.adapt]; rw [ha', hb']; rfl
    · obtain ⟨x, y, h1, h2, rfl⟩ := ht
      simp only [Node.adapt] at ha
      obtain ⟨x', hx, ha⟩ := except_bind_ok ha
      obtain ⟨y', hy, ha⟩ := except_bind_ok ha
      cases ha
      refine ⟨x', y', Ex.trIn_adapt h hk r x x' h1 hx, Exs.trIn_adapt h hk as _ _ h2 ?_, rfl⟩
      simp only [Nodes.adapt]; rw [hy]; rfl
    · obtain ⟨x, xs, h1, h2, rfl | ⟨hs, rfl, rfl⟩⟩ := ht
      · simp only [Node.adapt] at ha
        obtain ⟨x', hx, ha⟩ := except_bind_ok ha
        obtain ⟨xs', hxs, ha⟩ := except_bind_ok ha
        cases ha
        exact ⟨x', xs', Ex.tr_adapt h hk r x x' h1 hx, Exs.tr_adapt h hk as xs xs' h2 hxs, .inl rfl⟩
      · simp only [Node.adapt] at ha
        obtain ⟨x', hx, ha⟩ := except_bind_ok ha
        cases ha
        exact ⟨x', _, Ex.tr_adapt h hk r x x' h1 hx, Exs.tr_adapt h hk as _ (.cons (.lit (.int 1)) .nil) h2 rfl, .inr ⟨hs, rfl, rfl⟩⟩
  | .superSend sel r as, n, n', ht, ha => by
    simp only [Ex.tr] at ht ⊢
    obtain ⟨x, xs, h1, h2, rfl⟩ := ht
    simp only [Node.adapt] at ha
    obtain ⟨x', hx, ha⟩ := except_bind_ok ha
    obtain ⟨xs', hxs, ha⟩ := except_bind_ok ha
    cases ha
    exact ⟨x', xs', Ex.tr_adapt h hk r x x' h1 hx, Exs.tr_adapt h hk as xs xs' h2 hxs, rfl⟩
theorem Ex.trIn_adapt {k : Nat} {σ σ' : Areas} (h : Absorb env k σ σ') (hk : 0 < k) : ∀ (e : Ex SBlock) (n n' : Node), e.trIn known σ n → n.adapt k env = .ok n' → e.trIn known σ' n'
  | .blk _ (.mk id args ls b), n, n', ht, ha => by
    simp only [Ex.trIn, SBlock.trIn] at ht ⊢
    obtain ⟨ns, h1, rfl⟩ := ht
    obtain ⟨ns', h2, rfl⟩ := seqNode_adapt ha
    exact ⟨ns', Body.tr_adapt (.place ls _ k σ σ' h) hk b ns ns' h1 h2, rfl⟩
  | .lit _, n, n', ht, ha => by simp only [Ex.trIn] at ht
  | .glob _, n, n', ht, ha => by simp only [Ex.trIn] at ht
  | .var _ _ _, n, n', ht, ha => by simp only [Ex.trIn] at ht
  | .fld _ _, n, n', ht, ha => by simp only [Ex.trIn] at ht
  | .asg _ _ _, n, n', ht, ha => by simp only [Ex.trIn] at ht
  | .inc _, n, n', ht, ha => by simp only [Ex.trIn] at ht
  | .dec _, n, n', ht, ha => by simp only [Ex.trIn] at ht
  | .send _ _ _, n, n', ht, ha => by simp only [Ex.trIn] at ht
  | .superSend _ _ _, n, n', ht, ha => by simp only [Ex.trIn] at ht
theorem Exs.tr_adapt {k : Nat} {σ σ' : Areas} (h : Absorb env k σ σ') (hk : 0 < k) : ∀ (es : Exs SBlock) (ns ns' : Nodes), es.tr known σ ns → ns.adapt k env = .ok ns' → es.tr known σ' ns'
  | .nil, ns, ns', ht, ha => by
    simp only [Exs.tr] at ht ⊢
    subst ht; cases ha; rfl
  | .cons e es, ns, ns', ht, ha => by
    simp only [Exs.tr] at ht ⊢
    obtain ⟨x, xs, h1, h2, rfl⟩ := ht
    simp only [Nodes.adapt] at ha
    obtain ⟨x', hx, ha⟩ := except_bind_ok ha
    obtain ⟨xs', hxs, ha⟩ := except_bind_ok ha
    cases ha
    exact ⟨x', xs', Ex.tr_adapt h hk e x x' h1 hx, Exs.tr_adapt h hk es xs xs' h2 hxs, rfl⟩
theorem Exs.trIn_adapt {k : Nat} {σ σ' : Areas} (h : Absorb env k σ σ') (hk : 0 < k) : ∀ (es : Exs SBlock) (ns ns' : Nodes), es.trIn known σ ns → ns.adapt k env = .ok ns' → es.trIn known σ' ns'
  | .nil, ns, ns', ht, ha => by
    simp only [Exs.trIn] at ht ⊢
    subst ht; cases ha; rfl
  | .cons e es, ns, ns', ht, ha => by
    simp only [Exs.trIn] at ht ⊢
    obtain ⟨x, xs, h1, h2, rfl⟩ := ht
    simp only [Nodes.adapt] at ha
    obtain ⟨x', hx, ha⟩ := except_bind_ok ha
    obtain ⟨xs', hxs, ha⟩ := except_bind_ok ha
    cases ha
    exact ⟨x', xs', Ex.trIn_adapt h hk e x x' h1 hx, Exs.trIn_adapt h hk es xs xs' h2 hxs, rfl⟩
theorem Body.tr_adapt {k : Nat} {σ σ' : Areas} (h : Absorb env k σ σ') (hk : 0 < k) : ∀ (b : Body SBlock) (ns ns' : Nodes), b.tr known true σ ns → ns.adapt k env = .ok ns' →
    b.tr known true σ' ns'
  | .done, ns, ns', ht, ha => by
    simp only [Body.tr, if_true] at ht ⊢
    subst ht; cases ha; rfl
  | .last e, ns, ns', ht, ha => by
    simp only [Body.tr, if_true] at ht ⊢
    obtain ⟨x, h1, rfl⟩ := ht
    simp only [Nodes.adapt] at ha
    obtain ⟨x', hx, ha⟩ := except_bind_ok ha
    cases ha
    exact ⟨x', Ex.tr_adapt h hk e x x' h1 hx, rfl⟩
  | .stmt e rest, ns, ns', ht, ha => by
    simp only [Body.tr] at ht ⊢
    obtain ⟨x, xs, h1, h2, rfl⟩ := ht
    simp only [Nodes.adapt] at ha
    obtain ⟨x', hx, ha⟩ := except_bind_ok ha
    obtain ⟨xs', hxs, ha⟩ := except_bind_ok ha
    cases ha
    exact ⟨x', xs', Ex.tr_adapt h hk e x x' h1 hx, Body.tr_adapt h hk rest xs xs' h2 hxs, rfl⟩
  | .exit e, ns, ns', ht, ha => by
    simp only [Body.tr, if_true] at ht ⊢
    obtain ⟨x, h1, rfl⟩ := ht
    simp only [Nodes.adapt] at ha
    obtain ⟨y, hy, ha⟩ := except_bind_ok ha
    cases ha
    obtain ⟨x', hx, rfl⟩ := h.adapt_ret hy
    exact ⟨x', Ex.tr_adapt h hk e x x' h1 hx, rfl⟩
  | .exitSelf, ns, ns', ht, ha => by
    simp only [Body.tr, if_true] at ht ⊢
    subst ht
    simp only [Nodes.adapt] at ha
    obtain ⟨y, hy, ha⟩ := except_bind_ok ha
    cases ha
    obtain ⟨x', hx, rfl⟩ := h.adapt_ret hy
    simp only [Node.adapt] at hx
    obtain ⟨l', hl, hx⟩ := except_bind_ok hx
    cases hx
    rw [h.adapt_depth hl]
theorem SBlock.tr_adapt {k : Nat} {σ σ' : Areas} (h : Absorb env k σ σ') : ∀ (s : SBlock) (m m' : AMeth), s.tr known σ m → m.adapt (k + 1) env = .ok m' → s.tr known σ' m'
  | .mk id args ls b, m, m', ht, ha => by
    simp only [SBlock.tr] at ht ⊢
    obtain ⟨ns, h1, ⟨hp, rfl⟩ | ⟨hp, t, h2, rfl⟩⟩ := ht
    · simp only [AMeth.adapt] at ha
      obtain ⟨y, hy, ha⟩ := except_bind_ok ha
      cases ha
      obtain ⟨ns', h2, rfl⟩ := seqNode_adapt hy
      exact ⟨ns', Body.tr_adapt (.frame ls _ k σ σ' h) (Nat.succ_pos k) b ns ns' h1 h2, .inl ⟨hp, rfl⟩⟩
    · simp only [AMeth.adapt] at ha
      cases ha
end
end
/-! ## The block itself -/

section
variable {known : Sel → Bool} {env : List Nat} {σ σ' : Areas}

theorem Absorb.inline_tgt (h : Absorb env 0 σ σ') {x y : Node} {n : Node} {ad : Bool} : ∀ (t : Tgt), trTgt σ x t y → y.inline env ad = .ok n →
    ∃ x' ad', x.inline env ad' = .ok x' ∧ trTgt σ' x' t n
  | .var _ true i l, ht, ha => by
    simp only [trTgt] at ht
    subst ht
    simp only [Node.inline] at ha
    obtain ⟨x', hx, ha⟩ := except_bind_ok ha
    have := h.hops l
    refine ⟨x', _, hx, ?_⟩
    split at ha
    · cases ha
    · cases ha; simp only [trTgt]; rw [this.2 (by omega)]
  | .var _ false i l, ht, ha => by
    simp only [trTgt] at ht
    obtain ⟨s, j, hi, rfl⟩ := ht
    simp only [Node.inline] at ha
    obtain ⟨x', hx, ha⟩ := except_bind_ok ha
    have := h.hops l
    refine ⟨x', _, hx, ?_⟩
    split at ha
    · obtain ⟨j', hj, ha⟩ := except_bind_ok ha
      cases ha
      exact ⟨s, j', h.at_moved hi (by omega) hj, by rw [this.1 (by omega)]; congr 1; omega⟩
    · cases ha
      exact ⟨s, j, h.at hi (by omega), by rw [this.2 (by omega)]⟩
  | .fld _ i, ht, ha => by
    have hd := h.depth
    simp only [trTgt] at ht
    rcases ht with rfl | ⟨rfl, rfl⟩
    · simp only [Node.inline] at ha
      obtain ⟨x', hx, ha⟩ := except_bind_ok ha
      cases ha
      exact ⟨x', _, hx, .inl (by congr 1; omega)⟩
    · simp only [Node.inline] at ha
      cases ha
      refine ⟨.inc (.fld i (BC.depth σ - 1)), true, rfl, .inr ?_⟩
      have : BC.depth σ - 1 = BC.depth σ' := by omega
      rw [this]; exact ⟨rfl, rfl⟩

theorem Absorb.inline_tgts (h : Absorb env 0 σ σ') {x : Node} : ∀ (ts : List Tgt) (y n : Node) (ad : Bool), trTgts σ x ts y → y.inline env ad = .ok n →
    ∃ x' ad', x.inline env ad' = .ok x' ∧ trTgts σ' x' ts n
  | [], y, n, ad, ht, ha => by
    simp only [trTgts] at ht
    subst ht
    exact ⟨n, ad, ha, rfl⟩
  | t :: ts, y, n, ad, ht, ha => by
    obtain ⟨z, h1, h2⟩ := ht
    obtain ⟨z', ad', h3, h4⟩ := h.inline_tgt t h2 ha
    obtain ⟨x', ad2, h5, h6⟩ := h.inline_tgts ts z z' ad' h1 h3
    exact ⟨x', ad2, h5, z', h6, h4⟩

theorem Absorb.inline_ret (h : Absorb env 0 σ σ') {x n : Node} {ad : Bool} (ha : (retNode (BC.depth σ) x).inline env ad = .ok n) :
    ∃ x', x.inline env true = .ok x' ∧ n = retNode (BC.depth σ') x' := by
  have hd := h.depth
  unfold retNode at ha ⊢
  rw [if_neg (by omega)] at ha
  simp only [Node.inline] at ha
  obtain ⟨x', hx, ha⟩ := except_bind_ok ha
  refine ⟨x', hx, ?_⟩
  rw [if_neg (by omega)] at ha
  split at ha
  · split at ha
    · cases ha; rw [if_pos (by omega)]
    · cases ha
  · cases ha; rw [if_neg (by omega)]; congr 1; omega

mutual
theorem Ex.tr_inline {σ σ' : Areas} (h : Absorb env 0 σ σ') : ∀ (e : Ex SBlock) (n n' : Node) (ad : Bool), e.tr known σ n → n.inline env ad = .ok n' → e.tr known σ' n'
  | .lit (.val v), n, n', ad, ht, ha => by
    simp only [Ex.tr] at ht ⊢
    subst ht; cases ha; rfl
  | .lit (.arr _), n, n', ad, ht, ha => by simp only [Ex.tr] at ht
  | .glob g, n, n', ad, ht, ha => by
    simp only [Ex.tr] at ht ⊢
    obtain ⟨l, rfl⟩ := ht
    exact ⟨l - 1, globNode_inline ha⟩
  | .var true i l, n, n', ad, ht, ha => by
    simp only [Ex.tr] at ht ⊢
    subst ht
    have := h.hops l
    split at ha
    · rename_i hi
      rw [if_pos hi]
      simp only [Node.inline] at ha
      split at ha
      · split at ha
        · cases ha; congr 1; omega
        · cases ha
      · cases ha; congr 1; omega
    · rename_i hi
      rw [if_neg hi]
      simp only [Node.inline] at ha
      split at ha
      · cases ha
      · cases ha; rw [this.2 (by omega)]
  | .var false i l, n, n', ad, ht, ha => by
    simp only [Ex.tr] at ht ⊢
    obtain ⟨s, j, hi, rfl⟩ := ht
    simp only [Node.inline] at ha
    have := h.hops l
    split at ha
    · obtain ⟨j', hj, ha⟩ := except_bind_ok ha
      cases ha
      exact ⟨s, j', h.at_moved hi (by omega) hj, by rw [this.1 (by omega)]; congr 1; omega⟩
    · cases ha
      exact ⟨s, j, h.at hi (by omega), by rw [this.2 (by omega)]⟩
  | .fld _ i, n, n', ad, ht, ha => by
    simp only [Ex.tr] at ht ⊢
    subst ht
    have hd := h.depth
    simp only [Node.inline] at ha
    cases ha
    congr 1; omega
  | .blk _ s, n, n', ad, ht, ha => by
    simp only [Ex.tr] at ht ⊢
    obtain ⟨m, h1, rfl⟩ := ht
    cases hc : s.requiresContext known with
    | true =>
      rw [hc] at ha
      simp only [Node.inline] at ha
      obtain ⟨m', hm, ha⟩ := except_bind_ok ha
      cases ha
      exact ⟨m', SBlock.tr_adapt h s m m' h1 hm, rfl⟩
    | false =>
      rw [hc] at ha
      simp only [Node.inline] at ha
      cases ha
      exact ⟨m, SBlock.tr_anywhere hc h1 σ', rfl⟩
  | .asg t ts e, n, n', ad, ht, ha => by
    simp only [Ex.tr] at ht ⊢
    obtain ⟨x, h1, h2⟩ := ht
    obtain ⟨x', ad', h3, h4⟩ := h.inline_tgts (t :: ts) n n' ad h2 ha
    exact ⟨x', Ex.tr_inline h e x x' _ h1 h3, h4⟩
  | .inc e, n, n', ad, ht, ha => by
    simp only [Ex.tr] at ht ⊢
    obtain ⟨x, h1, rfl⟩ := ht
    simp only [Node.inline] at ha
    obtain ⟨x', hx, ha⟩ := except_bind_ok ha
    cases ha
    exact ⟨x', Ex.tr_inline h e x x' _ h1 hx, rfl⟩
  | .dec e, n, n', ad, ht, ha => by
    simp only [Ex.tr] at ht ⊢
    obtain ⟨x, h1, rfl⟩ := ht
    simp only [Node.inline] at ha
    obtain ⟨x', hx, ha⟩ := except_bind_ok ha
    cases ha
    exact ⟨x', Ex.tr_inline h e x x' _ h1 hx, rfl⟩
  | .send sel r as, n, n', ad, ht, ha => by
    simp only [Ex.tr] at ht ⊢
    split at ht
    · obtain ⟨x, xs, h1, h2, ⟨q, a, hq, rfl, rfl⟩ | ⟨q, a, b, hq, rfl, rfl⟩⟩ := ht
      · simp only [Node.inline] at ha
        obtain ⟨x', hx, ha⟩ := except_bind_ok ha
        obtain ⟨a', ha', ha⟩ := except_bind_ok ha
        cases ha
        refine ⟨x', .cons a' .nil, Ex.tr_inline h r x x' _ h1 hx, Exs.trIn_inline h as _ _ h2 ?_, .inl ⟨q, a', hq, rfl, rfl⟩⟩
        simp only [Nodes.inline]; rw [ha']; rfl
      · simp only [Node.inline] at ha
        obtain ⟨x', hx, ha⟩ := except_bind_ok ha
        obtain ⟨a', ha', ha⟩ := except_bind_ok ha
        obtain ⟨b', hb', ha⟩ := except_bind_ok ha
        cases ha
        refine ⟨x', .cons a' (.cons b' .nil), Ex.tr_inline h r x x' _ h1 hx, Exs.trIn_inline h as _ _ h2 ?_, .inr ⟨q, a', b', hq, rfl, rfl⟩⟩
        simp only [Nodes.inline]; rw [ha', hb']; rfl
    · obtain ⟨x, y, h1, h2, rfl⟩ := ht
      simp only [Node.inline] at ha
      obtain ⟨x', hx, ha⟩ := except_bind_ok ha
      obtain ⟨y', hy, ha⟩ := except_bind_ok ha
      cases ha
      refine ⟨x', y', Ex.trIn_inline h r x x' h1 hx, Exs.trIn_inline h as _ _ h2 ?_, rfl⟩
      simp only [Nodes.inline]; rw [hy]; rfl
    · obtain ⟨x, xs, h1, h2, rfl | ⟨hs, rfl, rfl⟩⟩ := ht
      · simp only [Node.inline] at ha
        obtain ⟨x', hx, ha⟩ := except_bind_ok ha
        obtain ⟨xs', hxs, ha⟩ := except_bind_ok ha
        cases ha
        exact ⟨x', xs', Ex.tr_inline h r x x' _ h1 hx, Exs.tr_inline h as xs xs' h2 hxs, .inl rfl⟩
      · simp only [Node.inline] at ha
        obtain ⟨x', hx, ha⟩ := except_bind_ok ha
        cases ha
        exact ⟨x', _, Ex.tr_inline h r x x' _ h1 hx, Exs.tr_inline h as _ (.cons (.lit (.int 1)) .nil) h2 rfl, .inr ⟨hs, rfl, rfl⟩⟩
  | .superSend sel r as, n, n', ad, ht, ha => by
    simp only [Ex.tr] at ht ⊢
    obtain ⟨x, xs, h1, h2, rfl⟩ := ht
    simp only [Node.inline] at ha
    obtain ⟨x', hx, ha⟩ := except_bind_ok ha
    obtain ⟨xs', hxs, ha⟩ := except_bind_ok ha
    cases ha
    exact ⟨x', xs', Ex.tr_inline h r x x' _ h1 hx, Exs.tr_inline h as xs xs' h2 hxs, rfl⟩
theorem Ex.trIn_inline {σ σ' : Areas} (h : Absorb env 0 σ σ') : ∀ (e : Ex SBlock) (n n' : Node), e.trIn known σ n → n.inline env true = .ok n' → e.trIn known σ' n'
  | .blk _ (.mk id args ls b), n, n', ht, ha => by
    simp only [Ex.trIn, SBlock.trIn] at ht ⊢
    obtain ⟨ns, h1, rfl⟩ := ht
    obtain ⟨ns', h2, rfl⟩ := seqNode_inline ha
    exact ⟨ns', Body.tr_inline (.place ls _ 0 σ σ' h) b ns ns' h1 h2, rfl⟩
  | .lit _, n, n', ht, ha => by simp only [Ex.trIn] at ht
  | .glob _, n, n', ht, ha => by simp only [Ex.trIn] at ht
  | .var _ _ _, n, n', ht, ha => by simp only [Ex.trIn] at ht
  | .fld _ _, n, n', ht, ha => by simp only [Ex.trIn] at ht
  | .asg _ _ _, n, n', ht, ha => by simp only [Ex.trIn] at ht
  | .inc _, n, n', ht, ha => by simp only [Ex.trIn] at ht
  | .dec _, n, n', ht, ha => by simp only [Ex.trIn] at ht
  | .send _ _ _, n, n', ht, ha => by simp only [Ex.trIn] at ht
  | .superSend _ _ _, n, n', ht, ha => by simp only [Ex.trIn] at ht
theorem Exs.tr_inline {σ σ' : Areas} (h : Absorb env 0 σ σ') : ∀ (es : Exs SBlock) (ns ns' : Nodes), es.tr known σ ns → ns.inline env = .ok ns' → es.tr known σ' ns'
  | .nil, ns, ns', ht, ha => by
    simp only [Exs.tr] at ht ⊢
    subst ht; cases ha; rfl
  | .cons e es, ns, ns', ht, ha => by
    simp only [Exs.tr] at ht ⊢
    obtain ⟨x, xs, h1, h2, rfl⟩ := ht
    simp only [Nodes.inline] at ha
    obtain ⟨x', hx, ha⟩ := except_bind_ok ha
    obtain ⟨xs', hxs, ha⟩ := except_bind_ok ha
    cases ha
    exact ⟨x', xs', Ex.tr_inline h e x x' _ h1 hx, Exs.tr_inline h es xs xs' h2 hxs, rfl⟩
theorem Exs.trIn_inline {σ σ' : Areas} (h : Absorb env 0 σ σ') : ∀ (es : Exs SBlock) (ns ns' : Nodes), es.trIn known σ ns → ns.inline env = .ok ns' → es.trIn known σ' ns'
  | .nil, ns, ns', ht, ha => by
    simp only [Exs.trIn] at ht ⊢
    subst ht; cases ha; rfl
  | .cons e es, ns, ns', ht, ha => by
    simp only [Exs.trIn] at ht ⊢
    obtain ⟨x, xs, h1, h2, rfl⟩ := ht
    simp only [Nodes.inline] at ha
    obtain ⟨x', hx, ha⟩ := except_bind_ok ha
    obtain ⟨xs', hxs, ha⟩ := except_bind_ok ha
    cases ha
    exact ⟨x', xs', Ex.trIn_inline h e x x' h1 hx, Exs.trIn_inline h es xs xs' h2 hxs, rfl⟩
theorem Body.tr_inline {σ σ' : Areas} (h : Absorb env 0 σ σ') : ∀ (b : Body SBlock) (ns ns' : Nodes), b.tr known true σ ns → ns.inline env = .ok ns' →
    b.tr known true σ' ns'
  | .done, ns, ns', ht, ha => by
    simp only [Body.tr, if_true] at ht ⊢
    subst ht; cases ha; rfl
  | .last e, ns, ns', ht, ha => by
    simp only [Body.tr, if_true] at ht ⊢
    obtain ⟨x, h1, rfl⟩ := ht
    simp only [Nodes.inline] at ha
    obtain ⟨x', hx, ha⟩ := except_bind_ok ha
    cases ha
    exact ⟨x', Ex.tr_inline h e x x' _ h1 hx, rfl⟩
  | .stmt e rest, ns, ns', ht, ha => by
    simp only [Body.tr] at ht ⊢
    obtain ⟨x, xs, h1, h2, rfl⟩ := ht
    simp only [Nodes.inline] at ha
    obtain ⟨x', hx, ha⟩ := except_bind_ok ha
    obtain ⟨xs', hxs, ha⟩ := except_bind_ok ha
    cases ha
    exact ⟨x', xs', Ex.tr_inline h e x x' _ h1 hx, Body.tr_inline h rest xs xs' h2 hxs, rfl⟩
  | .exit e, ns, ns', ht, ha => by
    simp only [Body.tr, if_true] at ht ⊢
    obtain ⟨x, h1, rfl⟩ := ht
    simp only [Nodes.inline] at ha
    obtain ⟨y, hy, ha⟩ := except_bind_ok ha
    cases ha
    obtain ⟨x', hx, rfl⟩ := h.inline_ret hy
    exact ⟨x', Ex.tr_inline h e x x' _ h1 hx, rfl⟩
  | .exitSelf, ns, ns', ht, ha => by
    simp only [Body.tr, if_true] at ht ⊢
    subst ht
    simp only [Nodes.inline] at ha
    obtain ⟨y, hy, ha⟩ := except_bind_ok ha
    cases ha
    obtain ⟨x', hx, rfl⟩ := h.inline_ret hy
    have hd := h.depth
    simp only [Node.inline] at hx
    split at hx
    · simp only [if_true] at hx
      cases hx; rw [show BC.depth σ' = 0 by omega]
    · cases hx; rw [show BC.depth σ - 1 = BC.depth σ' by omega]
end
end
end PySOM.BC

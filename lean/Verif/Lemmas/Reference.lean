import Verif.Spec.Reference
import Verif.Lemmas.AstWhole
/-!
# Trees and the scopes of the source

A tree is the translation of an expression in some scopes, of which some have an activation and others do not.  When a block is inlined, its scope loses its activation, and its tree and the trees of
the blocks in it become their translations in the new scopes.
-/
set_option autoImplicit false
namespace PySOM.BC
open PySOM

/-! ## Scopes -/

theorem firstIdx_idxOf (xs : List Nat) (s j : Nat) : firstIdx xs s = .ok j ↔ xs.idxOf? s = some j := by
  induction xs generalizing j with
  | nil => simp [firstIdx]
  | cons x xs ih =>
    rw [List.idxOf?_cons]
    simp only [firstIdx]
    by_cases h : x = s
    · rw [if_pos h, if_pos (by simpa using h)]
      simp
    · rw [if_neg h, if_neg (by simpa using h)]
      cases hf : firstIdx xs s with
      | error e =>
        have : xs.idxOf? s = none := by
          cases hx : xs.idxOf? s with
          | none => rfl
          | some k => rw [(ih k).mpr hx] at hf; cases hf
        rw [this]
        exact ⟨fun h => (nomatch h), fun h => (nomatch h)⟩
      | ok k =>
        rw [(ih k).mp hf]
        exact ⟨fun h => by cases h; rfl, fun h => by cases h; rfl⟩

theorem firstIdx_prefix {xs ys : List Nat} (h : xs <+: ys) {s j : Nat} (hf : firstIdx xs s = .ok j) : firstIdx ys s = .ok j := by
  obtain ⟨zs, rfl⟩ := h
  induction xs generalizing j with
  | nil => simp only [firstIdx] at hf; cases hf
  | cons x xs ih =>
    simp only [List.cons_append, firstIdx] at hf ⊢
    split at hf
    · rename_i e; rw [if_pos e]; exact hf
    · rename_i e
      obtain ⟨k, hk, hf⟩ := except_bind_ok hf
      rw [if_neg e, ih hk]
      exact hf

theorem firstIdx_nodup {xs : List Nat} (h : xs.Nodup) {s i : Nat} (hi : xs[i]? = some s) : firstIdx xs s = .ok i := by
  induction xs generalizing i with
  | nil => simp at hi
  | cons x xs ih =>
    rw [List.nodup_cons] at h
    simp only [firstIdx]
    cases i with
    | zero =>
      simp only [List.getElem?_cons_zero, Option.some.injEq] at hi
      rw [if_pos hi]
    | succ i =>
      rw [List.getElem?_cons_succ] at hi
      rw [if_neg (fun (e : x = s) => h.1 (e ▸ List.mem_of_getElem? hi)), ih h.2 hi]
      rfl

/-- The variable number `i` that is `l` scopes out is `s`, and its place is `j`. -/
def InSlot (σ : Areas) (i l s j : Nat) : Prop := declared σ i l = some s ∧ firstIdx (kept σ l) s = .ok j

theorem InSlot.whereIs {σ : Areas} {i l s j : Nat} (h : InSlot σ i l s j) : whereIs σ i l = some j := by
  unfold BC.whereIs
  rw [h.1]
  exact (firstIdx_idxOf _ _ _).mp h.2

theorem hops_zero (σ : Areas) : hops σ 0 = 0 := by
  induction σ with
  | nil => rfl
  | cons s σ ih =>
    simp only [hops]
    split
    · rfl
    · exact ih

/-- The scopes before and after inlining a block: the frame that is `k` frames out is no longer one, and `env` are variables in the next one. -/
inductive Absorb (env : List Nat) : Nat → Areas → Areas → Prop where
  | here (v s : List Nat) (ρ : Areas) (h : env <+: kept ρ 0) (hρ : 0 < ρ.countP (·.frame)) : Absorb env 0 (⟨true, v, s⟩ :: ρ) (⟨false, v, s⟩ :: ρ)
  | place (v s : List Nat) (k : Nat) (σ σ' : Areas) (h : Absorb env k σ σ') : Absorb env k (⟨false, v, s⟩ :: σ) (⟨false, v, s⟩ :: σ')
  | frame (v s : List Nat) (k : Nat) (σ σ' : Areas) (h : Absorb env k σ σ') : Absorb env (k + 1) (⟨true, v, s⟩ :: σ) (⟨true, v, s⟩ :: σ')

section
variable {env : List Nat} {k : Nat} {σ σ' : Areas}

theorem Absorb.hops (h : Absorb env k σ σ') (l : Nat) : (hops σ l ≤ k → hops σ' l = hops σ l) ∧ (k < BC.hops σ l → BC.hops σ' l = BC.hops σ l - 1) := by
  induction h generalizing l with
  | here v s ρ h hρ =>
    cases l with
    | zero => simp only [BC.hops, if_true]; exact ⟨fun _ => hops_zero ρ, fun h => by omega⟩
    | succ l => simp only [BC.hops, if_true, Bool.false_eq_true, if_false]; omega
  | place v s k σ σ' h ih =>
    cases l with
    | zero => simp only [BC.hops, Bool.false_eq_true, if_false]; exact ih 0
    | succ l => simp only [BC.hops, Bool.false_eq_true, if_false]; exact ih l
  | frame v s k σ σ' h ih =>
    cases l with
    | zero => simp only [BC.hops, if_true]; exact ⟨fun _ => trivial, fun h => by omega⟩
    | succ l => simp only [BC.hops, if_true]; have := ih l; omega

theorem Absorb.kept (h : Absorb env k σ σ') (l : Nat) : (BC.hops σ l ≠ k → kept σ' l = kept σ l) ∧ (BC.hops σ l = k → env <+: BC.kept σ' l) := by
  induction h generalizing l with
  | here v s ρ h hρ =>
    cases l with
    | zero => simp only [BC.hops, BC.kept, if_true, Bool.false_eq_true, if_false]; exact ⟨fun h => absurd rfl h, fun _ => h⟩
    | succ l => simp only [BC.hops, BC.kept, if_true]; exact ⟨fun _ => trivial, fun h => by omega⟩
  | place v s k σ σ' h ih =>
    cases l with
    | zero => simp only [BC.hops, BC.kept, Bool.false_eq_true, if_false]; exact ih 0
    | succ l => simp only [BC.hops, BC.kept, Bool.false_eq_true, if_false]; exact ih l
  | frame v s k σ σ' h ih =>
    cases l with
    | zero => simp only [BC.hops, BC.kept, if_true]; exact ⟨fun _ => trivial, fun h => by omega⟩
    | succ l =>
      simp only [BC.hops, BC.kept, if_true]
      exact ⟨fun h => (ih l).1 (by omega), fun h => (ih l).2 (by omega)⟩

theorem Absorb.declared (h : Absorb env k σ σ') (i l : Nat) : declared σ' i l = declared σ i l := by
  unfold BC.declared
  induction h generalizing l with
  | here v s ρ h hρ => cases l <;> rfl
  | place v s k σ σ' h ih => cases l with
    | zero => rfl
    | succ l => exact ih l
  | frame v s k σ σ' h ih => cases l with
    | zero => rfl
    | succ l => exact ih l

theorem Absorb.count (h : Absorb env k σ σ') : σ.countP (·.frame) = σ'.countP (·.frame) + 1 ∧ k + 2 ≤ σ.countP (·.frame) := by
  induction h with
  | here v s ρ h hρ => simp only [List.countP_cons, if_true, Bool.false_eq_true, if_false]; exact ⟨trivial, by omega⟩
  | place v s k σ σ' h ih => simp only [List.countP_cons]; simp; omega
  | frame v s k σ σ' h ih => simp only [List.countP_cons]; simp; omega

theorem Absorb.depth (h : Absorb env k σ σ') : depth σ = depth σ' + 1 ∧ k < BC.depth σ := by
  have := h.count
  unfold BC.depth
  omega

/-- Variables that are not in the frame that goes. -/
theorem Absorb.at {i l s j : Nat} (h : Absorb env k σ σ') (ha : InSlot σ i l s j) (hk : BC.hops σ l ≠ k) : InSlot σ' i l s j :=
  ⟨by rw [h.declared]; exact ha.1, by rw [(h.kept l).1 hk]; exact ha.2⟩

/-- Variables that are. -/
theorem Absorb.at_moved {i l s j j' : Nat} (h : Absorb env k σ σ') (ha : InSlot σ i l s j) (hk : BC.hops σ l = k) (hf : firstIdx env s = .ok j') : InSlot σ' i l s j' :=
  ⟨by rw [h.declared]; exact ha.1, firstIdx_prefix ((h.kept l).2 hk) hf⟩
end

/-- Scopes that are the same up to the block that is `d` scopes out, which has a frame. -/
inductive Free : Nat → Areas → Areas → Prop where
  | here (v s : List Nat) (ρ ρ' : Areas) : Free 0 (⟨true, v, s⟩ :: ρ) (⟨true, v, s⟩ :: ρ')
  | push (x : Area) (d : Nat) (σ σ' : Areas) (h : Free d σ σ') : Free (d + 1) (x :: σ) (x :: σ')

theorem Free.same {d : Nat} {σ σ' : Areas} (h : Free d σ σ') {l : Nat} (hl : l ≤ d) : hops σ' l = hops σ l ∧ kept σ' l = kept σ l ∧ ∀ i, declared σ' i l = declared σ i l := by
  induction h generalizing l with
  | here v s ρ ρ' =>
    have : l = 0 := by omega
    subst this
    exact ⟨rfl, rfl, fun _ => rfl⟩
  | push x d σ σ' h ih =>
    cases l with
    | zero =>
      have := ih (Nat.zero_le d)
      simp only [hops, kept]
      exact ⟨by rw [this.1], by rw [this.2.1], fun _ => rfl⟩
    | succ l =>
      have := ih (Nat.le_of_succ_le_succ hl)
      simp only [hops, kept]
      exact ⟨by rw [this.1], this.2.1, this.2.2⟩

theorem Free.at {d : Nat} {σ σ' : Areas} (h : Free d σ σ') {i l s j : Nat} (hl : l ≤ d) (ha : InSlot σ i l s j) : InSlot σ' i l s j :=
  ⟨by rw [(h.same hl).2.2]; exact ha.1, by rw [(h.same hl).2.1]; exact ha.2⟩

/-! ## Translations -/

/-- Writing a variable. -/
def trTgt (σ : Areas) (x : Node) : Tgt → Node → Prop
  | .var _ true i l, n => n = .writeArg i (hops σ l) x
  | .var _ false i l, n => ∃ s j, InSlot σ i l s j ∧ n = .writeLoc j s (hops σ l) x
  | .fld _ i, n => n = .fldW i (depth σ) x ∨ (x = .inc (.fld i (depth σ)) ∧ n = .fldInc i (depth σ))

def trTgts (σ : Areas) (x : Node) : List Tgt → Node → Prop
  | [], n => n = x
  | t :: ts, n => ∃ y, trTgts σ x ts y ∧ trTgt σ y t n

/-- A control structure. -/
def trChoice (sel : Sel) (x : Node) (xs : Nodes) (n : Node) : Prop :=
  (∃ k a, aspecial? sel = some (.one k) ∧ xs = .cons a .nil ∧ n = .inl1 k x a) ∨ ∃ k a b, aspecial? sel = some (.two k) ∧ xs = .cons a (.cons b .nil) ∧ n = .inl2 k x a b

/-- `^` -/
def retNode (d : Nat) (n : Node) : Node := if d = 0 then .retL n else .retNL d n

mutual
/-- The tree is a translation of the expression. -/
def Ex.tr (known : Sel → Bool) (σ : Areas) : Ex SBlock → Node → Prop
  | .lit (.val v), n => n = .lit v
  | .lit (.arr _), _ => False
  | .glob g, n => ∃ l, n = globNode known l g
  | .var true i l, n => n = if i = 0 then .self (hops σ l) else .readArg i (hops σ l)
  | .var false i l, n => ∃ s j, InSlot σ i l s j ∧ n = .readLoc j s (hops σ l)
  | .fld _ i, n => n = .fld i (depth σ)
  | .blk _ s, n => ∃ m, s.tr known σ m ∧ n = .blk (s.requiresContext known) m
  | .asg t ts e, n => ∃ x, e.tr known σ x ∧ trTgts σ x (t :: ts) n
  | .inc e, n => ∃ x, e.tr known σ x ∧ n = .inc x
  | .dec e, n => ∃ x, e.tr known σ x ∧ n = .send "-".toList x (.cons (.lit (.int 1)) .nil)
  | .send sel r as, n =>
    match shape sel r as with
    | some (.choice _) => ∃ x xs, r.tr known σ x ∧ as.trIn known σ xs ∧ trChoice sel x xs n
    | some (.loop b) => ∃ x y, r.trIn known σ x ∧ as.trIn known σ (.cons y .nil) ∧ n = .while b x y
    | none => ∃ x xs, r.tr known σ x ∧ as.tr known σ xs ∧ (n = .send sel x xs ∨ (sel = "+".toList ∧ xs = .cons (.lit (.int 1)) .nil ∧ n = .inc x))
  | .superSend sel r as, n => ∃ x xs, r.tr known σ x ∧ as.tr known σ xs ∧ n = .superSend sel x xs
/-- A block evaluated in place. -/
def Ex.trIn (known : Sel → Bool) (σ : Areas) : Ex SBlock → Node → Prop
  | .blk _ s, n => s.trIn known σ n
  | _, _ => False
def Exs.tr (known : Sel → Bool) (σ : Areas) : Exs SBlock → Nodes → Prop
  | .nil, ns => ns = .nil
  | .cons e es, ns => ∃ x xs, e.tr known σ x ∧ es.tr known σ xs ∧ ns = .cons x xs
def Exs.trIn (known : Sel → Bool) (σ : Areas) : Exs SBlock → Nodes → Prop
  | .nil, ns => ns = .nil
  | .cons e es, ns => ∃ x xs, e.trIn known σ x ∧ es.trIn known σ xs ∧ ns = .cons x xs
def Body.tr (known : Sel → Bool) (isBlock : Bool) (σ : Areas) : Body SBlock → Nodes → Prop
  | .done, ns => ns = if isBlock then .nil else .cons (.self 0) .nil
  | .last e, ns => ∃ x, e.tr known σ x ∧ ns = if isBlock then .cons x .nil else .cons x (.cons (.self 0) .nil)
  | .stmt e rest, ns => ∃ x xs, e.tr known σ x ∧ rest.tr known isBlock σ xs ∧ ns = .cons x xs
  | .exit e, ns => ∃ x, e.tr known σ x ∧ ns = .cons (if isBlock then retNode (depth σ) x else x) .nil
  | .exitSelf, ns => ns = .cons (if isBlock then retNode (depth σ) (.self (depth σ)) else .self 0) .nil
/-- A block with an activation of its own. -/
def SBlock.tr (known : Sel → Bool) (σ : Areas) : SBlock → AMeth → Prop
  | .mk id args env b, m => ∃ ns, b.tr known true (⟨true, env, env ++ b.hoist⟩ :: σ) ns ∧
    ((b.plain = false ∧ m = .ast id args (env ++ b.hoist) (seqNode ns)) ∨ (b.plain = true ∧ ∃ t, (seqNode ns).triv = some t ∧ m = .triv id t))
def SBlock.trIn (known : Sel → Bool) (σ : Areas) : SBlock → Node → Prop
  | .mk _ _ env b, n => ∃ ns, b.tr known true (⟨false, env, env ++ b.hoist⟩ :: σ) ns ∧ n = seqNode ns
end

/-! ## Blocks without context -/

section
variable {known : Sel → Bool}

theorem Free.tgt {d : Nat} {σ σ' : Areas} (h : Free d σ σ') {x n : Node} : ∀ (t : Tgt), t.outside d = false → trTgt σ x t n → trTgt σ' x t n
  | .var _ true i l, ho, ht => by
    simp only [Tgt.outside, decide_eq_false_iff_not, Nat.not_lt] at ho
    simp only [trTgt] at ht ⊢
    rw [(h.same ho).1]; exact ht
  | .var _ false i l, ho, ⟨s, j, ha, ht⟩ => by
    simp only [Tgt.outside, decide_eq_false_iff_not, Nat.not_lt] at ho
    exact ⟨s, j, h.at ho ha, by rw [(h.same ho).1]; exact ht⟩
  | .fld _ _, ho, _ => nomatch ho

theorem Free.tgts {d : Nat} {σ σ' : Areas} (h : Free d σ σ') {x : Node} : ∀ (ts : List Tgt) (n : Node), ts.any (Tgt.outside d) = false → trTgts σ x ts n → trTgts σ' x ts n
  | [], _, _, ht => ht
  | t :: ts, n, ho, ⟨y, h1, h2⟩ => by
    rw [List.any_cons, Bool.or_eq_false_iff] at ho
    exact ⟨y, h.tgts ts y ho.2 h1, h.tgt t ho.1 h2⟩

mutual
theorem Ex.tr_free {d : Nat} {σ σ' : Areas} (h : Free d σ σ') : ∀ (e : Ex SBlock) (n : Node), e.outside known d = false → e.tr known σ n → e.tr known σ' n
  | .lit (.val v), n, ho, ht => ht
  | .lit (.arr _), n, ho, ht => ht
  | .glob g, n, ho, ht => ht
  | .var true i l, n, ho, ht => by
    simp only [Ex.outside, decide_eq_false_iff_not, Nat.not_lt] at ho
    simp only [Ex.tr] at ht ⊢
    rw [(h.same ho).1]; exact ht
  | .var false i l, n, ho, ht => by
    simp only [Ex.outside, decide_eq_false_iff_not, Nat.not_lt] at ho
    simp only [Ex.tr] at ht ⊢
    obtain ⟨s, j, ha, ht⟩ := ht
    exact ⟨s, j, h.at ho ha, by rw [(h.same ho).1]; exact ht⟩
  | .fld _ i, n, ho, ht => by simp only [Ex.outside] at ho; cases ho
  | .blk _ s, n, ho, ht => by
    simp only [Ex.outside] at ho
    simp only [Ex.tr] at ht ⊢
    obtain ⟨m, h1, h2⟩ := ht
    exact ⟨m, SBlock.tr_free h s m ho h1, h2⟩
  | .asg t ts e, n, ho, ht => by
    simp only [Ex.outside, Bool.or_eq_false_iff] at ho
    simp only [Ex.tr] at ht ⊢
    obtain ⟨x, h1, h2⟩ := ht
    exact ⟨x, Ex.tr_free h e x ho.1.1 h1, h.tgts (t :: ts) n (by rw [List.any_cons, Bool.or_eq_false_iff]; exact ⟨ho.1.2, ho.2⟩) h2⟩
  | .inc e, n, ho, ht => by
    simp only [Ex.outside] at ho
    simp only [Ex.tr] at ht ⊢
    obtain ⟨x, h1, h2⟩ := ht
    exact ⟨x, Ex.tr_free h e x ho h1, h2⟩
  | .dec e, n, ho, ht => by
    simp only [Ex.outside] at ho
    simp only [Ex.tr] at ht ⊢
    obtain ⟨x, h1, h2⟩ := ht
    exact ⟨x, Ex.tr_free h e x ho h1, h2⟩
  | .send sel r as, n, ho, ht => by
    simp only [Ex.outside, Bool.or_eq_false_iff] at ho
    simp only [Ex.tr] at ht ⊢
    split at ht
    · obtain ⟨x, xs, h1, h2, h3⟩ := ht
      exact ⟨x, xs, Ex.tr_free h r x ho.1 h1, Exs.trIn_free h as xs ho.2 h2, h3⟩
    · obtain ⟨x, xs, h1, h2, h3⟩ := ht
      exact ⟨x, xs, Ex.trIn_free h r x ho.1 h1, Exs.trIn_free h as _ ho.2 h2, h3⟩
    · obtain ⟨x, xs, h1, h2, h3⟩ := ht
      exact ⟨x, xs, Ex.tr_free h r x ho.1 h1, Exs.tr_free h as xs ho.2 h2, h3⟩
  | .superSend sel r as, n, ho, ht => by
    simp only [Ex.outside, Bool.or_eq_false_iff] at ho
    simp only [Ex.tr] at ht ⊢
    obtain ⟨x, xs, h1, h2, h3⟩ := ht
    exact ⟨x, xs, Ex.tr_free h r x ho.1 h1, Exs.tr_free h as xs ho.2 h2, h3⟩
theorem Ex.trIn_free {d : Nat} {σ σ' : Areas} (h : Free d σ σ') : ∀ (e : Ex SBlock) (n : Node), e.outside known d = false → e.trIn known σ n → e.trIn known σ' n
  | .blk _ s, n, ho, ht => by
    simp only [Ex.outside] at ho
    simp only [Ex.trIn] at ht ⊢
    exact SBlock.trIn_free h s n ho ht
  | .lit _, n, ho, ht => by simp only [Ex.trIn] at ht
  | .glob _, n, ho, ht => by simp only [Ex.trIn] at ht
  | .var _ _ _, n, ho, ht => by simp only [Ex.trIn] at ht
  | .fld _ _, n, ho, ht => by simp only [Ex.trIn] at ht
  | .asg _ _ _, n, ho, ht => by simp only [Ex.trIn] at ht
  | .inc _, n, ho, ht => by simp only [Ex.trIn] at ht
  | .dec _, n, ho, ht => by simp only [Ex.trIn] at ht
  | .send _ _ _, n, ho, ht => by simp only [Ex.trIn] at ht
  | .superSend _ _ _, n, ho, ht => by simp only [Ex.trIn] at ht
theorem Exs.tr_free {d : Nat} {σ σ' : Areas} (h : Free d σ σ') : ∀ (es : Exs SBlock) (ns : Nodes), es.outside known d = false → es.tr known σ ns → es.tr known σ' ns
  | .nil, ns, ho, ht => ht
  | .cons e es, ns, ho, ht => by
    simp only [Exs.outside, Bool.or_eq_false_iff] at ho
    simp only [Exs.tr] at ht ⊢
    obtain ⟨x, xs, h1, h2, h3⟩ := ht
    exact ⟨x, xs, Ex.tr_free h e x ho.1 h1, Exs.tr_free h es xs ho.2 h2, h3⟩
theorem Exs.trIn_free {d : Nat} {σ σ' : Areas} (h : Free d σ σ') : ∀ (es : Exs SBlock) (ns : Nodes), es.outside known d = false → es.trIn known σ ns → es.trIn known σ' ns
  | .nil, ns, ho, ht => ht
  | .cons e es, ns, ho, ht => by
    simp only [Exs.outside, Bool.or_eq_false_iff] at ho
    simp only [Exs.trIn] at ht ⊢
    obtain ⟨x, xs, h1, h2, h3⟩ := ht
    exact ⟨x, xs, Ex.trIn_free h e x ho.1 h1, Exs.trIn_free h es xs ho.2 h2, h3⟩
theorem Body.tr_free {d : Nat} {σ σ' : Areas} (h : Free d σ σ') : ∀ (b : Body SBlock) (ns : Nodes), b.outside known d = false → b.tr known true σ ns → b.tr known true σ' ns
  | .done, ns, ho, ht => ht
  | .last e, ns, ho, ht => by
    simp only [Body.outside] at ho
    simp only [Body.tr] at ht ⊢
    obtain ⟨x, h1, h2⟩ := ht
    exact ⟨x, Ex.tr_free h e x ho h1, h2⟩
  | .stmt e rest, ns, ho, ht => by
    simp only [Body.outside, Bool.or_eq_false_iff] at ho
    simp only [Body.tr] at ht ⊢
    obtain ⟨x, xs, h1, h2, h3⟩ := ht
    exact ⟨x, xs, Ex.tr_free h e x ho.1 h1, Body.tr_free h rest xs ho.2 h2, h3⟩
  | .exit e, ns, ho, ht => by simp only [Body.outside] at ho; cases ho
  | .exitSelf, ns, ho, ht => by simp only [Body.outside] at ho; cases ho
theorem SBlock.tr_free {d : Nat} {σ σ' : Areas} (h : Free d σ σ') : ∀ (s : SBlock) (m : AMeth), s.outside known d = false → s.tr known σ m → s.tr known σ' m
  | .mk id args env b, m, ho, ht => by
    simp only [SBlock.outside] at ho
    simp only [SBlock.tr] at ht ⊢
    obtain ⟨ns, h1, h2⟩ := ht
    exact ⟨ns, Body.tr_free (.push _ d σ σ' h) b ns ho h1, h2⟩
theorem SBlock.trIn_free {d : Nat} {σ σ' : Areas} (h : Free d σ σ') : ∀ (s : SBlock) (n : Node), s.outside known d = false → s.trIn known σ n → s.trIn known σ' n
  | .mk id args env b, m, ho, ht => by
    simp only [SBlock.outside] at ho
    simp only [SBlock.trIn] at ht ⊢
    obtain ⟨ns, h1, h2⟩ := ht
    exact ⟨ns, Body.tr_free (.push _ d σ σ' h) b ns ho h1, h2⟩
end

/-- A block that needs no context can be anywhere. -/
theorem SBlock.tr_anywhere {s : SBlock} {m : AMeth} {σ : Areas} (hc : s.requiresContext known = false) (h : s.tr known σ m) (σ' : Areas) : s.tr known σ' m := by
  obtain ⟨id, args, env, b⟩ := s
  simp only [SBlock.tr, SBlock.requiresContext] at h hc ⊢
  obtain ⟨ns, h1, h2⟩ := h
  exact ⟨ns, Body.tr_free (.here env _ σ σ') b ns hc h1, h2⟩
end
end PySOM.BC

import Verif.Lemmas.AstAdapt
import Verif.Spec.Whole
/-!
# The blocks of trees and of bytecode
-/
set_option autoImplicit false
namespace PySOM.BC
open PySOM

/-! ## The blocks of bytes -/

section
variable {M : Type}

def Ins.blk? : Ins M → Option (Bool × M)
  | .pushBlock c m => some (c, m)
  | _ => none

/-- The blocks that code creates. -/
def SC.blks (c : SC M) : List (Bool × M) := c.instrs.filterMap Ins.blk?

theorem SC.mem_blks {c : SC M} {b : Bool} {m : M} : (b, m) ∈ c.blks ↔ Ins.pushBlock b m ∈ c.instrs := by
  unfold SC.blks
  rw [List.mem_filterMap]
  constructor
  · rintro ⟨i, h1, h2⟩
    cases i <;> cases h2
    exact h1
  · exact fun h => ⟨_, h, rfl⟩

theorem SC.blks_nop : (SC.nop : SC M).blks = [] := rfl
theorem SC.blks_seq (a b : SC M) : (SC.seq a b).blks = a.blks ++ b.blks := List.filterMap_append
theorem SC.blks_thenB (k : JCond) (b : SC M) : (SC.thenB k b).blks = b.blks := rfl
theorem SC.blks_ifElse (k : JCond) (a b : SC M) : (SC.ifElse k a b).blks = a.blks ++ b.blks := List.filterMap_append
theorem SC.blks_loop (k : JCond) (a b : SC M) : (SC.loop k a b).blks = a.blks ++ b.blks := List.filterMap_append
theorem SC.blks_ins (i : Ins M) : (SC.ins i).blks = i.blk?.toList := by
  unfold SC.blks SC.instrs
  cases h : i.blk? <;> simp [h]
end

theorem is_pos {lits : List (Lit Meth)} {d : Dec Meth} {bs : List Nat} (h : Is lits d bs) : 1 ≤ bs.length := by
  cases bs with
  | nil => have := h []; cases this
  | cons b bs => simp

theorem makesIn_ins {lits : List (Lit Meth)} {i : Ins Meth} {bs : List Nat} (h : Is lits (.ins i bs.length) bs) (rest : List Nat) (f : Nat) :
    makesIn lits (f + 1) (bs ++ rest) = i.blk?.toList ++ makesIn lits f rest := by
  rw [makesIn, h rest]
  cases i <;> simp [Dec.size, Ins.blk?]

theorem makesIn_jump {lits : List (Lit Meth)} {d : Dec Meth} {bs : List Nat} (h : IsJump (M := Meth) d bs) (hd : ∀ i len, d ≠ .ins i len) (rest : List Nat) (f : Nat) :
    makesIn lits (f + 1) (bs ++ rest) = makesIn lits f rest := by
  rw [makesIn, h.is lits rest]
  cases d with
  | ins i len => exact absurd rfl (hd i len)
  | _ => simp only [Dec.size, ← h.len, List.drop_left]

theorem makesIn_enc {lits : List (Lit Meth)} {c : SC Meth} {bs : List Nat} (h : Enc lits c bs) : ∀ (rest : List Nat) (f : Nat), (bs ++ rest).length ≤ f →
    ∃ f', rest.length ≤ f' ∧ makesIn lits f (bs ++ rest) = c.blks ++ makesIn lits f' rest := by
  induction h with
  | nop => exact fun rest f hf => ⟨f, hf, rfl⟩
  | ins i bs h =>
    intro rest f hf
    have := is_pos h
    rw [List.length_append] at hf
    obtain ⟨f, rfl⟩ : ∃ g, f = g + 1 := ⟨f - 1, by omega⟩
    exact ⟨f, by omega, by rw [makesIn_ins h, SC.blks_ins]⟩
  | seq a b ba bb _ _ iha ihb =>
    intro rest f hf
    rw [List.append_assoc] at hf ⊢
    obtain ⟨f1, h1, e1⟩ := iha _ f hf
    obtain ⟨f2, h2, e2⟩ := ihb _ f1 h1
    exact ⟨f2, h2, by rw [e1, e2, SC.blks_seq, List.append_assoc]⟩
  | thenB k body j bb hj _ ihb =>
    intro rest f hf
    rw [List.append_assoc] at hf ⊢
    have hl := hj.1
    rw [List.length_append] at hf
    obtain ⟨f, rfl⟩ : ∃ g, f = g + 1 := ⟨f - 1, by omega⟩
    rw [makesIn_jump hj (fun _ _ h => nomatch h)]
    obtain ⟨f2, h2, e2⟩ := ihb rest f (by omega)
    exact ⟨f2, h2, by rw [e2, SC.blks_thenB]⟩
  | ifElse k a b j ba k2 bb hj _ hk _ iha ihb =>
    intro rest f hf
    simp only [List.append_assoc] at hf ⊢
    have hl := hj.1
    have hl2 := hk.1
    rw [List.length_append] at hf
    obtain ⟨f, rfl⟩ : ∃ g, f = g + 1 := ⟨f - 1, by omega⟩
    rw [makesIn_jump hj (fun _ _ h => nomatch h)]
    obtain ⟨f1, h1, e1⟩ := iha (k2 ++ (bb ++ rest)) f (by omega)
    rw [List.length_append] at h1
    obtain ⟨f1, rfl⟩ : ∃ g, f1 = g + 1 := ⟨f1 - 1, by omega⟩
    rw [e1, makesIn_jump hk (fun _ _ h => nomatch h)]
    obtain ⟨f2, h2, e2⟩ := ihb rest f1 (by omega)
    exact ⟨f2, h2, by rw [e2, SC.blks_ifElse, List.append_assoc]⟩
  | loop k cond body bc j bb k2 _ hj _ hk iha ihb =>
    intro rest f hf
    simp only [List.append_assoc] at hf ⊢
    have hl := hj.1
    have hl2 := hk.1
    obtain ⟨f1, h1, e1⟩ := iha _ f hf
    rw [List.length_append] at h1
    obtain ⟨f1, rfl⟩ : ∃ g, f1 = g + 1 := ⟨f1 - 1, by omega⟩
    rw [e1, makesIn_jump hj (fun _ _ h => nomatch h)]
    obtain ⟨f2, h2, e2⟩ := ihb (k2 ++ rest) f1 (by omega)
    rw [List.length_append] at h2
    obtain ⟨f2, rfl⟩ : ∃ g, f2 = g + 1 := ⟨f2 - 1, by omega⟩
    rw [e2, makesIn_jump hk (fun _ _ h => nomatch h)]
    exact ⟨f2, by omega, by rw [SC.blks_loop, List.append_assoc]⟩

theorem Code.makes_enc {C : Code Meth} {c : SC Meth} (h : Enc C.lits c C.bytes) : C.makes = c.blks := by
  obtain ⟨f, _, e⟩ := makesIn_enc h [] C.bytes.length (by simp)
  rw [List.append_nil] at e
  rw [Code.makes, e]
  have : makesIn C.lits f [] = [] := by cases f <;> rfl
  rw [this, List.append_nil]

/-! ## Corresponding blocks -/

section
variable {α β : Type}

/-- Each of these belongs to one of those, and the other way round. -/
def Match (R : α → β → Prop) (xs : List α) (ys : List β) : Prop := (∀ x ∈ xs, ∃ y ∈ ys, R x y) ∧ ∀ y ∈ ys, ∃ x ∈ xs, R x y

theorem Match.nil {R : α → β → Prop} : Match R [] [] := ⟨fun _ h => (nomatch h), fun _ h => (nomatch h)⟩

theorem Match.one {R : α → β → Prop} {x : α} {y : β} (h : R x y) : Match R [x] [y] :=
  ⟨fun _ hx => ⟨y, List.mem_singleton.mpr rfl, List.mem_singleton.mp hx ▸ h⟩, fun _ hy => ⟨x, List.mem_singleton.mpr rfl, List.mem_singleton.mp hy ▸ h⟩⟩

theorem Match.append {R : α → β → Prop} {xs xs' : List α} {ys ys' : List β} (h : Match R xs ys) (h' : Match R xs' ys') : Match R (xs ++ xs') (ys ++ ys') := by
  refine ⟨fun x hx => ?_, fun y hy => ?_⟩
  · rcases List.mem_append.mp hx with hx | hx
    · obtain ⟨y, hy, hr⟩ := h.1 x hx; exact ⟨y, List.mem_append_left _ hy, hr⟩
    · obtain ⟨y, hy, hr⟩ := h'.1 x hx; exact ⟨y, List.mem_append_right _ hy, hr⟩
  · rcases List.mem_append.mp hy with hy | hy
    · obtain ⟨x, hx, hr⟩ := h.2 y hy; exact ⟨x, List.mem_append_left _ hx, hr⟩
    · obtain ⟨x, hx, hr⟩ := h'.2 y hy; exact ⟨x, List.mem_append_right _ hx, hr⟩

theorem Match.mono {R S : α → β → Prop} {xs : List α} {ys : List β} (h : Match R xs ys) (hi : ∀ x y, R x y → S x y) : Match S xs ys :=
  ⟨fun x hx => (h.1 x hx).imp fun _ ⟨hy, hr⟩ => ⟨hy, hi _ _ hr⟩, fun y hy => (h.2 y hy).imp fun _ ⟨hx, hr⟩ => ⟨hx, hi _ _ hr⟩⟩

theorem Match.both {R R' : α → β → Prop} {S : α → α → Prop} {T : β → β → Prop} {xs xs' : List α} {ys ys' : List β} (h : Match R xs ys) (hs : Match S xs xs') (ht : Match T ys ys')
    (hi : ∀ x y x' y', R x y → S x x' → T y y' → R' x' y') : Match R' xs' ys' := by
  refine ⟨fun x' hx' => ?_, fun y' hy' => ?_⟩
  · obtain ⟨x, hx, h1⟩ := hs.2 x' hx'
    obtain ⟨y, hy, h2⟩ := h.1 x hx
    obtain ⟨y', hy', h3⟩ := ht.1 y hy
    exact ⟨y', hy', hi _ _ _ _ h2 h1 h3⟩
  · obtain ⟨y, hy, h1⟩ := ht.2 y' hy'
    obtain ⟨x, hx, h2⟩ := h.2 y hy
    obtain ⟨x', hx', h3⟩ := hs.1 x hx
    exact ⟨x', hx', hi _ _ _ _ h2 h3 h1⟩
end

/-- What becomes of a block in the tree of a block that is changed; those without context stay as they are. -/
def MovedA (k : Nat) (new : List Nat) (p q : Bool × AMeth) : Prop := q.1 = p.1 ∧ if p.1 then p.2.adapt k new = .ok q.2 else q.2 = p.2

/-- The same for bytecode. -/
def MovedB (k : Nat) (chain : List (List Nat)) (new : List Nat) (p q : Bool × Meth) : Prop := q.1 = p.1 ∧ if p.1 then ∃ j, adapt j k chain new p.2 = .ok q.2 else q.2 = p.2

section
variable {k : Nat} {new : List Nat}
mutual
theorem Node.blks_adapt : ∀ (t t' : Node), t.adapt k new = .ok t' → Match (MovedA (k + 1) new) t.blks t'.blks
  | .lit v, t', h => by simp only [Node.adapt] at h; cases h; exact .nil
  | .globK n, t', h => by simp only [Node.adapt] at h; cases h; exact .nil
  | .globU n l, t', h => by simp only [Node.adapt] at h; cases h; exact .nil
  | .readArg i l, t', h => by
    simp only [Node.adapt] at h
    split at h
    · cases h; exact .nil
    · split at h <;> cases h
      exact .nil
  | .readLoc i s l, t', h => by
    simp only [Node.adapt] at h
    split at h
    · cases h; exact .nil
    · split at h
      · obtain ⟨j, hj, h3⟩ := except_bind_ok h
        cases h3; exact .nil
      · cases h; exact .nil
  | .self l, t', h => by
    simp only [Node.adapt] at h
    obtain ⟨l', h1, h2⟩ := except_bind_ok h
    cases h2; exact .nil
  | .writeArg i l e, t', h => by
    simp only [Node.adapt] at h
    obtain ⟨e', h1, h2⟩ := except_bind_ok h
    have ih := Node.blks_adapt e e' h1
    split at h2
    · cases h2; exact ih
    · split at h2 <;> cases h2
      exact ih
  | .writeLoc i s l e, t', h => by
    simp only [Node.adapt] at h
    obtain ⟨e', h1, h2⟩ := except_bind_ok h
    have ih := Node.blks_adapt e e' h1
    split at h2
    · cases h2; exact ih
    · split at h2
      · obtain ⟨j, hj, h5⟩ := except_bind_ok h2
        cases h5
        exact ih
      · cases h2
        exact ih
  | .fld i l, t', h => by
    simp only [Node.adapt] at h
    obtain ⟨l', h1, h2⟩ := except_bind_ok h
    cases h2; exact .nil
  | .fldW i l e, t', h => by
    simp only [Node.adapt] at h
    obtain ⟨e', h0, h3⟩ := except_bind_ok h
    obtain ⟨l', h1, h2⟩ := except_bind_ok h3
    cases h2
    exact Node.blks_adapt e e' h0
  | .fldInc i l, t', h => by
    simp only [Node.adapt] at h
    obtain ⟨l', h1, h2⟩ := except_bind_ok h
    cases h2; exact .nil
  | .inc e, t', h => by
    simp only [Node.adapt] at h
    obtain ⟨e', h1, h2⟩ := except_bind_ok h
    cases h2
    exact Node.blks_adapt e e' h1
  | .blk true m, t', h => by
    simp only [Node.adapt] at h
    obtain ⟨m', h1, h2⟩ := except_bind_ok h
    cases h2
    exact .one ⟨rfl, h1⟩
  | .blk false m, t', h => by simp only [Node.adapt] at h; cases h; exact .one ⟨rfl, rfl⟩
  | .send sel r as, t', h => by
    simp only [Node.adapt] at h
    obtain ⟨r', h1, h2⟩ := except_bind_ok h
    obtain ⟨as', h3, h4⟩ := except_bind_ok h2
    cases h4
    exact (Node.blks_adapt r r' h1).append (Nodes.blks_adapt as as' h3)
  | .superSend sel r as, t', h => by
    simp only [Node.adapt] at h
    obtain ⟨r', h1, h2⟩ := except_bind_ok h
    obtain ⟨as', h3, h4⟩ := except_bind_ok h2
    cases h4
    exact (Node.blks_adapt r r' h1).append (Nodes.blks_adapt as as' h3)
  | .inl1 x r a, t', h => by
    simp only [Node.adapt] at h
    obtain ⟨r', h1, h2⟩ := except_bind_ok h
    obtain ⟨a', h3, h4⟩ := except_bind_ok h2
    cases h4
    exact (Node.blks_adapt r r' h1).append (Node.blks_adapt a a' h3)
  | .inl2 x r a b, t', h => by
    simp only [Node.adapt] at h
    obtain ⟨r', h1, h2⟩ := except_bind_ok h
    obtain ⟨a', h3, h4⟩ := except_bind_ok h2
    obtain ⟨b', h5, h6⟩ := except_bind_ok h4
    cases h6
    exact (Node.blks_adapt r r' h1).append ((Node.blks_adapt a a' h3).append (Node.blks_adapt b b' h5))
  | .while x c b, t', h => by
    simp only [Node.adapt] at h
    obtain ⟨r', h1, h2⟩ := except_bind_ok h
    obtain ⟨a', h3, h4⟩ := except_bind_ok h2
    cases h4
    exact (Node.blks_adapt c r' h1).append (Node.blks_adapt b a' h3)
  | .seq es, t', h => by
    simp only [Node.adapt] at h
    obtain ⟨es', h1, h2⟩ := except_bind_ok h
    cases h2
    exact Nodes.blks_adapt es es' h1
  | .retNL l e, t', h => by
    simp only [Node.adapt] at h
    obtain ⟨e', h1, h2⟩ := except_bind_ok h
    have ih := Node.blks_adapt e e' h1
    split at h2
    · cases h2
    · split at h2 <;> cases h2 <;> exact ih
  | .retL e, t', h => by
    simp only [Node.adapt] at h
    obtain ⟨e', h1, h2⟩ := except_bind_ok h
    cases h2
    exact Node.blks_adapt e e' h1
theorem Nodes.blks_adapt : ∀ (es es' : Nodes), es.adapt k new = .ok es' → Match (MovedA (k + 1) new) es.blks es'.blks
  | .nil, es', h => by simp only [Nodes.adapt] at h; cases h; exact .nil
  | .cons e es, es', h => by
    simp only [Nodes.adapt] at h
    obtain ⟨e', h1, h2⟩ := except_bind_ok h
    obtain ⟨es1, h3, h4⟩ := except_bind_ok h2
    cases h4
    exact (Node.blks_adapt e e' h1).append (Nodes.blks_adapt es es1 h3)
end

mutual
theorem Node.blks_inline : ∀ (t t' : Node) (a : Bool), t.inline new a = .ok t' → Match (MovedA 1 new) t.blks t'.blks
  | .lit v, t', a, h => by simp only [Node.inline] at h; cases h; exact .nil
  | .globK n, t', a, h => by simp only [Node.inline] at h; cases h; exact .nil
  | .globU n l, t', a, h => by simp only [Node.inline] at h; cases h; exact .nil
  | .inc e, t', a, h => by
    simp only [Node.inline] at h
    obtain ⟨e', h1, h2⟩ := except_bind_ok h
    cases h2
    exact Node.blks_inline e e' _ h1
  | .blk true m, t', a, h => by
    simp only [Node.inline] at h
    obtain ⟨m', h1, h2⟩ := except_bind_ok h
    cases h2
    exact .one ⟨rfl, h1⟩
  | .blk false m, t', a, h => by simp only [Node.inline] at h; cases h; exact .one ⟨rfl, rfl⟩
  | .send sel r as, t', a, h => by
    simp only [Node.inline] at h
    obtain ⟨r', h1, h2⟩ := except_bind_ok h
    obtain ⟨as', h3, h4⟩ := except_bind_ok h2
    cases h4
    exact (Node.blks_inline r r' _ h1).append (Nodes.blks_inline as as' h3)
  | .superSend sel r as, t', a, h => by
    simp only [Node.inline] at h
    obtain ⟨r', h1, h2⟩ := except_bind_ok h
    obtain ⟨as', h3, h4⟩ := except_bind_ok h2
    cases h4
    exact (Node.blks_inline r r' _ h1).append (Nodes.blks_inline as as' h3)
  | .inl1 x r a, t', _, h => by
    simp only [Node.inline] at h
    obtain ⟨r', h1, h2⟩ := except_bind_ok h
    obtain ⟨a', h3, h4⟩ := except_bind_ok h2
    cases h4
    exact (Node.blks_inline r r' _ h1).append (Node.blks_inline a a' _ h3)
  | .inl2 x r a b, t', _, h => by
    simp only [Node.inline] at h
    obtain ⟨r', h1, h2⟩ := except_bind_ok h
    obtain ⟨a', h3, h4⟩ := except_bind_ok h2
    obtain ⟨b', h5, h6⟩ := except_bind_ok h4
    cases h6
    exact (Node.blks_inline r r' _ h1).append ((Node.blks_inline a a' _ h3).append (Node.blks_inline b b' _ h5))
  | .while x c b, t', _, h => by
    simp only [Node.inline] at h
    obtain ⟨r', h1, h2⟩ := except_bind_ok h
    obtain ⟨a', h3, h4⟩ := except_bind_ok h2
    cases h4
    exact (Node.blks_inline c r' _ h1).append (Node.blks_inline b a' _ h3)
  | .seq es, t', a, h => by
    simp only [Node.inline] at h
    obtain ⟨es', h1, h2⟩ := except_bind_ok h
    cases h2
    exact Nodes.blks_inline es es' h1
  | .retNL l e, t', a, h => by
    simp only [Node.inline] at h
    obtain ⟨e', h1, h2⟩ := except_bind_ok h
    have ih := Node.blks_inline e e' _ h1
    split at h2
    · cases h2
    · split at h2
      · split at h2 <;> cases h2
        exact ih
      · cases h2; exact ih
  | .retL e, t', a, h => by
    simp only [Node.inline] at h
    obtain ⟨e', h1, h2⟩ := except_bind_ok h
    cases h2
    exact Node.blks_inline e e' _ h1
  | .readArg i l, t', a, h => by
    simp only [Node.inline] at h
    split at h <;> cases h
    exact .nil
  | .readLoc i s l, t', a, h => by
    simp only [Node.inline] at h
    split at h
    · obtain ⟨j, hj, h3⟩ := except_bind_ok h
      cases h3; exact .nil
    · cases h; exact .nil
  | .self l, t', a, h => by
    simp only [Node.inline] at h
    split at h
    · split at h <;> cases h
      exact .nil
    · cases h; exact .nil
  | .writeArg i l e, t', a, h => by
    simp only [Node.inline] at h
    obtain ⟨e', h1, h2⟩ := except_bind_ok h
    have ih := Node.blks_inline e e' _ h1
    split at h2 <;> cases h2
    exact ih
  | .writeLoc i s l e, t', a, h => by
    simp only [Node.inline] at h
    obtain ⟨e', h1, h2⟩ := except_bind_ok h
    have ih := Node.blks_inline e e' _ h1
    split at h2
    · obtain ⟨j, hj, h5⟩ := except_bind_ok h2
      cases h5
      exact ih
    · cases h2
      exact ih
  | .fld i l, t', a, h => by simp only [Node.inline] at h; cases h; exact .nil
  | .fldInc i l, t', a, h => by simp only [Node.inline] at h; cases h; exact .nil
  | .fldW i l e, t', a, h => by
    simp only [Node.inline] at h
    obtain ⟨e', h1, h2⟩ := except_bind_ok h
    cases h2
    exact Node.blks_inline e e' _ h1
theorem Nodes.blks_inline : ∀ (es es' : Nodes), es.inline new = .ok es' → Match (MovedA 1 new) es.blks es'.blks
  | .nil, es', h => by simp only [Nodes.inline] at h; cases h; exact .nil
  | .cons e es, es', h => by
    simp only [Nodes.inline] at h
    obtain ⟨e', h1, h2⟩ := except_bind_ok h
    obtain ⟨es1, h3, h4⟩ := except_bind_ok h2
    cases h4
    exact (Node.blks_inline e e' _ h1).append (Nodes.blks_inline es es1 h3)
end
end

theorem AMeth.makes_adapt {k : Nat} {new : List Nat} {m m' : AMeth} (h : m.adapt k new = .ok m') : Match (MovedA (k + 1) new) m.makes m'.makes := by
  cases m with
  | ast id args locals body =>
    simp only [AMeth.adapt] at h
    obtain ⟨b, h1, h2⟩ := except_bind_ok h
    cases h2
    exact Node.blks_adapt _ _ h1
  | triv id t => simp only [AMeth.adapt] at h; cases h

/-- The blocks of the tree that takes the place of an inlined block. -/
theorem AMeth.makes_inline {known : Sel → Bool} {lvl : Nat} {env env' : List Nat} {m : AMeth} {t : Node} (h : m.inline known lvl env = .ok (t, env')) :
    Match (MovedA 1 env') m.makes t.blks := by
  cases m with
  | ast id args locals body =>
    simp only [AMeth.inline] at h
    obtain ⟨e, h1, h2⟩ := except_bind_ok h
    obtain ⟨b, h3, h4⟩ := except_bind_ok h2
    cases h4
    exact Node.blks_inline _ _ _ h3
  | triv id t' =>
    cases t' <;> simp only [AMeth.inline] at h <;> cases h <;> try exact .nil
    rename_i g _
    have := globNode_leaf (known := known) lvl g
    generalize globNode known lvl g = x at this ⊢
    cases x <;> first | exact .nil | cases this

theorem Meth.makes_code {lvl id : Nat} {lits : List (Lit Meth)} {bytes : List Nat} {loops : List (Nat × Nat)} {args locals : List Nat} {stack : Nat} {code : SC Meth}
    (h : Sound lvl (.bc id lits bytes loops args locals stack code)) : (Meth.bc id lits bytes loops args locals stack code).makes = code.blks := by
  cases h with
  | bc _ _ _ _ _ _ _ _ _ enc => exact Code.makes_enc (C := ⟨lits, bytes, stack⟩) enc

/-- The blocks of code whose instructions are replaced. -/
theorem blks_subst {R : Bool × Meth → Bool × Meth → Prop} {tr : Ins Meth → SC Meth} : ∀ (c : SC Meth), (∀ i ∈ c.instrs, Match R i.blk?.toList (tr i).blks) →
    Match R c.blks (c.subst tr).blks
  | .nop, h => .nil
  | .ins i, h => by
    rw [SC.blks_ins]
    exact h i (List.mem_singleton.mpr rfl)
  | .seq a b, h => by
    simp only [SC.subst, SC.blks_seq]
    exact (blks_subst a fun i hi => h i (List.mem_append_left _ hi)).append (blks_subst b fun i hi => h i (List.mem_append_right _ hi))
  | .thenB k b, h => blks_subst b h
  | .ifElse k a b, h => by
    simp only [SC.subst, SC.blks_ifElse]
    exact (blks_subst a fun i hi => h i (List.mem_append_left _ hi)).append (blks_subst b fun i hi => h i (List.mem_append_right _ hi))
  | .loop k a b, h => by
    simp only [SC.subst, SC.blks_loop]
    exact (blks_subst a fun i hi => h i (List.mem_append_left _ hi)).append (blks_subst b fun i hi => h i (List.mem_append_right _ hi))

theorem Meth.makes_adapt {n k lvl : Nat} {outer : List (List Nat)} {new : List Nat} {m m' : Meth} (hk : 1 ≤ k) (hs : Sound (lvl + k) m) (h : adapt n k outer new m = .ok m') :
    Match (MovedB (k + 1) (m.locals :: outer) new) m.makes m'.makes := by
  have hs' := (adapt_sound n k lvl outer new m m' hk hs h).1
  cases n with
  | zero => simp only [adapt] at h; cases h
  | succ n =>
    cases m with
    | triv id t => simp only [adapt] at h; cases h
    | bc id lits bytes loops args locals stack code =>
      simp only [adapt] at h
      obtain ⟨⟨bs', l'⟩, hloop, h⟩ := except_bind_ok h
      cases h
      rw [Meth.makes_code hs, Meth.makes_code hs']
      cases hs with
      | bc _ _ _ _ _ _ _ _ _ enc ty std size small ends ins ids inner closed =>
        obtain ⟨_, hsub⟩ := adaptLoop_ok enc ids hloop
        refine blks_subst code fun i hi => ?_
        rw [SC.blks_ins]
        cases i with
        | pushBlock c m =>
          cases c
          · exact .one ⟨rfl, rfl⟩
          · obtain ⟨m', hm'⟩ := hsub m hi
            refine .one ⟨rfl, ?_⟩
            simp only [if_true]
            exact ⟨n, by rw [hm']; exact hm'⟩
        | pushVar a i l =>
          cases a <;> simp only [adaptIns]
          · split <;> exact .nil
          · exact .nil
        | popVar a i l =>
          cases a <;> simp only [adaptIns]
          · split <;> exact .nil
          · exact .nil
        | _ => exact .nil

theorem globIns_blk (g : Sel) : (globIns g : Ins Meth).blk? = none := by
  unfold globIns
  repeat' split
  all_goals rfl

theorem mem_subst_of {tr : Ins Meth → SC Meth} {i j : Ins Meth} : ∀ (c : SC Meth), i ∈ c.instrs → j ∈ (tr i).instrs → j ∈ (c.subst tr).instrs
  | .nop, h, _ => by cases h
  | .ins k, h, hj => List.mem_singleton.mp h ▸ hj
  | .seq a b, h, hj => (List.mem_append.mp h).elim (fun h => List.mem_append_left _ (mem_subst_of a h hj)) fun h => List.mem_append_right _ (mem_subst_of b h hj)
  | .thenB _ b, h, hj => mem_subst_of b h hj
  | .ifElse _ a b, h, hj => (List.mem_append.mp h).elim (fun h => List.mem_append_left _ (mem_subst_of a h hj)) fun h => List.mem_append_right _ (mem_subst_of b h hj)
  | .loop _ a b, h, hj => (List.mem_append.mp h).elim (fun h => List.mem_append_left _ (mem_subst_of a h hj)) fun h => List.mem_append_right _ (mem_subst_of b h hj)

/-- The blocks of the code that inlining adds. -/
theorem inlCode_blks {n lvl : Nat} {m : Meth} {env : List Nat} (hs : Sound lvl m) (hp : impossible ∉ (inlCode n m lvl env).instrs) :
    Match (MovedB 1 [m.locals] (env ++ m.locals)) m.makes (inlCode n m lvl env).blks := by
  cases m with
  | triv id t =>
    cases t with
    | lit l => cases l <;> exact .nil
    | glob g b => show Match _ [] (SC.ins (globIns g)).blks; rw [SC.blks_ins, globIns_blk]; exact .nil
    | fldRead i l => exact .nil
    | fldWrite i j => exact .nil
  | bc id lits bytes loops args locals stack code =>
    rw [Meth.makes_code hs]
    simp only [inlCode] at hp ⊢
    split at hp
    · rename_i h1
      rw [if_pos h1]
      refine blks_subst code fun i hi => ?_
      have hq : impossible ∉ (inlIns (adapt n 1 [locals] (env ++ locals)) lvl (env ++ locals) locals i).instrs := fun h => hp (mem_subst_of code hi h)
      cases i with
      | pushBlock c m =>
        cases c
        · exact .one ⟨rfl, rfl⟩
        · simp only [inlIns] at hq ⊢
          cases hm : adapt n 1 [locals] (env ++ locals) m with
          | error e =>
            rw [hm] at hq
            exact absurd (List.mem_singleton.mpr rfl) hq
          | ok m' => exact .one ⟨rfl, n, hm⟩
      | pushGlobal g => simp only [inlIns]; rw [SC.blks_ins, globIns_blk]; exact .nil
      | pushVar a i l =>
        cases a
        · cases l <;> exact .nil
        · exact .nil
      | popVar a i l =>
        cases a
        · cases l <;> exact .nil
        · exact .nil
      | retNonLocal l => simp only [inlIns]; split <;> exact .nil
      | _ => exact .nil
    · exact absurd (List.mem_singleton.mpr rfl) hp
end PySOM.BC

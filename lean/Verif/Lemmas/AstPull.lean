import Verif.Spec.Ast
import Verif.Lemmas.Source
import Verif.Lemmas.Access
/-!
# Inlined blocks

The tree and the code of a block that is inlined do what the block itself does in another world: one in which accesses are translated and a return from the method is an
exception of its own kind.
-/
set_option autoImplicit false
namespace PySOM.BC
open PySOM

section
variable {M W E : Type}

namespace Src
/-- The method's answer as an exception. -/
def Res.lift : Res E → Res (E ⊕ Val)
  | .val v => .val v
  | .ret v => .exc (.inr v)
  | .exc e => .exc (.inl e)

def lift (R : Rel W E) : Rel W (E ⊕ Val) := fun w r w' => ∃ r0, r = r0.lift ∧ R w r0 w'

def unlift (R : Rel W (E ⊕ Val)) : Rel W E := fun w r w' => R w r.lift w'

theorem Res.lift_inj {a b : Res E} (h : a.lift = b.lift) : a = b := by
  cases a <;> cases b <;> simp_all [Res.lift]

theorem Res.lift_stops {r : Res E} : r.lift.stops ↔ r.stops := by cases r <;> exact Iff.rfl

theorem Res.lift_val {r : Res E} {v : Val} (h : Res.val v = r.lift) : r = .val v := by
  cases r <;> simp_all [Res.lift]

theorem rel_ext {R S : Rel W E} (h : ∀ w r w', R w r w' ↔ S w r w') : R = S := by
  funext w r w'; exact propext (h w r w')

theorem lift_pure (v : Val) : lift (pure v : Rel W E) = pure v := by
  refine rel_ext fun w r w' => ⟨?_, ?_⟩
  · rintro ⟨r0, rfl, rfl, rfl⟩; exact ⟨rfl, rfl⟩
  · rintro ⟨rfl, rfl⟩; exact ⟨.val v, rfl, rfl, rfl⟩

theorem lift_raises (err : Err → E) (e : Err) : lift (Cond.raises err e : Rel W E) = Cond.raises (Sum.inl ∘ err) e := by
  refine rel_ext fun w r w' => ⟨?_, ?_⟩
  · rintro ⟨r0, rfl, rfl, rfl⟩; exact ⟨rfl, rfl⟩
  · rintro ⟨rfl, rfl⟩; exact ⟨.exc (err e), rfl, rfl, rfl⟩

theorem lift_bind (p : Rel W E) (k : Val → Rel W E) : lift (bind p k) = bind (lift p) fun v => lift (k v) := by
  refine rel_ext fun w r w' => ⟨?_, ?_⟩
  · rintro ⟨r0, rfl, ⟨v, w1, h1, h2⟩ | ⟨h1, h2⟩⟩
    · exact .inl ⟨v, w1, ⟨.val v, rfl, h1⟩, r0, rfl, h2⟩
    · exact .inr ⟨⟨r0, rfl, h1⟩, Res.lift_stops.mpr h2⟩
  · rintro (⟨v, w1, ⟨r1, e, h1⟩, r0, rfl, h2⟩ | ⟨⟨r0, rfl, h1⟩, h2⟩)
    · cases Res.lift_val e
      exact ⟨r0, rfl, .inl ⟨v, w1, h1, h2⟩⟩
    · exact ⟨r0, rfl, .inr ⟨h1, Res.lift_stops.mp h2⟩⟩

theorem lift_ite {c : Prop} [Decidable c] (R S : Rel W E) : lift (if c then R else S) = if c then lift R else lift S := by
  split <;> rfl

theorem lift_while (stop : Val → Bool) (c b : Rel W E) : lift (While stop c b) = While stop (lift c) (lift b) := by
  refine rel_ext fun w r w' => ⟨?_, ?_⟩
  · rintro ⟨r0, rfl, h⟩
    induction h with
    | exit w w1 v hc hs => exact .exit _ _ v ⟨.val v, rfl, hc⟩ hs
    | condStop w w1 r hc hr => exact .condStop _ _ _ ⟨r, rfl, hc⟩ (Res.lift_stops.mpr hr)
    | bodyStop w w1 w2 v r hc hs hb hr => exact .bodyStop _ _ _ v _ ⟨.val v, rfl, hc⟩ hs ⟨r, rfl, hb⟩ (Res.lift_stops.mpr hr)
    | next w w1 w2 w3 v u r hc hs hb _ ih => exact .next _ _ _ _ v u _ ⟨.val v, rfl, hc⟩ hs ⟨.val u, rfl, hb⟩ ih
  · intro h
    induction h with
    | exit w w1 v hc hs =>
      obtain ⟨r, e, hc⟩ := hc
      cases Res.lift_val e
      exact ⟨.val .nil, rfl, .exit _ _ v hc hs⟩
    | condStop w w1 r hc hr =>
      obtain ⟨r, rfl, hc⟩ := hc
      exact ⟨r, rfl, .condStop _ _ _ hc (Res.lift_stops.mp hr)⟩
    | bodyStop w w1 w2 v r hc hs hb hr =>
      obtain ⟨r1, e, hc⟩ := hc
      cases Res.lift_val e
      obtain ⟨r, rfl, hb⟩ := hb
      exact ⟨r, rfl, .bodyStop _ _ _ v _ hc hs hb (Res.lift_stops.mp hr)⟩
    | next w w1 w2 w3 v u r hc hs hb _ ih =>
      obtain ⟨r1, e, hc⟩ := hc
      cases Res.lift_val e
      obtain ⟨r1, e, hb⟩ := hb
      cases Res.lift_val e
      obtain ⟨r, rfl, ih⟩ := ih
      exact ⟨r, rfl, .next _ _ _ _ v u _ hc hs hb ih⟩

theorem unlift_lift (R : Rel W E) : unlift (lift R) = R := by
  refine rel_ext fun w r w' => ⟨?_, fun h => ⟨r, rfl, h⟩⟩
  rintro ⟨r0, e, h⟩
  exact Res.lift_inj e ▸ h
end Src

/-! ## The world of an inlined block -/

/-- Where a variable of an inlined block is. -/
def movedTo (env locals : List Nat) (i : Nat) : Nat := ((getLocal [locals] i 0).bind (inlinedIdx env)).toOption.getD i

/-- What the actions of a block mean that is inlined into a context at level `lvl` with the variables `env`. -/
def Act.pull (A : World Nat W E) (lvl : Nat) (env locals : List Nat) : Act Nat → Src.Rel W E
  | .rdVar true i l => Src.act A (.rdVar true i (l - 1))
  | .wrVar true i l v => Src.act A (.wrVar true i (l - 1) v)
  | .rdVar false i 0 => Src.act A (.rdVar false (movedTo env locals i) 0)
  | .wrVar false i 0 v => Src.act A (.wrVar false (movedTo env locals i) 0 v)
  | .rdVar false i (l + 1) => Src.act A (.rdVar false i l)
  | .wrVar false i (l + 1) v => Src.act A (.wrVar false i l v)
  | .rdFld i l => Src.act A (.rdFld i (l - 1))
  | .wrFld i l v => Src.act A (.wrFld i (l - 1) v)
  | .incFld i l => Src.act A (.incFld i (l - 1))
  | .glob n => Src.glob A n
  | .nlr _ v => if lvl = 0 then Src.answer v else Src.bind (Src.act A (.nlr lvl v)) Src.answer
  | a => Src.act A a

def Res.src : Res E → Src.Res E
  | .val v => .val v
  | .exc e => .exc e

def World.pull (A : World Nat W E) (lvl : Nat) (env locals : List Nat) : World Nat W (E ⊕ Val) := fun a w r w' =>
  Src.lift (a.pull A lvl env locals) w r.src w'

/-- Globals that were not known. -/
def pullU (U : Sel → Nat → Src.Rel W E) : Sel → Nat → Src.Rel W (E ⊕ Val) := fun n l => Src.lift (U n (l - 1))

theorem act_pull (A : World Nat W E) (lvl : Nat) (env locals : List Nat) (a : Act Nat) :
    Src.act (A.pull lvl env locals) a = Src.lift (a.pull A lvl env locals) := by
  refine Src.rel_ext fun w r w' => ⟨?_, ?_⟩
  · rintro (⟨v, rfl, h⟩ | ⟨e, rfl, h⟩)
    · exact h
    · exact h
  · rintro ⟨r0, rfl, h⟩
    cases r0 with
    | val v => exact .inl ⟨v, rfl, .val v, rfl, h⟩
    | ret v => exact .inr ⟨_, rfl, .ret v, rfl, h⟩
    | exc e => exact .inr ⟨_, rfl, .exc e, rfl, h⟩

theorem act_onMeth (A : World Nat W E) (a : Act Meth) : Src.act (onMeth A) a = Src.act A (a.map Meth.id) := rfl

/-! ## Trees -/

mutual
/-- There is a return in the tree (not in the blocks that it creates). -/
def Node.throws : Node → Bool
  | .writeArg _ _ e => e.throws
  | .writeLoc _ _ _ e => e.throws
  | .fldW _ _ e => e.throws
  | .inc e => e.throws
  | .send _ r as => r.throws || as.throws
  | .superSend _ r as => r.throws || as.throws
  | .inl1 _ r a => r.throws || a.throws
  | .inl2 _ r a b => r.throws || (a.throws || b.throws)
  | .while _ c b => c.throws || b.throws
  | .seq es => es.throws
  | .retNL _ _ => true
  | .retL _ => true
  | _ => false
def Nodes.throws : Nodes → Bool
  | .nil => false
  | .cons e es => e.throws || es.throws
end

mutual
/-- Tree in contexts with the variables `chain`, from the inside out. -/
def Node.ok (chain : List (List Nat)) : Node → Prop
  | .lit _ => True
  | .globK n => ¬ special n
  | .globU n l => l + 1 = chain.length ∧ ¬ special n
  | .readArg _ _ => True
  | .readLoc i s l => ∃ ls, chain[l]? = some ls ∧ ls[i]? = some s
  | .self _ => True
  | .writeArg _ _ e => e.ok chain
  | .writeLoc i s l e => e.ok chain ∧ ∃ ls, chain[l]? = some ls ∧ ls[i]? = some s
  | .fld _ l => l + 1 = chain.length
  | .fldW _ _ e => e.ok chain
  | .fldInc _ _ => True
  | .inc e => e.ok chain
  | .blk _ _ => True
  | .send _ r as => r.ok chain ∧ as.ok chain
  | .superSend _ r as => r.ok chain ∧ as.ok chain
  | .inl1 _ r a => r.ok chain ∧ a.ok chain
  | .inl2 _ r a b => r.ok chain ∧ a.ok chain ∧ b.ok chain
  | .while _ c b => c.ok chain ∧ b.ok chain
  | .seq es => es.ok chain
  | .retNL l e => l + 1 = chain.length ∧ e.ok chain
  | .retL e => chain.length = 1 ∧ e.ok chain
def Nodes.ok (chain : List (List Nat)) : Nodes → Prop
  | .nil => True
  | .cons e es => e.ok chain ∧ es.ok chain
end

theorem AMeth.adapt_id {k : Nat} {env : List Nat} {m m' : AMeth} (h : m.adapt k env = .ok m') : m'.id = m.id := by
  cases m with
  | ast id args locals body =>
    simp only [AMeth.adapt] at h
    obtain ⟨b, _, h⟩ := except_bind_ok h
    cases h; rfl
  | triv id t => simp only [AMeth.adapt] at h; cases h

/-! ### Where a variable is found -/

theorem firstIdx_spec {xs : List Nat} {s i : Nat} (h : firstIdx xs s = .ok i) : xs[i]? = some s := by
  induction xs generalizing i with
  | nil => simp only [firstIdx] at h; cases h
  | cons x xs ih =>
    simp only [firstIdx] at h
    split at h
    · rename_i e; cases h; simp [e]
    · obtain ⟨j, hj, h⟩ := except_bind_ok h
      cases h
      simpa using ih hj

theorem nodup_idx {xs : List Nat} (hn : xs.Nodup) {i j s : Nat} (hi : xs[i]? = some s) (hj : xs[j]? = some s) : i = j := by
  rw [List.getElem?_eq_some_iff] at hi hj
  obtain ⟨h1, e1⟩ := hi
  obtain ⟨h2, e2⟩ := hj
  rcases Nat.lt_trichotomy i j with h | h | h
  · exact absurd (e1.trans e2.symm) (List.pairwise_iff_getElem.mp hn i j h1 h2 h)
  · exact h
  · exact absurd (e2.trans e1.symm) (List.pairwise_iff_getElem.mp hn j i h2 h1 h)

theorem firstIdx_moved {env locals : List Nat} {i s j : Nat} (hn : env.Nodup) (hl : locals[i]? = some s) (h : firstIdx env s = .ok j) : movedTo env locals i = j := by
  have h1 := firstIdx_spec h
  have hg : getLocal [locals] i 0 = .ok s := by simp only [getLocal, List.getElem?_cons_zero, hl]
  unfold movedTo
  rw [hg]
  show (inlinedIdx env s).toOption.getD i = j
  unfold inlinedIdx
  cases hL : lastIdx env s env.length with
  | none =>
    have hlt : j < env.length := by rw [List.getElem?_eq_some_iff] at h1; exact h1.1
    exact absurd h1 (lastIdx_none hL hlt)
  | some k => exact nodup_idx hn (lastIdx_some hL) h1

/-! ### The meaning of an inlined tree -/

theorem Inl1.exec_lift (err : Err → E) (k : Inl1) (r a : Src.Rel W E) : Src.lift (k.exec err r a) = k.exec (Sum.inl ∘ err) (Src.lift r) (Src.lift a) := by
  cases k <;>
    simp only [Inl1.exec, Cond.ifNode, Cond.ifNilNode, Cond.ifNotNilNode, Cond.andNode, Cond.orNode, Src.lift_bind, Src.lift_ite, Src.lift_pure, Src.lift_raises]

theorem Inl2.exec_lift (err : Err → E) (k : Inl2) (r a b : Src.Rel W E) :
    Src.lift (k.exec err r a b) = k.exec (Sum.inl ∘ err) (Src.lift r) (Src.lift a) (Src.lift b) := by
  rcases k with b' | (_ | _) <;>
    simp only [Inl2.exec, Cond.ifElseNode, Cond.ifNilNotNilNode, Src.lift_bind, Src.lift_ite, Src.lift_raises]

theorem whileNode_lift (err : Err → E) (x : Bool) (c b : Src.Rel W E) :
    Src.lift (whileNode err x c b) = whileNode (Sum.inl ∘ err) x (Src.lift c) (Src.lift b) := by
  simp only [whileNode, Src.lift_while, Src.lift_bind, Src.lift_ite, Src.lift_pure, Src.lift_raises]

theorem Nodes.execSeq_cons (A : World Nat W E) (U : Sel → Nat → Src.Rel W E) (err : Err → E) (e f : Node) (es : Nodes) :
    (Nodes.cons e (.cons f es)).execSeq A U err = Src.bind (e.exec A U err) fun _ => (Nodes.cons f es).execSeq A U err := by
  rw [Nodes.execSeq]
  intro h; cases h

/-- A block at level `lvl` never goes on after it has returned. -/
def NoVal (A : World Nat W E) (lvl : Nat) : Prop := lvl = 0 ∨ ∀ v w u w', ¬ A (.nlr lvl v) w (.val u) w'

theorem nlr_answer {A : World Nat W E} {lvl : Nat} (h : ∀ v w u w', ¬ A (.nlr lvl v) w (.val u) w') (v : Val) :
    Src.bind (Src.act A (.nlr lvl v)) Src.answer = Src.act A (.nlr lvl v) := by
  refine Src.rel_ext fun w r w' => ⟨?_, ?_⟩
  · rintro (⟨u, w1, h1, h2⟩ | ⟨h1, _⟩)
    · rcases h1 with ⟨x, e, h1⟩ | ⟨x, e, h1⟩
      · cases e; exact absurd h1 (h _ _ _ _)
      · cases e
    · exact h1
  · intro h1
    refine .inr ⟨h1, ?_⟩
    rcases h1 with ⟨x, rfl, h1⟩ | ⟨x, rfl, h1⟩
    · exact absurd h1 (h _ _ _ _)
    · trivial

section
variable {A : World Nat W E} {U : Sel → Nat → Src.Rel W E} {err : Err → E} {lvl : Nat} {env locals : List Nat} {outer : List (List Nat)}

mutual
theorem Node.exec_inline (hn : env.Nodup) (hl : outer.length = lvl) : ∀ (t : Node) (a : Bool) (t' : Node), t.ok (locals :: env :: outer) → t.inline env a = .ok t' →
    (t.throws = true → NoVal A lvl) → t.exec (A.pull lvl env locals) (pullU U) (Sum.inl ∘ err) = Src.lift (t'.exec A U err)
  | .lit v, a, t', _, h, _ => by
    simp only [Node.inline] at h; cases h
    simp only [Node.exec, Src.lift_pure]
  | .globK n, a, t', ho, h, _ => by
    simp only [Node.inline] at h; cases h
    simp only [Node.ok, special, symNil, symTrue, symFalse, not_or] at ho
    simp only [Node.exec, act_pull, Act.pull, Src.glob]
    rw [if_neg ho.1, if_neg ho.2.1, if_neg ho.2.2]
  | .globU n l, a, t', ho, h, _ => by
    simp only [Node.inline] at h; cases h
    simp only [Node.exec, pullU]
  | .readArg i l, a, t', _, h, _ => by
    simp only [Node.inline] at h
    split at h <;> cases h
    simp only [Node.exec, act_pull, Act.pull]
  | .readLoc i s l, a, t', ho, h, _ => by
    simp only [Node.inline] at h
    simp only [Node.ok] at ho
    split at h
    · rename_i e
      subst e
      obtain ⟨j, hj, h⟩ := except_bind_ok h
      cases h
      obtain ⟨ls, e, hs⟩ := ho
      cases e
      simp only [Node.exec, act_pull, Act.pull, firstIdx_moved hn hs hj]
    · cases h
      cases l with
      | zero => contradiction
      | succ l => simp only [Node.exec, act_pull, Act.pull, Nat.add_sub_cancel]
  | .self l, a, t', _, h, _ => by
    simp only [Node.inline] at h
    split at h
    · rename_i e
      subst e
      split at h <;> cases h
      simp only [Node.exec, act_pull, Act.pull]
    · cases h
      simp only [Node.exec, act_pull, Act.pull]
  | .writeArg i l e, a, t', ho, h, hv => by
    simp only [Node.inline] at h
    obtain ⟨e', he, h⟩ := except_bind_ok h
    split at h <;> cases h
    simp only [Node.ok] at ho
    simp only [Node.throws] at hv
    simp only [Node.exec, Node.exec_inline hn hl e false e' ho he hv, act_pull, Act.pull, Src.lift_bind, Src.lift_pure]
  | .writeLoc i s l e, a, t', ho, h, hv => by
    simp only [Node.inline] at h
    obtain ⟨e', he, h2⟩ := except_bind_ok h
    simp only [Node.ok] at ho
    simp only [Node.throws] at hv
    have ih := Node.exec_inline hn hl e false e' ho.1 he hv
    split at h2
    · rename_i e0
      subst e0
      obtain ⟨j, hj, h3⟩ := except_bind_ok h2
      cases h3
      obtain ⟨ls, e1, hs⟩ := ho.2
      cases e1
      simp only [Node.exec, ih, act_pull, Act.pull, firstIdx_moved hn hs hj, Src.lift_bind, Src.lift_pure]
    · cases h2
      cases l with
      | zero => contradiction
      | succ l => simp only [Node.exec, ih, act_pull, Act.pull, Nat.add_sub_cancel, Src.lift_bind, Src.lift_pure]
  | .fld i l, a, t', _, h, _ => by
    simp only [Node.inline] at h; cases h
    simp only [Node.exec, act_pull, Act.pull]
  | .fldW i l e, a, t', ho, h, hv => by
    simp only [Node.inline] at h
    obtain ⟨e', he, h⟩ := except_bind_ok h
    cases h
    simp only [Node.ok] at ho
    simp only [Node.throws] at hv
    simp only [Node.exec, Node.exec_inline hn hl e true e' ho he hv, act_pull, Act.pull, Src.lift_bind, Src.lift_pure]
  | .fldInc i l, a, t', _, h, _ => by
    simp only [Node.inline] at h; cases h
    simp only [Node.exec, act_pull, Act.pull]
  | .inc e, a, t', ho, h, hv => by
    simp only [Node.inline] at h
    obtain ⟨e', he, h⟩ := except_bind_ok h
    cases h
    simp only [Node.ok] at ho
    simp only [Node.throws] at hv
    simp only [Node.exec, Node.exec_inline hn hl e true e' ho he hv, act_pull, Act.pull, Src.lift_bind]
  | .blk true m, a, t', _, h, _ => by
    simp only [Node.inline] at h
    obtain ⟨m', hm, h⟩ := except_bind_ok h
    cases h
    simp only [Node.exec, act_pull, Act.pull, AMeth.adapt_id hm]
  | .blk false m, a, t', _, h, _ => by
    simp only [Node.inline] at h; cases h
    simp only [Node.exec, act_pull, Act.pull]
  | .send sel r as, a, t', ho, h, hv => by
    simp only [Node.inline] at h
    obtain ⟨r', hr, h⟩ := except_bind_ok h
    obtain ⟨as', has, h⟩ := except_bind_ok h
    cases h
    simp only [Node.ok] at ho
    simp only [Node.throws, Bool.or_eq_true] at hv
    simp only [Node.exec, Node.exec_inline hn hl r true r' ho.1 hr (fun h => hv (.inl h)), Src.lift_bind]
    congr 1
    funext v
    rw [← Nodes.exec_inline hn hl as as' ho.2 has (fun h => hv (.inr h)) (k := fun vs => Src.act A (.send sel (v :: vs)))]
    simp only [act_pull, Act.pull]
  | .superSend sel r as, a, t', ho, h, hv => by
    simp only [Node.inline] at h
    obtain ⟨r', hr, h⟩ := except_bind_ok h
    obtain ⟨as', has, h⟩ := except_bind_ok h
    cases h
    simp only [Node.ok] at ho
    simp only [Node.throws, Bool.or_eq_true] at hv
    simp only [Node.exec, Node.exec_inline hn hl r true r' ho.1 hr (fun h => hv (.inl h)), Src.lift_bind]
    congr 1
    funext v
    rw [← Nodes.exec_inline hn hl as as' ho.2 has (fun h => hv (.inr h)) (k := fun vs => Src.act A (.superSend sel (v :: vs)))]
    simp only [act_pull, Act.pull]
  | .inl1 k r b, a, t', ho, h, hv => by
    simp only [Node.inline] at h
    obtain ⟨r', hr, h⟩ := except_bind_ok h
    obtain ⟨b', hb, h⟩ := except_bind_ok h
    cases h
    simp only [Node.ok] at ho
    simp only [Node.throws, Bool.or_eq_true] at hv
    simp only [Node.exec, Node.exec_inline hn hl r true r' ho.1 hr (fun h => hv (.inl h)), Node.exec_inline hn hl b true b' ho.2 hb (fun h => hv (.inr h)), Inl1.exec_lift]
  | .inl2 k r b c, a, t', ho, h, hv => by
    simp only [Node.inline] at h
    obtain ⟨r', hr, h⟩ := except_bind_ok h
    obtain ⟨b', hb, h⟩ := except_bind_ok h
    obtain ⟨c', hc, h⟩ := except_bind_ok h
    cases h
    simp only [Node.ok] at ho
    simp only [Node.throws, Bool.or_eq_true] at hv
    simp only [Node.exec, Node.exec_inline hn hl r true r' ho.1 hr (fun h => hv (.inl h)), Node.exec_inline hn hl b true b' ho.2.1 hb (fun h => hv (.inr (.inl h))),
      Node.exec_inline hn hl c true c' ho.2.2 hc (fun h => hv (.inr (.inr h))), Inl2.exec_lift]
  | .while k r b, a, t', ho, h, hv => by
    simp only [Node.inline] at h
    obtain ⟨r', hr, h⟩ := except_bind_ok h
    obtain ⟨b', hb, h⟩ := except_bind_ok h
    cases h
    simp only [Node.ok] at ho
    simp only [Node.throws, Bool.or_eq_true] at hv
    simp only [Node.exec, Node.exec_inline hn hl r true r' ho.1 hr (fun h => hv (.inl h)), Node.exec_inline hn hl b true b' ho.2 hb (fun h => hv (.inr h)), whileNode_lift]
  | .seq es, a, t', ho, h, hv => by
    simp only [Node.inline] at h
    obtain ⟨es', hes, h⟩ := except_bind_ok h
    cases h
    simp only [Node.ok] at ho
    simp only [Node.throws] at hv
    simp only [Node.exec]
    exact Nodes.execSeq_inline hn hl es es' ho hes hv
  | .retNL l e, a, t', ho, h, hv => by
    simp only [Node.inline] at h
    obtain ⟨e', he, h2⟩ := except_bind_ok h
    simp only [Node.ok, List.length_cons] at ho
    have hv2 := hv rfl
    have ih := Node.exec_inline hn hl e true e' ho.2 he (fun _ => hv2)
    have hl1 : l = lvl + 1 := by omega
    subst hl1
    rw [if_neg (by omega)] at h2
    split at h2
    · rename_i e0
      have e1 : lvl = 0 := by omega
      subst e1
      split at h2 <;> cases h2
      simp only [Node.exec, ih, act_pull, Act.pull, if_true, Src.lift_bind]
    · rename_i e0
      cases h2
      have e1 : lvl ≠ 0 := by omega
      simp only [Node.exec, ih, act_pull, Act.pull, if_neg e1, Src.lift_bind, Nat.add_sub_cancel]
      simp only [← Src.lift_bind, nlr_answer (Or.resolve_left hv2 e1)]
  | .retL e, a, t', ho, h, hv => by
    simp only [Node.ok, List.length_cons] at ho
    omega
theorem Nodes.exec_inline (hn : env.Nodup) (hl : outer.length = lvl) : ∀ (es : Nodes) (es' : Nodes), es.ok (locals :: env :: outer) → es.inline env = .ok es' →
    (es.throws = true → NoVal A lvl) → ∀ (k : List Val → Src.Rel W E),
    es.exec (A.pull lvl env locals) (pullU U) (Sum.inl ∘ err) (fun vs => Src.lift (k vs)) = Src.lift (es'.exec A U err k)
  | .nil, es', _, h, _, k => by
    simp only [Nodes.inline] at h; cases h
    simp only [Nodes.exec]
  | .cons e es, es', ho, h, hv, k => by
    simp only [Nodes.inline] at h
    obtain ⟨e', he, h⟩ := except_bind_ok h
    obtain ⟨es1, hes, h⟩ := except_bind_ok h
    cases h
    simp only [Nodes.ok] at ho
    simp only [Nodes.throws, Bool.or_eq_true] at hv
    simp only [Nodes.exec, Node.exec_inline hn hl e true e' ho.1 he (fun h => hv (.inl h)), Src.lift_bind]
    congr 1
    funext v
    exact Nodes.exec_inline hn hl es es1 ho.2 hes (fun h => hv (.inr h)) (k := fun vs => k (v :: vs))
theorem Nodes.execSeq_inline (hn : env.Nodup) (hl : outer.length = lvl) : ∀ (es : Nodes) (es' : Nodes), es.ok (locals :: env :: outer) → es.inline env = .ok es' →
    (es.throws = true → NoVal A lvl) → es.execSeq (A.pull lvl env locals) (pullU U) (Sum.inl ∘ err) = Src.lift (es'.execSeq A U err)
  | .nil, es', _, h, _ => by
    simp only [Nodes.inline] at h; cases h
    simp only [Nodes.execSeq, Src.lift_pure]
  | .cons e .nil, es', ho, h, hv => by
    simp only [Nodes.inline] at h
    obtain ⟨e', he, h⟩ := except_bind_ok h
    obtain ⟨es1, hes, h⟩ := except_bind_ok h
    cases hes
    cases h
    simp only [Nodes.ok] at ho
    simp only [Nodes.throws, Bool.or_eq_true] at hv
    simp only [Nodes.execSeq, Node.exec_inline hn hl e true e' ho.1 he (fun h => hv (.inl h))]
  | .cons e (.cons f es), es', ho, h, hv => by
    rw [Nodes.inline] at h
    obtain ⟨e', he, h⟩ := except_bind_ok h
    obtain ⟨es1, hes, h⟩ := except_bind_ok h
    cases h
    rw [Nodes.ok] at ho
    rw [Nodes.throws, Bool.or_eq_true] at hv
    have ih := Nodes.execSeq_inline hn hl (.cons f es) es1 ho.2 hes (fun h => hv (.inr h))
    have hc := hes
    simp only [Nodes.inline] at hc
    obtain ⟨f', _, hc⟩ := except_bind_ok hc
    obtain ⟨es2, _, hc⟩ := except_bind_ok hc
    cases hc
    rw [Nodes.execSeq_cons, Nodes.execSeq_cons, ih, Node.exec_inline hn hl e true e' ho.1 he (fun h => hv (.inl h)), Src.lift_bind]
end
end

mutual
theorem Node.ok_inline {env locals : List Nat} {outer : List (List Nat)} : ∀ (t : Node) (a : Bool) (t' : Node), t.ok (locals :: env :: outer) → t.inline env a = .ok t' →
    t'.ok (env :: outer) ∧ t'.throws = t.throws
  | .lit v, a, t', _, h => by
    simp only [Node.inline] at h; cases h
    exact ⟨trivial, rfl⟩
  | .globK n, a, t', ho, h => by
    simp only [Node.inline] at h; cases h
    exact ⟨ho, rfl⟩
  | .globU n l, a, t', ho, h => by
    simp only [Node.inline] at h; cases h
    simp only [Node.ok, List.length_cons] at ho ⊢
    exact ⟨⟨by omega, ho.2⟩, rfl⟩
  | .readArg i l, a, t', _, h => by
    simp only [Node.inline] at h
    split at h <;> cases h
    exact ⟨trivial, rfl⟩
  | .readLoc i s l, a, t', ho, h => by
    simp only [Node.inline] at h
    simp only [Node.ok] at ho
    split at h
    · obtain ⟨j, hj, h⟩ := except_bind_ok h
      cases h
      exact ⟨⟨env, rfl, firstIdx_spec hj⟩, rfl⟩
    · cases h
      cases l with
      | zero => contradiction
      | succ l => exact ⟨ho, rfl⟩
  | .self l, a, t', _, h => by
    simp only [Node.inline] at h
    split at h
    · split at h <;> cases h
      exact ⟨trivial, rfl⟩
    · cases h
      exact ⟨trivial, rfl⟩
  | .writeArg i l e, a, t', ho, h => by
    simp only [Node.inline] at h
    obtain ⟨e', he, h⟩ := except_bind_ok h
    split at h <;> cases h
    simp only [Node.ok, Node.throws] at ho ⊢
    exact Node.ok_inline e false e' ho he
  | .writeLoc i s l e, a, t', ho, h => by
    simp only [Node.inline] at h
    obtain ⟨e', he, h2⟩ := except_bind_ok h
    simp only [Node.ok] at ho
    have ih := Node.ok_inline e false e' ho.1 he
    split at h2
    · obtain ⟨j, hj, h3⟩ := except_bind_ok h2
      cases h3
      exact ⟨⟨ih.1, env, rfl, firstIdx_spec hj⟩, ih.2⟩
    · cases h2
      cases l with
      | zero => contradiction
      | succ l => exact ⟨⟨ih.1, ho.2⟩, ih.2⟩
  | .fld i l, a, t', ho, h => by
    simp only [Node.inline] at h; cases h
    simp only [Node.ok, List.length_cons] at ho ⊢
    exact ⟨by omega, rfl⟩
  | .fldW i l e, a, t', ho, h => by
    simp only [Node.inline] at h
    obtain ⟨e', he, h⟩ := except_bind_ok h
    cases h
    simp only [Node.ok, Node.throws] at ho ⊢
    exact Node.ok_inline e true e' ho he
  | .fldInc i l, a, t', _, h => by
    simp only [Node.inline] at h; cases h
    exact ⟨trivial, rfl⟩
  | .inc e, a, t', ho, h => by
    simp only [Node.inline] at h
    obtain ⟨e', he, h⟩ := except_bind_ok h
    cases h
    simp only [Node.ok, Node.throws] at ho ⊢
    exact Node.ok_inline e true e' ho he
  | .blk true m, a, t', _, h => by
    simp only [Node.inline] at h
    obtain ⟨m', hm, h⟩ := except_bind_ok h
    cases h
    exact ⟨trivial, rfl⟩
  | .blk false m, a, t', _, h => by
    simp only [Node.inline] at h; cases h
    exact ⟨trivial, rfl⟩
  | .send sel r as, a, t', ho, h => by
    simp only [Node.inline] at h
    obtain ⟨r', hr, h⟩ := except_bind_ok h
    obtain ⟨as', has, h⟩ := except_bind_ok h
    cases h
    simp only [Node.ok, Node.throws] at ho ⊢
    have h1 := Node.ok_inline r true r' ho.1 hr
    have h2 := Nodes.ok_inline as as' ho.2 has
    exact ⟨⟨h1.1, h2.1⟩, by rw [h1.2, h2.2]⟩
  | .superSend sel r as, a, t', ho, h => by
    simp only [Node.inline] at h
    obtain ⟨r', hr, h⟩ := except_bind_ok h
    obtain ⟨as', has, h⟩ := except_bind_ok h
    cases h
    simp only [Node.ok, Node.throws] at ho ⊢
    have h1 := Node.ok_inline r true r' ho.1 hr
    have h2 := Nodes.ok_inline as as' ho.2 has
    exact ⟨⟨h1.1, h2.1⟩, by rw [h1.2, h2.2]⟩
  | .inl1 k r b, a, t', ho, h => by
    simp only [Node.inline] at h
    obtain ⟨r', hr, h⟩ := except_bind_ok h
    obtain ⟨b', hb, h⟩ := except_bind_ok h
    cases h
    simp only [Node.ok, Node.throws] at ho ⊢
    have h1 := Node.ok_inline r true r' ho.1 hr
    have h2 := Node.ok_inline b true b' ho.2 hb
    exact ⟨⟨h1.1, h2.1⟩, by rw [h1.2, h2.2]⟩
  | .inl2 k r b c, a, t', ho, h => by
    simp only [Node.inline] at h
    obtain ⟨r', hr, h⟩ := except_bind_ok h
    obtain ⟨b', hb, h⟩ := except_bind_ok h
    obtain ⟨c', hc, h⟩ := except_bind_ok h
    cases h
    simp only [Node.ok, Node.throws] at ho ⊢
    have h1 := Node.ok_inline r true r' ho.1 hr
    have h2 := Node.ok_inline b true b' ho.2.1 hb
    have h3 := Node.ok_inline c true c' ho.2.2 hc
    exact ⟨⟨h1.1, h2.1, h3.1⟩, by rw [h1.2, h2.2, h3.2]⟩
  | .while k r b, a, t', ho, h => by
    simp only [Node.inline] at h
    obtain ⟨r', hr, h⟩ := except_bind_ok h
    obtain ⟨b', hb, h⟩ := except_bind_ok h
    cases h
    simp only [Node.ok, Node.throws] at ho ⊢
    have h1 := Node.ok_inline r true r' ho.1 hr
    have h2 := Node.ok_inline b true b' ho.2 hb
    exact ⟨⟨h1.1, h2.1⟩, by rw [h1.2, h2.2]⟩
  | .seq es, a, t', ho, h => by
    simp only [Node.inline] at h
    obtain ⟨es', hes, h⟩ := except_bind_ok h
    cases h
    simp only [Node.ok, Node.throws] at ho ⊢
    exact Nodes.ok_inline es es' ho hes
  | .retNL l e, a, t', ho, h => by
    simp only [Node.inline] at h
    obtain ⟨e', he, h2⟩ := except_bind_ok h
    simp only [Node.ok, List.length_cons] at ho
    have ih := Node.ok_inline e true e' ho.2 he
    rw [if_neg (by omega)] at h2
    split at h2
    · split at h2 <;> cases h2
      refine ⟨⟨?_, ih.1⟩, rfl⟩
      simp only [List.length_cons]; omega
    · cases h2
      refine ⟨⟨?_, ih.1⟩, rfl⟩
      simp only [List.length_cons]; omega
  | .retL e, a, t', ho, h => by
    simp only [Node.ok, List.length_cons] at ho
    omega
theorem Nodes.ok_inline {env locals : List Nat} {outer : List (List Nat)} : ∀ (es : Nodes) (es' : Nodes), es.ok (locals :: env :: outer) → es.inline env = .ok es' →
    es'.ok (env :: outer) ∧ es'.throws = es.throws
  | .nil, es', _, h => by
    simp only [Nodes.inline] at h; cases h
    exact ⟨trivial, rfl⟩
  | .cons e es, es', ho, h => by
    simp only [Nodes.inline] at h
    obtain ⟨e', he, h⟩ := except_bind_ok h
    obtain ⟨es1, hes, h⟩ := except_bind_ok h
    cases h
    simp only [Nodes.ok, Nodes.throws] at ho ⊢
    have h1 := Node.ok_inline e true e' ho.1 he
    have h2 := Nodes.ok_inline es es1 ho.2 hes
    exact ⟨⟨h1.1, h2.1⟩, by rw [h1.2, h2.2]⟩
end

/-- The contexts have at least these variables. -/
def Within (ch ch2 : List (List Nat)) : Prop := ch.length = ch2.length ∧ ∀ (l : Nat) (ls : List Nat), ch[l]? = some ls → ∃ ls2, ch2[l]? = some ls2 ∧ ls <+: ls2

theorem Within.refl (ch : List (List Nat)) : Within ch ch := ⟨rfl, fun _ ls h => ⟨ls, h, List.prefix_refl _⟩⟩

theorem Within.cons {env env2 : List Nat} {ch ch2 : List (List Nat)} (h : env <+: env2) (hc : Within ch ch2) : Within (env :: ch) (env2 :: ch2) := by
  refine ⟨by simp only [List.length_cons, hc.1], fun l ls hl => ?_⟩
  cases l with
  | zero => cases hl; exact ⟨env2, rfl, h⟩
  | succ l => exact hc.2 l ls hl

theorem chain_mono {ch ch2 : List (List Nat)} (hp : Within ch ch2) {i s l : Nat} (h : ∃ ls, ch[l]? = some ls ∧ ls[i]? = some s) : ∃ ls, ch2[l]? = some ls ∧ ls[i]? = some s := by
  obtain ⟨ls, e, h⟩ := h
  obtain ⟨ls2, e2, t, rfl⟩ := hp.2 l ls e
  refine ⟨_, e2, ?_⟩
  rw [List.getElem?_append_left (by rw [List.getElem?_eq_some_iff] at h; exact h.1)]
  exact h

mutual
theorem Node.ok_mono {ch ch2 : List (List Nat)} (hp : Within ch ch2) : ∀ (t : Node), t.ok ch → t.ok ch2
  | .lit _, h => h
  | .globK _, h => h
  | .globU _ _, h => ⟨hp.1 ▸ h.1, h.2⟩
  | .readArg _ _, h => h
  | .readLoc _ _ _, h => chain_mono hp h
  | .self _, h => h
  | .writeArg _ _ e, h => Node.ok_mono hp e h
  | .writeLoc _ _ _ e, h => ⟨Node.ok_mono hp e h.1, chain_mono hp h.2⟩
  | .fld _ l, h => by
    simp only [Node.ok] at h ⊢
    rw [h, hp.1]
  | .fldW _ _ e, h => Node.ok_mono hp e h
  | .fldInc _ _, h => h
  | .inc e, h => Node.ok_mono hp e h
  | .blk _ _, h => h
  | .send _ r as, h => ⟨Node.ok_mono hp r h.1, Nodes.ok_mono hp as h.2⟩
  | .superSend _ r as, h => ⟨Node.ok_mono hp r h.1, Nodes.ok_mono hp as h.2⟩
  | .inl1 _ r a, h => ⟨Node.ok_mono hp r h.1, Node.ok_mono hp a h.2⟩
  | .inl2 _ r a b, h => ⟨Node.ok_mono hp r h.1, Node.ok_mono hp a h.2.1, Node.ok_mono hp b h.2.2⟩
  | .while _ r a, h => ⟨Node.ok_mono hp r h.1, Node.ok_mono hp a h.2⟩
  | .seq es, h => Nodes.ok_mono hp es h
  | .retNL _ e, h => ⟨hp.1 ▸ h.1, Node.ok_mono hp e h.2⟩
  | .retL e, h => ⟨hp.1 ▸ h.1, Node.ok_mono hp e h.2⟩
theorem Nodes.ok_mono {ch ch2 : List (List Nat)} (hp : Within ch ch2) : ∀ (es : Nodes), es.ok ch → es.ok ch2
  | .nil, h => h
  | .cons e es, h => ⟨Node.ok_mono hp e h.1, Nodes.ok_mono hp es h.2⟩
end
end
end PySOM.BC

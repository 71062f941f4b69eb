import Verif.Lemmas.AstPull
import Verif.Lemmas.Program
/-!
# The code of inlined blocks

The code that inlining a block adds does in a world what the code of the block does in the world of the block.
-/
set_option autoImplicit false
namespace PySOM.BC
open PySOM

section
variable {M W E : Type}

/-- The instruction does not end the method. -/
def Ins.inner : Ins M → Bool
  | .retLocal => false
  | .retSelf => false
  | .retFld _ => false
  | _ => true

def SC.inner (c : SC M) : Prop := ∀ i ∈ c.instrs, i.inner = true

/-- Only the last instruction ends the method. -/
def SC.tail : SC M → Prop
  | .seq a b => a.inner ∧ b.tail
  | .ins .retLocal => True
  | c => c.inner

def Meth.tail : Meth → Prop
  | .bc _ _ _ _ _ _ _ code => code.tail
  | .triv _ _ => True

theorem SC.inner_seq {a b : SC M} : (SC.seq a b).inner ↔ a.inner ∧ b.inner := by
  simp only [SC.inner, SC.instrs, List.mem_append]
  exact ⟨fun h => ⟨fun i hi => h i (.inl hi), fun i hi => h i (.inr hi)⟩, fun h i hi => hi.elim (h.1 i) (h.2 i)⟩

theorem SC.inner_ifElse {k : JCond} {a b : SC M} : (SC.ifElse k a b).inner ↔ a.inner ∧ b.inner := by
  simp only [SC.inner, SC.instrs, List.mem_append]
  exact ⟨fun h => ⟨fun i hi => h i (.inl hi), fun i hi => h i (.inr hi)⟩, fun h i hi => hi.elim (h.1 i) (h.2 i)⟩

theorem SC.inner_loop {k : JCond} {a b : SC M} : (SC.loop k a b).inner ↔ a.inner ∧ b.inner := by
  simp only [SC.inner, SC.instrs, List.mem_append]
  exact ⟨fun h => ⟨fun i hi => h i (.inl hi), fun i hi => h i (.inr hi)⟩, fun h i hi => hi.elim (h.1 i) (h.2 i)⟩

theorem SC.inner_thenB {k : JCond} {b : SC M} : (SC.thenB k b).inner ↔ b.inner := Iff.rfl

theorem SC.inner_ins {i : Ins M} : (SC.ins i).inner ↔ i.inner = true := by
  simp only [SC.inner, SC.instrs, List.mem_singleton, forall_eq]

theorem SC.inner_nop : (SC.nop : SC M).inner := fun _ h => nomatch h

theorem SC.tail_mem : ∀ {c : SC M}, c.tail → ∀ i ∈ c.instrs, i.inner = true ∨ i = .retLocal
  | .nop, h, i, hi => .inl (h i hi)
  | .ins j, h, i, hi => by
    rw [List.mem_singleton.mp hi]
    cases j <;> first | exact .inr rfl | exact .inl (h _ (List.mem_singleton.mpr rfl))
  | .seq a b, h, i, hi => by
    simp only [SC.instrs, List.mem_append] at hi
    rcases hi with hi | hi
    · exact .inl (h.1 i hi)
    · exact SC.tail_mem h.2 i hi
  | .thenB _ _, h, i, hi => .inl (h i hi)
  | .ifElse _ _ _, h, i, hi => .inl (h i hi)
  | .loop _ _ _, h, i, hi => .inl (h i hi)

theorem globIns_inner (n : Sel) : (globIns n : Ins M).inner = true := by
  unfold globIns
  split
  · rfl
  · split
    · rfl
    · split <;> rfl

mutual
theorem litSC_inner : ∀ l : LitT, (litSC l : SC M).inner
  | .val _ => SC.inner_ins.mpr rfl
  | .arr es => by
    simp only [litSC, SC.inner_seq, SC.inner_ins, globIns_inner, litsSC_inner es 1, Ins.inner, and_self]
theorem litsSC_inner : ∀ (es : LitTs) (i : Nat), (litsSC es i : SC M).inner
  | .nil, _ => SC.inner_nop
  | .cons e es, i => by
    simp only [litsSC, SC.inner_seq, SC.inner_ins, litSC_inner e, litsSC_inner es (i + 1), Ins.inner, and_self]
end

theorem popIns_inner (lvl : Nat) (t : Tgt) : (t.popIns lvl : Ins M).inner = true := by cases t <;> rfl

theorem dups_inner : ∀ k, (dupsSC k : SC M).inner
  | 0 => SC.inner_nop
  | k + 1 => SC.inner_seq.mpr ⟨SC.inner_ins.mpr rfl, dups_inner k⟩

theorem pops_inner (lvl : Nat) : ∀ ts : List Tgt, (popsSC lvl ts : SC M).inner
  | [] => SC.inner_nop
  | t :: ts => SC.inner_seq.mpr ⟨SC.inner_ins.mpr (popIns_inner lvl t), pops_inner lvl ts⟩

theorem genAsg_inner {X : Type} {lvl : Nat} {t : Tgt} {ts : List Tgt} {e : Ex M} {ce : Gen M X} (h : ce.1.inner) : (genAsg lvl t ts e ce).1.inner := by
  unfold genAsg
  split
  · exact SC.inner_ins.mpr rfl
  · simp only [SC.inner_seq, SC.inner_ins, h, dups_inner, pops_inner, Ins.inner, and_self]

theorem inlIns_inner {sub : Meth → Except Err Meth} {lvl : Nat} (hl : lvl ≠ 0) {env locals : List Nat} {i : Ins Meth} (hi : i.inner = true ∨ i = .retLocal) :
    (inlIns sub lvl env locals i).inner := by
  rcases hi with hi | rfl
  · cases i with
    | pushVar a i l => cases a <;> cases l <;> exact SC.inner_ins.mpr rfl
    | popVar a i l => cases a <;> cases l <;> exact SC.inner_ins.mpr rfl
    | pushBlock c m =>
      cases c
      · exact SC.inner_ins.mpr rfl
      · simp only [inlIns]
        cases sub m <;> exact SC.inner_ins.mpr rfl
    | pushGlobal n => exact SC.inner_ins.mpr (globIns_inner n)
    | retLocal => cases hi
    | retSelf => cases hi
    | retFld => cases hi
    | retNonLocal l => simp only [inlIns, if_neg hl]; exact SC.inner_ins.mpr rfl
    | _ => exact SC.inner_ins.mpr rfl
  · exact SC.inner_nop

theorem inlCode_inner {n lvl : Nat} (hl : lvl ≠ 0) {m : Meth} {env : List Nat} (h : m.tail) : (inlCode n m lvl env).inner := by
  cases m with
  | bc id lits bytes loops args locals stack code =>
    simp only [inlCode]
    split
    · intro j hj
      obtain ⟨i, hi, hj⟩ := mem_subst code hj
      exact inlIns_inner hl (SC.tail_mem h i hi) j hj
    · exact SC.inner_ins.mpr rfl
  | triv id t =>
    cases t with
    | lit v => cases v <;> first | exact SC.inner_ins.mpr rfl | exact SC.inner_nop
    | glob n _ => exact SC.inner_ins.mpr (globIns_inner n)
    | fldRead i l => exact SC.inner_ins.mpr rfl
    | fldWrite i a => exact SC.inner_nop

def Tails (bs : List (Bool × Meth)) : Prop := ∀ c m, (c, m) ∈ bs → m.tail

theorem Tails.left {a b : List (Bool × Meth)} (h : Tails (a ++ b)) : Tails a := fun c m hm => h c m (List.mem_append_left _ hm)
theorem Tails.right {a b : List (Bool × Meth)} (h : Tails (a ++ b)) : Tails b := fun c m hm => h c m (List.mem_append_right _ hm)

mutual
theorem genEx_inner {n lvl : Nat} (hl : lvl ≠ 0) : ∀ (e : Ex Meth) (st : Bool × List Nat), Tails e.blks → (genEx (inliner n) lvl e st).1.inner
  | .lit l, _, _ => litSC_inner l
  | .glob n, _, _ => SC.inner_ins.mpr (globIns_inner n)
  | .var _ _ _, _, _ => SC.inner_ins.mpr rfl
  | .fld _ _, _, _ => SC.inner_ins.mpr rfl
  | .blk _ _, _, _ => SC.inner_ins.mpr rfl
  | .asg t ts e, st, h => genAsg_inner (genEx_inner hl e st h)
  | .inc e, st, h => SC.inner_seq.mpr ⟨genEx_inner hl e st h, SC.inner_ins.mpr rfl⟩
  | .dec e, st, h => SC.inner_seq.mpr ⟨genEx_inner hl e st h, SC.inner_ins.mpr rfl⟩
  | .superSend sel r as, st, h =>
    SC.inner_seq.mpr ⟨genEx_inner hl r st h.left, SC.inner_seq.mpr ⟨genExs_inner hl as _ h.right, SC.inner_ins.mpr rfl⟩⟩
  | .send sel r as, st, h => by
    rw [genEx]
    simp only [Ex.blks] at h
    have h1 := genEx_inner (n := n) hl r st h.left
    cases hin : inlined? sel r as with
    | none =>
      simp only [genSend]
      exact SC.inner_seq.mpr ⟨h1, SC.inner_seq.mpr ⟨genExs_inner hl as _ h.right, SC.inner_ins.mpr rfl⟩⟩
    | some x =>
      unfold inlined? at hin
      split at hin <;> cases hin
      · simp only [Exs.blks, Ex.blks, List.append_nil] at h
        exact SC.inner_seq.mpr ⟨h1, SC.inner_thenB.mpr (inlCode_inner hl (h.right _ _ (List.mem_singleton.mpr rfl)))⟩
      · simp only [Exs.blks, Ex.blks, List.append_nil] at h
        exact SC.inner_seq.mpr ⟨h1, SC.inner_ifElse.mpr ⟨inlCode_inner hl (h.right.left _ _ (List.mem_singleton.mpr rfl)), inlCode_inner hl (h.right.right _ _ (List.mem_singleton.mpr rfl))⟩⟩
      · simp only [Exs.blks, Ex.blks, List.append_nil] at h
        exact SC.inner_seq.mpr ⟨SC.inner_loop.mpr ⟨inlCode_inner hl (h.left _ _ (List.mem_singleton.mpr rfl)),
          SC.inner_seq.mpr ⟨inlCode_inner hl (h.right _ _ (List.mem_singleton.mpr rfl)), SC.inner_ins.mpr rfl⟩⟩, SC.inner_ins.mpr rfl⟩
      · simp only [Exs.blks, Ex.blks, List.append_nil] at h
        exact SC.inner_seq.mpr ⟨h1, SC.inner_ifElse.mpr ⟨inlCode_inner hl (h.right _ _ (List.mem_singleton.mpr rfl)), SC.inner_ins.mpr rfl⟩⟩
theorem genExs_inner {n lvl : Nat} (hl : lvl ≠ 0) : ∀ (es : Exs Meth) (st : Bool × List Nat), Tails es.blks → (genExs (inliner n) lvl es st).1.inner
  | .nil, _, _ => SC.inner_nop
  | .cons e es, st, h => SC.inner_seq.mpr ⟨genEx_inner hl e st h.left, genExs_inner hl es _ h.right⟩
end

theorem genStmt_inner {n lvl : Nat} (hl : lvl ≠ 0) (e : Ex Meth) (st : Bool × List Nat) (h : Tails e.blks) : (genStmt (inliner n) lvl e st).1.inner := by
  unfold genStmt
  dsimp only
  split
  · rename_i c hc
    unfold effOnly at hc
    split at hc
    · split at hc
      · cases hc
        simp only [Ex.blks] at h
        unfold genAsgEff
        split
        · exact SC.inner_ins.mpr rfl
        · exact SC.inner_seq.mpr ⟨genEx_inner hl _ st h, SC.inner_ins.mpr (popIns_inner _ _)⟩
      · cases hc
    · cases hc
  · exact SC.inner_seq.mpr ⟨genEx_inner hl e st h, SC.inner_ins.mpr rfl⟩

theorem genBody_tail {n lvl : Nat} (hl : lvl ≠ 0) : ∀ (b : Body Meth) (st : Bool × List Nat), b.fits true → Tails b.blks → (genBody (inliner n) true lvl b st).tail
  | .done, st, _, _ => by
    simp only [genBody, if_true]
    exact ⟨SC.inner_ins.mpr rfl, trivial⟩
  | .last e, st, _, h => by
    simp only [genBody, if_true, Body.blks] at h ⊢
    exact ⟨genEx_inner hl e st h, trivial⟩
  | .exit e, st, _, h => by
    simp only [genBody, if_true, Body.blks] at h ⊢
    exact ⟨genEx_inner hl e st h, SC.inner_ins.mpr rfl⟩
  | .exitSelf, st, hf, _ => by simp only [Body.fits] at hf; cases hf
  | .stmt e .done, st, _, h => by
    simp only [genBody, if_true, Body.blks, List.append_nil] at h ⊢
    exact ⟨genEx_inner hl e st h, trivial⟩
  | .stmt e (.last e'), st, hf, h => by
    rw [genBody] <;> try (intro h; cases h)
    rw [Body.blks] at h
    exact ⟨genStmt_inner hl e st h.left, genBody_tail hl (.last e') _ hf h.right⟩
  | .stmt e (.stmt e' r), st, hf, h => by
    rw [genBody] <;> try (intro h; cases h)
    rw [Body.blks] at h
    exact ⟨genStmt_inner hl e st h.left, genBody_tail hl (.stmt e' r) _ hf h.right⟩
  | .stmt e (.exit e'), st, hf, h => by
    rw [genBody] <;> try (intro h; cases h)
    rw [Body.blks] at h
    exact ⟨genStmt_inner hl e st h.left, genBody_tail hl (.exit e') _ hf h.right⟩
  | .stmt e .exitSelf, st, hf, _ => by simp only [Body.fits] at hf; cases hf

theorem Compiled.tail {n lvl : Nat} {m : Meth} (h : Compiled n lvl m) : m.tail := by
  induction h with
  | mk lvl id args env b m wf fits ids inner closed h ih =>
    unfold compileBlock at h
    obtain ⟨g, _, h⟩ := except_bind_ok h
    obtain ⟨t, _, h⟩ := except_bind_ok h
    cases t with
    | some t => cases h; trivial
    | none =>
      obtain ⟨C, _, h⟩ := except_bind_ok h
      cases h
      exact genBody_tail (Nat.succ_ne_zero lvl) b _ fits ih

/-! ## Evaluation -/

/-- The outcome in a world, given the outcome in the world of the block. -/
def Out.conv : Out W (E ⊕ Val) → Out W E
  | .ok s w => .ok s w
  | .ret v w => .ret v w
  | .exc (.inl e) w => .exc e w
  | .exc (.inr v) w => .ret v w

theorem Out.conv_stops {o : Out W (E ⊕ Val)} : o.conv.stops ↔ o.stops := by
  rcases o with _ | _ | ⟨_ | _, _⟩ <;> exact Iff.rfl

theorem Out.conv_ok {o : Out W (E ⊕ Val)} {s : List Val} {w : W} (h : Out.ok s w = o.conv) : o = .ok s w := by
  rcases o with _ | _ | ⟨_ | _, _⟩ <;> simp_all [Out.conv]

theorem Meth.adapt_id {n k : Nat} {outer : List (List Nat)} {new : List Nat} {m m' : Meth} (h : adapt n k outer new m = .ok m') : m'.id = m.id := by
  cases n with
  | zero => simp only [adapt] at h; cases h
  | succ n =>
    cases m with
    | bc id lits bytes loops args locals stack code =>
      simp only [adapt] at h
      obtain ⟨x, _, h⟩ := except_bind_ok h
      cases h; rfl
    | triv id t => simp only [adapt] at h; cases h

/-- Instructions that act: what the instruction does in terms of the action. -/
theorem insEval_act {A : World M W E} {i : Ins M} {s : List Val} {w : W} {o : Out W E} {a : Act M} {n : Next} (h : i.eff s = .act a n) :
    InsEval A i s w o ↔ (∃ v w', A a w (.val v) w' ∧ o = n.out v w') ∨ (∃ e w', A a w (.exc e) w' ∧ o = .exc e w') := by
  constructor
  · intro hi
    cases hi with
    | pure s' h' => rw [h] at h'; cases h'
    | ret v h' => rw [h] at h'; cases h'
    | act a' n' v w' h' ha => rw [h] at h'; cases h'; exact .inl ⟨v, w', ha, rfl⟩
    | raise a' n' e w' h' ha => rw [h] at h'; cases h'; exact .inr ⟨e, w', ha, rfl⟩
  · rintro (⟨v, w', ha, rfl⟩ | ⟨e, w', ha, rfl⟩)
    · exact .act a n v w' h ha
    · exact .raise a n e w' h ha

theorem insEval_pure {A : World M W E} {i : Ins M} {s s' : List Val} {w : W} {o : Out W E} (h : i.eff s = .pure s') : InsEval A i s w o ↔ o = .ok s' w := by
  constructor
  · intro hi
    cases hi with
    | pure s' h' => rw [h] at h'; cases h'; rfl
    | ret v h' => rw [h] at h'; cases h'
    | act a' n' v w' h' ha => rw [h] at h'; cases h'
    | raise a' n' e w' h' ha => rw [h] at h'; cases h'
  · rintro rfl
    exact .pure s' h

theorem insEval_ret {A : World M W E} {i : Ins M} {s : List Val} {v : Val} {w : W} {o : Out W E} (h : i.eff s = .ret v) : InsEval A i s w o ↔ o = .ret v w := by
  constructor
  · intro hi
    cases hi with
    | pure s' h' => rw [h] at h'; cases h'
    | ret v h' => rw [h] at h'; cases h'; rfl
    | act a' n' v w' h' ha => rw [h] at h'; cases h'
    | raise a' n' e w' h' ha => rw [h] at h'; cases h'
  · rintro rfl
    exact .ret v h

theorem insEval_under {A : World M W E} {i : Ins M} {s : List Val} {w : W} {o : Out W E} (h : i.eff s = .underflow) : ¬ InsEval A i s w o := by
  intro hi
  cases hi with
  | pure s' h' => rw [h] at h'; cases h'
  | ret v h' => rw [h] at h'; cases h'
  | act a' n' v w' h' ha => rw [h] at h'; cases h'
  | raise a' n' e w' h' ha => rw [h] at h'; cases h'

theorem act_value {A : World M W E} {a : Act M} {v : Val} {w w' : W} : Src.act A a w (.val v) w' ↔ A a w (.val v) w' := by
  constructor
  · rintro (⟨u, e, h⟩ | ⟨u, e, h⟩)
    · cases e; exact h
    · cases e
  · intro h; exact .inl ⟨v, rfl, h⟩

theorem act_exc {A : World M W E} {a : Act M} {e : E} {w w' : W} : Src.act A a w (.exc e) w' ↔ A a w (.exc e) w' := by
  constructor
  · rintro (⟨u, e, h⟩ | ⟨u, e, h⟩)
    · cases e
    · cases e; exact h
  · intro h; exact .inr ⟨e, rfl, h⟩

theorem act_ret {A : World M W E} {a : Act M} {v : Val} {w w' : W} : ¬ Src.act A a w (.ret v) w' := by
  rintro (⟨u, e, h⟩ | ⟨u, e, h⟩) <;> cases e

section
variable {A : World Nat W E} {lvl : Nat} {env locals : List Nat}

/-- Actions that are an action: their outcome in the world of the block. -/
theorem pull_val {a b : Act Nat} (h : a.pull A lvl env locals = Src.act A b) {w w' : W} {v : Val} : A.pull lvl env locals a w (.val v) w' ↔ A b w (.val v) w' := by
  unfold World.pull
  rw [h]
  constructor
  · rintro ⟨r, e, hr⟩
    cases Src.Res.lift_val (r := r) (v := v) e
    exact act_value.mp hr
  · intro hr
    exact ⟨.val v, rfl, act_value.mpr hr⟩

theorem pull_exc {a b : Act Nat} (h : a.pull A lvl env locals = Src.act A b) {w w' : W} {x : E ⊕ Val} :
    A.pull lvl env locals a w (.exc x) w' ↔ ∃ e, x = .inl e ∧ A b w (.exc e) w' := by
  unfold World.pull
  rw [h]
  constructor
  · rintro ⟨r, e, hr⟩
    cases r with
    | val v => cases e
    | ret v => exact absurd hr act_ret
    | exc y => cases e; exact ⟨y, rfl, act_exc.mp hr⟩
  · rintro ⟨e, rfl, hr⟩
    exact ⟨.exc e, rfl, act_exc.mpr hr⟩

/-- An instruction whose action is translated into an action. -/
theorem ins_pull {i j : Ins Meth} {s : List Val} {a b : Act Meth} {n : Next} (hn : n ≠ .ret) (hi : i.eff s = .act a n) (hj : j.eff s = .act b n)
    (h : (a.map Meth.id).pull A lvl env locals = Src.act A (b.map Meth.id)) (w : W) (o : Out W E) :
    (SEval (onMeth A) (.ins j) s w o ↔ ∃ o', SEval (onMeth (A.pull lvl env locals)) (.ins i) s w o' ∧ o = o'.conv) ∧
    ∀ v w', ¬ SEval (onMeth (A.pull lvl env locals)) (.ins i) s w (.ret v w') := by
  simp only [seval_ins, insEval_act hi, insEval_act hj]
  have hconv : ∀ v w', (n.out v w' : Out W (E ⊕ Val)).conv = n.out v w' := by
    intro v w'; cases n <;> rfl
  constructor
  · constructor
    · rintro (⟨v, w', ha, rfl⟩ | ⟨e, w', ha, rfl⟩)
      · exact ⟨n.out v w', .inl ⟨v, w', (pull_val h).mpr ha, rfl⟩, (hconv v w').symm⟩
      · exact ⟨.exc (.inl e) w', .inr ⟨.inl e, w', (pull_exc h).mpr ⟨e, rfl, ha⟩, rfl⟩, rfl⟩
    · rintro ⟨o', ⟨v, w', ha, rfl⟩ | ⟨e, w', ha, rfl⟩, rfl⟩
      · exact .inl ⟨v, w', (pull_val h).mp ha, hconv v w'⟩
      · obtain ⟨e', rfl, hb⟩ := (pull_exc h).mp ha
        exact .inr ⟨e', w', hb, rfl⟩
  · rintro v w' (⟨u, w1, ha, e⟩ | ⟨e, w1, ha, e'⟩)
    · cases n <;> simp_all [Next.out]
    · cases e'

theorem ins_pure {i j : Ins Meth} {s s' : List Val} (hi : i.eff s = .pure s') (hj : j.eff s = .pure s') (w : W) (o : Out W E) :
    (SEval (onMeth A) (.ins j) s w o ↔ ∃ o', SEval (onMeth (A.pull lvl env locals)) (.ins i) s w o' ∧ o = o'.conv) ∧
    ∀ v w', ¬ SEval (onMeth (A.pull lvl env locals)) (.ins i) s w (.ret v w') := by
  simp only [seval_ins, insEval_pure hi, insEval_pure hj]
  refine ⟨⟨?_, ?_⟩, ?_⟩
  · rintro rfl; exact ⟨_, rfl, rfl⟩
  · rintro ⟨_, rfl, rfl⟩; rfl
  · intro v w' h; cases h

theorem ins_under {i j : Ins Meth} {s : List Val} (hi : i.eff s = .underflow) (hj : j.eff s = .underflow) (w : W) (o : Out W E) :
    (SEval (onMeth A) (.ins j) s w o ↔ ∃ o', SEval (onMeth (A.pull lvl env locals)) (.ins i) s w o' ∧ o = o'.conv) ∧
    ∀ v w', ¬ SEval (onMeth (A.pull lvl env locals)) (.ins i) s w (.ret v w') := by
  simp only [seval_ins]
  exact ⟨⟨fun h => absurd h (insEval_under hj), fun ⟨_, h, _⟩ => absurd h (insEval_under hi)⟩, fun _ _ => insEval_under hi⟩

theorem Src.glob_eq {M : Type} (A : World M W E) (n : Sel) : Src.glob A n = if n = symNil then Src.pure .nil
  else if n = symTrue then Src.pure .tru
  else if n = symFalse then Src.pure .fls
  else Src.act A (.glob n) := rfl

theorem glob_pull (n : Sel) (s : List Val) (w : W) (o : Out W E) :
    (SEval (onMeth A) (.ins (globIns n)) s w o ↔ ∃ o', SEval (onMeth (A.pull lvl env locals)) (.ins (.pushGlobal n)) s w o' ∧ o = o'.conv) ∧
    ∀ v w', ¬ SEval (onMeth (A.pull lvl env locals)) (.ins (.pushGlobal n)) s w (.ret v w') := by
  have key : ∀ v, Src.glob A n = Src.pure v → (globIns n : Ins Meth) = .pushConst v →
      (SEval (onMeth A) (.ins (globIns n)) s w o ↔ ∃ o', SEval (onMeth (A.pull lvl env locals)) (.ins (.pushGlobal n)) s w o' ∧ o = o'.conv) ∧
      ∀ v w', ¬ SEval (onMeth (A.pull lvl env locals)) (.ins (.pushGlobal n)) s w (.ret v w') := by
    intro v hg hi
    have hA : ∀ r w', A.pull lvl env locals (.glob n) w r w' ↔ r = .val v ∧ w' = w := by
      intro r w'
      show Src.lift (Src.glob A n) w r.src w' ↔ _
      rw [hg, Src.lift_pure]
      cases r <;> simp [Src.pure, Res.src]
    rw [hi]
    simp only [seval_ins, insEval_pure (show (Ins.pushConst v : Ins Meth).eff s = .pure (v :: s) from rfl),
      insEval_act (show (Ins.pushGlobal n : Ins Meth).eff s = .act (.glob n) (.push s) from rfl)]
    show (_ ↔ ∃ o', ((∃ u w', A.pull lvl env locals (.glob n) w (.val u) w' ∧ _) ∨ ∃ e w', A.pull lvl env locals (.glob n) w (.exc e) w' ∧ _) ∧ _) ∧
      ∀ u w', ¬ ((∃ u w', A.pull lvl env locals (.glob n) w (.val u) w' ∧ _) ∨ ∃ e w', A.pull lvl env locals (.glob n) w (.exc e) w' ∧ _)
    simp only [hA]
    refine ⟨⟨?_, ?_⟩, ?_⟩
    · rintro rfl; exact ⟨_, .inl ⟨v, w, ⟨rfl, rfl⟩, rfl⟩, rfl⟩
    · rintro ⟨_, ⟨u, w', ⟨e, rfl⟩, rfl⟩ | ⟨e, w', ⟨h, _⟩, _⟩, rfl⟩
      · cases e; rfl
      · cases h
    · rintro u w' (⟨_, _, _, h⟩ | ⟨e, w', ⟨h, _⟩, _⟩)
      · cases h
      · cases h
  by_cases h1 : n = symNil
  · exact key .nil (by rw [Src.glob_eq]; rw [if_pos h1]) (by unfold globIns; rw [if_pos h1])
  · by_cases h2 : n = symTrue
    · exact key .tru (by rw [Src.glob_eq]; rw [if_neg h1, if_pos h2]) (by unfold globIns; rw [if_neg h1, if_pos h2])
    · by_cases h3 : n = symFalse
      · exact key .fls (by rw [Src.glob_eq]; rw [if_neg h1, if_neg h2, if_pos h3]) (by unfold globIns; rw [if_neg h1, if_neg h2, if_pos h3])
      · have : (globIns n : Ins Meth) = .pushGlobal n := by unfold globIns; rw [if_neg h1, if_neg h2, if_neg h3]
        rw [this]
        refine ins_pull (a := .glob n) (b := .glob n) (n := .push s) (by intro h; cases h) rfl rfl ?_ w o
        show Src.glob A n = _
        rw [Src.glob_eq, if_neg h1, if_neg h2, if_neg h3]
        rfl

/-- An instruction of an inlined block. -/
theorem inlIns_pull {n : Nat} {outer : List (List Nat)} {new : List Nat} {i : Ins Meth} (hi : i.inner = true)
    (hp : impossible ∉ (inlIns (adapt n 1 outer new) lvl env locals i).instrs) (s : List Val) (w : W) (o : Out W E) :
    (SEval (onMeth A) (inlIns (adapt n 1 outer new) lvl env locals i) s w o ↔ ∃ o', SEval (onMeth (A.pull lvl env locals)) (.ins i) s w o' ∧ o = o'.conv) ∧
    ∀ v w', ¬ SEval (onMeth (A.pull lvl env locals)) (.ins i) s w (.ret v w') := by
  have hpush : Next.push s ≠ .ret := by intro h; cases h
  have hdrop : ∀ t, Next.drop t ≠ .ret := by intro t h; cases h
  have hpush' : ∀ t, Next.push t ≠ .ret := by intro t h; cases h
  cases i with
  | dup => cases s with
    | nil => exact ins_under rfl rfl w o
    | cons v s => exact ins_pure rfl rfl w o
  | pop => cases s with
    | nil => exact ins_under rfl rfl w o
    | cons v s => exact ins_pure rfl rfl w o
  | pushVar a i l =>
    cases a with
    | true => exact ins_pull hpush rfl rfl rfl w o
    | false => cases l <;> exact ins_pull hpush rfl rfl rfl w o
  | popVar a i l =>
    cases s with
    | nil => cases a <;> cases l <;> exact ins_under rfl rfl w o
    | cons v s =>
      cases a with
      | true => exact ins_pull (hdrop s) rfl rfl rfl w o
      | false => cases l <;> exact ins_pull (hdrop s) rfl rfl rfl w o
  | pushFld i l => exact ins_pull hpush rfl rfl rfl w o
  | popFld i l =>
    cases s with
    | nil => exact ins_under rfl rfl w o
    | cons v s => exact ins_pull (hdrop s) rfl rfl rfl w o
  | incFld i l => exact ins_pull (hdrop s) rfl rfl rfl w o
  | incFldPush i l => exact ins_pull hpush rfl rfl rfl w o
  | pushBlock c m =>
    cases c with
    | false => exact ins_pull hpush rfl rfl rfl w o
    | true =>
      simp only [inlIns] at hp ⊢
      cases h : adapt n 1 outer new m with
      | error e =>
        simp only [h] at hp
        exact absurd (List.mem_singleton.mpr rfl) hp
      | ok m' =>
        simp only
        refine ins_pull (a := .mkBlock true m) (b := .mkBlock true m') hpush rfl rfl ?_ w o
        show Src.act A (.mkBlock true m.id) = Src.act A (.mkBlock true m'.id)
        rw [Meth.adapt_id h]
  | pushConst v => exact ins_pure rfl rfl w o
  | pushGlobal n => exact glob_pull n s w o
  | send sel k =>
    by_cases h : k ≤ s.length
    · refine ins_pull (hpush' (s.drop k)) (a := .send sel (s.take k).reverse) (b := .send sel (s.take k).reverse) ?_ ?_ rfl w o <;> simp only [Ins.eff, if_pos h]
    · refine ins_under ?_ ?_ w o <;> simp only [Ins.eff, if_neg h]
  | superSend sel k =>
    by_cases h : k ≤ s.length
    · refine ins_pull (hpush' (s.drop k)) (a := .superSend sel (s.take k).reverse) (b := .superSend sel (s.take k).reverse) ?_ ?_ rfl w o <;> simp only [Ins.eff, if_pos h]
    · refine ins_under ?_ ?_ w o <;> simp only [Ins.eff, if_neg h]
  | retLocal => cases hi
  | retSelf => cases hi
  | retFld => cases hi
  | inc => cases s with
    | nil => exact ins_under rfl rfl w o
    | cons v s => exact ins_pull (hpush' s) rfl rfl rfl w o
  | dec => cases s with
    | nil => exact ins_under rfl rfl w o
    | cons v s => exact ins_pull (hpush' s) rfl rfl rfl w o
  | retNonLocal l =>
    simp only [inlIns]
    cases s with
    | nil => split <;> exact ins_under rfl rfl w o
    | cons v s =>
      have hA : ∀ r w', A.pull lvl env locals (.nlr l v) w r w' ↔ Src.lift (if lvl = 0 then Src.answer v else Src.bind (Src.act A (.nlr lvl v)) Src.answer) w r.src w' :=
        fun r w' => Iff.rfl
      have hE : ∀ o', SEval (onMeth (A.pull lvl env locals)) (.ins (.retNonLocal l)) (v :: s) w o' ↔
          (∃ u w', A.pull lvl env locals (.nlr l v) w (.val u) w' ∧ o' = .ret u w') ∨ ∃ e w', A.pull lvl env locals (.nlr l v) w (.exc e) w' ∧ o' = .exc e w' := by
        intro o'
        rw [seval_ins, insEval_act (show (Ins.retNonLocal l : Ins Meth).eff (v :: s) = .act (.nlr l v) .ret from rfl)]
        rfl
      simp only [hE, hA]
      by_cases hl : lvl = 0
      · simp only [if_pos hl]
        rw [seval_ins, insEval_ret (show (Ins.retLocal : Ins Meth).eff (v :: s) = .ret v from rfl)]
        refine ⟨⟨?_, ?_⟩, ?_⟩
        · rintro rfl
          exact ⟨.exc (.inr v) w, .inr ⟨.inr v, w, ⟨.ret v, rfl, rfl, rfl⟩, rfl⟩, rfl⟩
        · rintro ⟨o', ⟨u, w', ⟨r, e, rfl, rfl⟩, rfl⟩ | ⟨x, w', ⟨r, e, rfl, rfl⟩, rfl⟩, rfl⟩
          · cases e
          · cases e; rfl
        · rintro u w' (⟨u, w1, ⟨r, e, rfl, rfl⟩, _⟩ | ⟨_, _, _, h⟩)
          · cases e
          · cases h
      · simp only [if_neg hl]
        rw [seval_ins, insEval_act (show (Ins.retNonLocal lvl : Ins Meth).eff (v :: s) = .act (.nlr lvl v) .ret from rfl)]
        refine ⟨⟨?_, ?_⟩, ?_⟩
        · rintro (⟨u, w', ha, rfl⟩ | ⟨e, w', ha, rfl⟩)
          · exact ⟨.exc (.inr u) w', .inr ⟨.inr u, w', ⟨.ret u, rfl, .inl ⟨u, w', act_value.mpr ha, rfl, rfl⟩⟩, rfl⟩, rfl⟩
          · exact ⟨.exc (.inl e) w', .inr ⟨.inl e, w', ⟨.exc e, rfl, .inr ⟨act_exc.mpr ha, trivial⟩⟩, rfl⟩, rfl⟩
        · rintro ⟨o', ⟨u, w', ⟨r, e, hr⟩, rfl⟩ | ⟨x, w', ⟨r, e, hr⟩, rfl⟩, rfl⟩
          · cases Src.Res.lift_val (r := r) (v := u) e
            rcases hr with ⟨_, _, _, h, _⟩ | ⟨_, h⟩
            · cases h
            · exact h.elim
          · rcases hr with ⟨y, w1, h1, rfl, rfl⟩ | ⟨h1, h2⟩
            · cases e
              exact .inl ⟨y, _, act_value.mp h1, rfl⟩
            · cases r with
              | val _ => exact h2.elim
              | ret _ => exact absurd h1 act_ret
              | exc y => cases e; exact .inr ⟨y, w', act_exc.mp h1, rfl⟩
        · rintro u w' (⟨u, w1, ⟨r, e, hr⟩, _⟩ | ⟨_, _, _, h⟩)
          · cases Src.Res.lift_val (r := r) (v := u) e
            rcases hr with ⟨_, _, _, h, _⟩ | ⟨_, h⟩
            · cases h
            · exact h.elim
          · cases h

/-- Code of an inlined block that does not end the block. -/
theorem subst_pull {n : Nat} {outer : List (List Nat)} {new : List Nat} : ∀ (c : SC Meth), c.inner → impossible ∉ (c.subst (inlIns (adapt n 1 outer new) lvl env locals)).instrs →
    (∀ (s : List Val) (w : W) (o : Out W E), SEval (onMeth A) (c.subst (inlIns (adapt n 1 outer new) lvl env locals)) s w o ↔
      ∃ o', SEval (onMeth (A.pull lvl env locals)) c s w o' ∧ o = o'.conv) ∧
    ∀ (s : List Val) (w : W) v w', ¬ SEval (onMeth (A.pull lvl env locals)) c s w (.ret v w')
  | .nop, _, _ => by
    simp only [SC.subst, seval_nop]
    refine ⟨fun s w o => ⟨?_, ?_⟩, ?_⟩
    · rintro rfl; exact ⟨_, rfl, rfl⟩
    · rintro ⟨_, rfl, rfl⟩; rfl
    · intro s w v w' h; cases h
  | .ins i, hi, hp => ⟨fun s w o => (inlIns_pull (SC.inner_ins.mp hi) hp s w o).1, fun s w v w' => (inlIns_pull (SC.inner_ins.mp hi) hp s w (.ret v w')).2 v w'⟩
  | .seq a b, hi, hp => by
    simp only [SC.subst, SC.instrs, List.mem_append, not_or] at hp
    have ha := subst_pull a (SC.inner_seq.mp hi).1 hp.1
    have hb := subst_pull b (SC.inner_seq.mp hi).2 hp.2
    simp only [SC.subst, seval_seq, ha.1, hb.1]
    refine ⟨fun s w o => ⟨?_, ?_⟩, ?_⟩
    · rintro (⟨s', w', ⟨o1, h1, e1⟩, o2, h2, rfl⟩ | ⟨ho, o1, h1, rfl⟩)
      · cases Out.conv_ok e1
        exact ⟨o2, .inl ⟨s', w', h1, h2⟩, rfl⟩
      · exact ⟨o1, .inr ⟨Out.conv_stops.mp ho, h1⟩, rfl⟩
    · rintro ⟨o', ⟨s', w', h1, h2⟩ | ⟨ho, h1⟩, rfl⟩
      · exact .inl ⟨s', w', ⟨_, h1, rfl⟩, _, h2, rfl⟩
      · exact .inr ⟨Out.conv_stops.mpr ho, _, h1, rfl⟩
    · rintro s w v w' (⟨s', w1, h1, h2⟩ | ⟨_, h1⟩)
      · exact hb.2 _ _ _ _ h2
      · exact ha.2 _ _ _ _ h1
  | .thenB k b, hi, hp => by
    have hb := subst_pull b hi hp
    simp only [SC.subst]
    refine ⟨fun s w o => ?_, fun s w v w' => ?_⟩
    · cases s with
      | nil => exact ⟨fun h => (nomatch h), fun ⟨_, h, _⟩ => (nomatch h)⟩
      | cons x s =>
        simp only [seval_thenB]
        split
        · constructor
          · rintro rfl; exact ⟨_, rfl, rfl⟩
          · rintro ⟨_, rfl, rfl⟩; rfl
        · exact hb.1 s w o
    · cases s with
      | nil => intro h; nomatch h
      | cons x s =>
        rw [seval_thenB]
        split
        · intro h; cases h
        · exact hb.2 s w v w'
  | .ifElse k a b, hi, hp => by
    simp only [SC.subst, SC.instrs, List.mem_append, not_or] at hp
    have ha := subst_pull a (SC.inner_ifElse.mp hi).1 hp.1
    have hb := subst_pull b (SC.inner_ifElse.mp hi).2 hp.2
    simp only [SC.subst]
    refine ⟨fun s w o => ?_, fun s w v w' => ?_⟩
    · cases s with
      | nil => exact ⟨fun h => (nomatch h), fun ⟨_, h, _⟩ => (nomatch h)⟩
      | cons x s =>
        simp only [seval_ifElse]
        split
        · exact hb.1 s w o
        · exact ha.1 s w o
    · cases s with
      | nil => intro h; nomatch h
      | cons x s =>
        rw [seval_ifElse]
        split
        · exact hb.2 s w v w'
        · exact ha.2 s w v w'
  | .loop k a b, hi, hp => by
    simp only [SC.subst, SC.instrs, List.mem_append, not_or] at hp
    have ha := subst_pull a (SC.inner_loop.mp hi).1 hp.1
    have hb := subst_pull b (SC.inner_loop.mp hi).2 hp.2
    simp only [SC.subst]
    refine ⟨fun s w o => ⟨fun h => ?_, ?_⟩, fun s w v w' h => ?_⟩
    · generalize hc : SC.loop k (a.subst (inlIns (adapt n 1 outer new) lvl env locals)) (b.subst (inlIns (adapt n 1 outer new) lvl env locals)) = c at h
      induction h with
      | loopExit c cond body v s s' w w' hcond hk =>
        cases hc
        obtain ⟨o', h', e⟩ := (ha.1 _ _ _).mp hcond
        cases Out.conv_ok e
        exact ⟨.ok s' w', .loopExit _ _ _ v s s' w w' h' hk, rfl⟩
      | loopCondStop c cond body s w o ho hcond =>
        cases hc
        obtain ⟨o', h', rfl⟩ := (ha.1 _ _ _).mp hcond
        exact ⟨o', .loopCondStop _ _ _ s w o' (Out.conv_stops.mp ho) h', rfl⟩
      | loopBodyStop c cond body v s s' w w' o ho hcond hk hbody =>
        cases hc
        obtain ⟨o', h', e⟩ := (ha.1 _ _ _).mp hcond
        cases Out.conv_ok e
        obtain ⟨o', h2, rfl⟩ := (hb.1 _ _ _).mp hbody
        exact ⟨o', .loopBodyStop _ _ _ v s s' w w' o' (Out.conv_stops.mp ho) h' hk h2, rfl⟩
      | loopNext c cond body v s s' s'' w w' w'' o hcond hk hbody hrest _ _ ih =>
        have hc' := hc
        cases hc
        obtain ⟨o', h', e⟩ := (ha.1 _ _ _).mp hcond
        cases Out.conv_ok e
        obtain ⟨o', h2, e⟩ := (hb.1 _ _ _).mp hbody
        cases Out.conv_ok e
        obtain ⟨o', h3, rfl⟩ := ih rfl
        exact ⟨o', .loopNext _ _ _ v s s' s'' w w' w'' o' h' hk h2 h3, rfl⟩
      | _ => cases hc
    · rintro ⟨o', h, rfl⟩
      generalize hc : SC.loop k a b = c at h
      induction h with
      | loopExit c cond body v s s' w w' hcond hk =>
        cases hc
        exact .loopExit _ _ _ v s s' w w' ((ha.1 _ _ _).mpr ⟨_, hcond, rfl⟩) hk
      | loopCondStop c cond body s w o ho hcond =>
        cases hc
        exact .loopCondStop _ _ _ s w _ (Out.conv_stops.mpr ho) ((ha.1 _ _ _).mpr ⟨_, hcond, rfl⟩)
      | loopBodyStop c cond body v s s' w w' o ho hcond hk hbody =>
        cases hc
        exact .loopBodyStop _ _ _ v s s' w w' _ (Out.conv_stops.mpr ho) ((ha.1 _ _ _).mpr ⟨_, hcond, rfl⟩) hk ((hb.1 _ _ _).mpr ⟨_, hbody, rfl⟩)
      | loopNext c cond body v s s' s'' w w' w'' o hcond hk hbody hrest _ _ ih =>
        have := ih hc
        cases hc
        exact .loopNext _ _ _ v s s' s'' w w' w'' _ ((ha.1 _ _ _).mpr ⟨_, hcond, rfl⟩) hk ((hb.1 _ _ _).mpr ⟨_, hbody, rfl⟩) this
      | _ => cases hc
    · generalize hc : SC.loop k a b = c at h
      generalize ho : Out.ret v w' = o at h
      induction h with
      | loopExit c cond body v s s' w w' hcond hk => cases ho
      | loopCondStop c cond body s w o _ hcond => cases hc; cases ho; exact ha.2 _ _ _ _ hcond
      | loopBodyStop c cond body v s s' w w' o _ hcond hk hbody => cases hc; cases ho; exact hb.2 _ _ _ _ hbody
      | loopNext c cond body v s s' s'' w w' w'' o hcond hk hbody hrest _ _ ih => exact ih hc ho
      | _ => cases hc

/-- The end of an inlined block: its answer is the value. -/
def Out.convT : Out W (E ⊕ Val) → Out W E
  | .ok s w => .ok s w
  | .ret v w => .ok [v] w
  | .exc (.inl e) w => .exc e w
  | .exc (.inr v) w => .ret v w

/-- The code of an inlined block. -/
theorem tail_pull {n : Nat} {outer : List (List Nat)} {new : List Nat} : ∀ (c : SC Meth), c.tail → impossible ∉ (c.subst (inlIns (adapt n 1 outer new) lvl env locals)).instrs →
    ∀ (s : List Val), c.ty s.length = some 1 → ∀ (w : W) (o : Out W E), SEval (onMeth A) (c.subst (inlIns (adapt n 1 outer new) lvl env locals)) s w o ↔
      ∃ o', SEval (onMeth (A.pull lvl env locals)) c s w o' ∧ o = o'.convT := by
  have plain : ∀ (c : SC Meth), c.inner → impossible ∉ (c.subst (inlIns (adapt n 1 outer new) lvl env locals)).instrs → ∀ (s : List Val) (w : W) (o : Out W E),
      SEval (onMeth A) (c.subst (inlIns (adapt n 1 outer new) lvl env locals)) s w o ↔ ∃ o', SEval (onMeth (A.pull lvl env locals)) c s w o' ∧ o = o'.convT := by
    intro c hi hp s w o
    have h := subst_pull (A := A) c hi hp
    rw [h.1]
    constructor
    · rintro ⟨o', h1, rfl⟩
      refine ⟨o', h1, ?_⟩
      rcases o' with _ | _ | ⟨_ | _, _⟩ <;> first | rfl | exact absurd h1 (h.2 _ _ _ _)
    · rintro ⟨o', h1, rfl⟩
      refine ⟨o', h1, ?_⟩
      rcases o' with _ | _ | ⟨_ | _, _⟩ <;> first | rfl | exact absurd h1 (h.2 _ _ _ _)
  intro c
  induction c with
  | nop => exact fun ht hp s _ w o => plain _ ht hp s w o
  | ins i =>
    intro ht hp s hty w o
    by_cases hi : i = .retLocal
    · subst hi
      show SEval (onMeth A) .nop s w o ↔ _
      simp only [SC.ty, Ins.ty] at hty
      split at hty
      · cases s with
        | nil => cases hty
        | cons v s =>
          cases s with
          | cons x s => simp only [List.length_cons] at hty; injection hty with hty; omega
          | nil =>
            rw [seval_nop]
            simp only [seval_ins, insEval_ret (show (Ins.retLocal : Ins Meth).eff [v] = .ret v from rfl)]
            constructor
            · rintro rfl; exact ⟨_, rfl, rfl⟩
            · rintro ⟨_, rfl, rfl⟩; rfl
      · cases hty
    · exact plain _ (by cases i <;> first | exact absurd rfl hi | exact ht) hp s w o
  | seq a b iha ihb =>
    intro ht hp s hty w o
    simp only [SC.subst, SC.instrs, List.mem_append, not_or] at hp
    have ha := subst_pull (A := A) a ht.1 hp.1
    simp only [SC.ty] at hty
    cases hta : a.ty s.length with
    | none => rw [hta] at hty; cases hty
    | some d =>
      rw [hta] at hty
      replace hty : b.ty d = some 1 := hty
      simp only [SC.subst, seval_seq, ha.1]
      constructor
      · rintro (⟨s', w', ⟨o1, h1, e1⟩, h2⟩ | ⟨ho, o1, h1, rfl⟩)
        · cases Out.conv_ok e1
          have hd := dep h1 hta
          obtain ⟨o2, h3, rfl⟩ := (ihb ht.2 hp.2 s' (by rw [hd]; exact hty) w' o).mp h2
          exact ⟨o2, .inl ⟨s', w', h1, h3⟩, rfl⟩
        · refine ⟨o1, .inr ⟨Out.conv_stops.mp ho, h1⟩, ?_⟩
          rcases o1 with _ | _ | ⟨_ | _, _⟩ <;> first | rfl | exact absurd h1 (ha.2 _ _ _ _)
      · rintro ⟨o', ⟨s', w', h1, h2⟩ | ⟨ho, h1⟩, rfl⟩
        · have hd := dep h1 hta
          exact .inl ⟨s', w', ⟨_, h1, rfl⟩, (ihb ht.2 hp.2 s' (by rw [hd]; exact hty) w' _).mpr ⟨_, h2, rfl⟩⟩
        · refine .inr ⟨?_, o', h1, ?_⟩
          · rcases o' with _ | _ | ⟨_ | _, _⟩ <;> first | exact ho.elim | trivial | exact absurd h1 (ha.2 _ _ _ _)
          · rcases o' with _ | _ | ⟨_ | _, _⟩ <;> first | rfl | exact absurd h1 (ha.2 _ _ _ _)
  | thenB k b _ => exact fun ht hp s _ w o => plain _ ht hp s w o
  | ifElse k a b _ _ => exact fun ht hp s _ w o => plain _ ht hp s w o
  | loop k a b _ _ => exact fun ht hp s _ w o => plain _ ht hp s w o
end
end
end PySOM.BC

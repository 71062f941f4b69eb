import Verif.Lemmas.AstRun
/-!
# Blocks that are adapted because the block around them was inlined
-/
set_option autoImplicit false
namespace PySOM.BC
open PySOM

section
variable {W E : Type}

/-- The level of a context after the context at level `k` is gone. -/
def adjL (k l : Nat) : Nat := if l > k then l - 1 else l

/-- Where a variable of the context at level `k` is found after that. -/
def adjI (chain : List (List Nat)) (new : List Nat) (i l : Nat) : Nat := ((getLocal chain i l).bind (inlinedIdx new)).toOption.getD i

/-- What an action of the block becomes. -/
def Act.adj (k : Nat) (chain : List (List Nat)) (new : List Nat) : Act Nat → Act Nat
  | .rdVar true i l => .rdVar true i (adjL k l)
  | .wrVar true i l v => .wrVar true i (adjL k l) v
  | .rdVar false i l => if l = k then .rdVar false (adjI chain new i l) l else .rdVar false i (adjL k l)
  | .wrVar false i l v => if l = k then .wrVar false (adjI chain new i l) l v else .wrVar false i (adjL k l) v
  | .rdFld i l => .rdFld i (adjL k l)
  | .wrFld i l v => .wrFld i (adjL k l) v
  | .incFld i l => .incFld i (adjL k l)
  | .nlr l v => .nlr (adjL k l) v
  | a => a

def World.adj (A : World Nat W E) (k : Nat) (chain : List (List Nat)) (new : List Nat) : World Nat W E := fun a => A (a.adj k chain new)

theorem act_adj (A : World Nat W E) (k : Nat) (chain : List (List Nat)) (new : List Nat) (a : Act Nat) : Src.act (A.adj k chain new) a = Src.act A (a.adj k chain new) := rfl

/-! ## Bytecode -/

section
variable {A : World Nat W E} {k : Nat} {chain : List (List Nat)} {new : List Nat} {sub : Meth → Except Err Meth}

/-- Instructions that do the same in two worlds. -/
theorem insEval_same {A B : World Meth W E} {i j : Ins Meth} {s : List Val} {a b : Act Meth} {n : Next} (hi : i.eff s = .act a n) (hj : j.eff s = .act b n) (h : A a = B b) (w : W) (o : Out W E) :
    InsEval A i s w o ↔ InsEval B j s w o := by
  rw [insEval_act hi, insEval_act hj, h]

theorem adaptIns_adj (hsub : ∀ m m', sub m = .ok m' → m'.id = m.id) {i : Ins Meth} (hl : ∀ l, i = .retNonLocal l → l > k) (s : List Val) (w : W) (o : Out W E) :
    InsEval (onMeth A) (adaptIns sub k chain new i) s w o ↔ InsEval (onMeth (A.adj k chain new)) i s w o := by
  cases i with
  | dup =>
    cases s with
    | nil => exact iff_of_false (insEval_under rfl) (insEval_under rfl)
    | cons v s => exact (insEval_pure rfl).trans (insEval_pure rfl).symm
  | pop =>
    cases s with
    | nil => exact iff_of_false (insEval_under rfl) (insEval_under rfl)
    | cons v s => exact (insEval_pure rfl).trans (insEval_pure rfl).symm
  | retLocal =>
    cases s with
    | nil => exact iff_of_false (insEval_under rfl) (insEval_under rfl)
    | cons v s => exact (insEval_ret rfl).trans (insEval_ret rfl).symm
  | pushConst v => exact (insEval_pure rfl).trans (insEval_pure rfl).symm
  | pushVar a i l =>
    cases a with
    | true => (refine insEval_same rfl rfl ?_ w o; rfl)
    | false =>
      simp only [adaptIns]
      split
      · rename_i h
        refine insEval_same rfl rfl ?_ w o
        simp only [onMeth, Act.map, World.adj, Act.adj, if_pos h, adjI]
      · rename_i h
        refine insEval_same rfl rfl ?_ w o
        simp only [onMeth, Act.map, World.adj, Act.adj, if_neg h, adjL]
  | popVar a i l =>
    cases s with
    | nil =>
      refine iff_of_false (insEval_under ?_) (insEval_under rfl)
      cases a
      · simp only [adaptIns]; split <;> rfl
      · rfl
    | cons v s =>
      cases a with
      | true => (refine insEval_same rfl rfl ?_ w o; rfl)
      | false =>
        simp only [adaptIns]
        split
        · rename_i h
          refine insEval_same rfl rfl ?_ w o
          simp only [onMeth, Act.map, World.adj, Act.adj, if_pos h, adjI]
        · rename_i h
          refine insEval_same rfl rfl ?_ w o
          simp only [onMeth, Act.map, World.adj, Act.adj, if_neg h, adjL]
  | pushFld i l => (refine insEval_same rfl rfl ?_ w o; rfl)
  | popFld i l =>
    cases s with
    | nil => exact iff_of_false (insEval_under rfl) (insEval_under rfl)
    | cons v s => (refine insEval_same rfl rfl ?_ w o; rfl)
  | incFld i l => (refine insEval_same rfl rfl ?_ w o; rfl)
  | incFldPush i l => (refine insEval_same rfl rfl ?_ w o; rfl)
  | pushBlock c m =>
    cases c with
    | false => (refine insEval_same rfl rfl ?_ w o; rfl)
    | true =>
      refine insEval_same rfl rfl ?_ w o
      have : ((sub m).toOption.getD m.stub).id = m.id := by
        cases h : sub m with
        | ok m' => exact hsub m m' h
        | error e => cases m <;> rfl
      simp only [onMeth, Act.map, World.adj, Act.adj, this]
  | pushGlobal g => (refine insEval_same rfl rfl ?_ w o; rfl)
  | send sel n =>
    by_cases hn : n ≤ s.length
    · have he : (Ins.send sel n : Ins Meth).eff s = .act (.send sel (s.take n).reverse) (.push (s.drop n)) := if_pos hn
      show InsEval (onMeth A) (.send sel n) s w o ↔ _
      refine insEval_same he he ?_ w o
      rfl
    · exact iff_of_false (insEval_under (if_neg hn)) (insEval_under (if_neg hn))
  | superSend sel n =>
    by_cases hn : n ≤ s.length
    · have he : (Ins.superSend sel n : Ins Meth).eff s = .act (.superSend sel (s.take n).reverse) (.push (s.drop n)) := if_pos hn
      show InsEval (onMeth A) (.superSend sel n) s w o ↔ _
      refine insEval_same he he ?_ w o
      rfl
    · exact iff_of_false (insEval_under (if_neg hn)) (insEval_under (if_neg hn))
  | retNonLocal l =>
    cases s with
    | nil => exact iff_of_false (insEval_under rfl) (insEval_under rfl)
    | cons v s =>
      refine insEval_same rfl rfl ?_ w o
      simp only [onMeth, Act.map, World.adj, Act.adj, adjL, if_pos (hl l rfl)]
  | retSelf => (refine insEval_same rfl rfl ?_ w o; rfl)
  | retFld i =>
    refine insEval_same rfl rfl ?_ w o
    simp only [onMeth, Act.map, World.adj, Act.adj, adjL, Nat.not_lt_zero, gt_iff_lt, if_false]
  | inc =>
    cases s with
    | nil => exact iff_of_false (insEval_under rfl) (insEval_under rfl)
    | cons v s => (refine insEval_same rfl rfl ?_ w o; rfl)
  | dec =>
    cases s with
    | nil => exact iff_of_false (insEval_under rfl) (insEval_under rfl)
    | cons v s => (refine insEval_same rfl rfl ?_ w o; rfl)
end

/-- Replacing instructions by ones that do the same. -/
theorem subst_eval {A B : World Meth W E} {f : Ins Meth → Ins Meth} : ∀ (c : SC Meth), (∀ i ∈ c.instrs, ∀ s w (o : Out W E), InsEval A (f i) s w o ↔ InsEval B i s w o) →
    ∀ (s : List Val) (w : W) (o : Out W E), SEval A (c.subst fun i => .ins (f i)) s w o ↔ SEval B c s w o
  | .nop, _, s, w, o => by simp only [SC.subst, seval_nop]
  | .ins i, h, s, w, o => by
    simp only [SC.subst, seval_ins]
    exact h i (List.mem_singleton.mpr rfl) s w o
  | .seq a b, h, s, w, o => by
    simp only [SC.subst, seval_seq, subst_eval a (fun i hi => h i (List.mem_append_left _ hi)), subst_eval b (fun i hi => h i (List.mem_append_right _ hi))]
  | .thenB k b, h, s, w, o => by
    cases s with
    | nil => exact ⟨fun h => (nomatch h), fun h => (nomatch h)⟩
    | cons v s => simp only [SC.subst, seval_thenB, subst_eval b h]
  | .ifElse k a b, h, s, w, o => by
    cases s with
    | nil => exact ⟨fun h => (nomatch h), fun h => (nomatch h)⟩
    | cons v s => simp only [SC.subst, seval_ifElse, subst_eval a (fun i hi => h i (List.mem_append_left _ hi)), subst_eval b (fun i hi => h i (List.mem_append_right _ hi))]
  | .loop k a b, h, s, w, o => by
    have ha := subst_eval a (fun i hi => h i (List.mem_append_left _ hi))
    have hb := subst_eval b (fun i hi => h i (List.mem_append_right _ hi))
    simp only [SC.subst]
    constructor
    · intro h
      generalize hc : SC.loop k (a.subst fun i => .ins (f i)) (b.subst fun i => .ins (f i)) = c at h
      induction h with
      | loopExit c cond body v s s' w w' hcond hk => cases hc; exact .loopExit _ _ _ v s s' w w' ((ha _ _ _).mp hcond) hk
      | loopCondStop c cond body s w o ho hcond => cases hc; exact .loopCondStop _ _ _ s w o ho ((ha _ _ _).mp hcond)
      | loopBodyStop c cond body v s s' w w' o ho hcond hk hbody => cases hc; exact .loopBodyStop _ _ _ v s s' w w' o ho ((ha _ _ _).mp hcond) hk ((hb _ _ _).mp hbody)
      | loopNext c cond body v s s' s'' w w' w'' o hcond hk hbody hrest _ _ ih =>
        have := ih hc
        cases hc; exact .loopNext _ _ _ v s s' s'' w w' w'' o ((ha _ _ _).mp hcond) hk ((hb _ _ _).mp hbody) this
      | _ => cases hc
    · intro h
      generalize hc : SC.loop k a b = c at h
      induction h with
      | loopExit c cond body v s s' w w' hcond hk => cases hc; exact .loopExit _ _ _ v s s' w w' ((ha _ _ _).mpr hcond) hk
      | loopCondStop c cond body s w o ho hcond => cases hc; exact .loopCondStop _ _ _ s w o ho ((ha _ _ _).mpr hcond)
      | loopBodyStop c cond body v s s' w w' o ho hcond hk hbody => cases hc; exact .loopBodyStop _ _ _ v s s' w w' o ho ((ha _ _ _).mpr hcond) hk ((hb _ _ _).mpr hbody)
      | loopNext c cond body v s s' s'' w w' w'' o hcond hk hbody hrest _ _ ih =>
        have := ih hc
        cases hc; exact .loopNext _ _ _ v s s' s'' w w' w'' o ((ha _ _ _).mpr hcond) hk ((hb _ _ _).mpr hbody) this
      | _ => cases hc

theorem returns_of_ends {M : Type} : ∀ (c : SC M), c.endsRet = true → c.returns = true
  | .ins i, h => by cases i <;> first | rfl | cases h
  | .seq a b, h => by
    simp only [SC.endsRet] at h
    simp only [SC.returns, returns_of_ends b h, Bool.or_true]
  | .nop, h => nomatch h
  | .thenB _ _, h => nomatch h
  | .ifElse _ _ _, h => nomatch h
  | .loop _ _ _, h => nomatch h

/-- What the bytes of a block do is what its code does. -/
theorem bcRun_code {A : World Meth W E} {C : Code Meth} {c : SC Meth} (he : Enc C.lits c C.bytes) (ht : ∀ d, c.ty d = some (d + 1)) (hm : c.maxd 0 ≤ C.max) (hr : c.endsRet = true) :
    bcRun A C = fun w r w' => match r with | .val _ => False | .ret v => SEval A c [] w (.ret v w') | .exc e => SEval A c [] w (.exc e w') := by
  refine Src.rel_ext fun w r w' => ?_
  cases r with
  | val v => exact Iff.rfl
  | ret v =>
    refine (method_run he (ht 0) hm (returns_of_ends c hr) w (.done v w') trivial).trans ⟨?_, fun h => ⟨_, h, trivial, rfl⟩⟩
    rintro ⟨o, h1, h2, h3⟩
    cases o <;> cases h3
    exact h1
  | exc e =>
    refine (method_run he (ht 0) hm (returns_of_ends c hr) w (.raised e w') trivial).trans ⟨?_, fun h => ⟨_, h, trivial, rfl⟩⟩
    rintro ⟨o, h1, h2, h3⟩
    cases o <;> cases h3
    exact h1

/-- An adapted block does in the world outside what the block does in its own. -/
theorem Meth.run_adapt {n k lvl : Nat} {outer : List (List Nat)} {new : List Nat} {m m' : Meth} (hk : 1 ≤ k) (hs : Sound (lvl + k) m) (h : adapt n k outer new m = .ok m')
    (A : World Nat W E) : m'.run (onMeth A) = m.run (onMeth (A.adj k (m.locals :: outer) new)) := by
  have hs' := (adapt_sound n k lvl outer new m m' hk hs h).1
  cases n with
  | zero => simp only [adapt] at h; cases h
  | succ n =>
    cases hs with
    | triv _ id t ok => simp only [adapt] at h; cases h
    | bc _ id lits bytes loops args locals stack code enc ty std size small ends ins ids inner closed =>
      simp only [adapt] at h
      obtain ⟨⟨bs', l'⟩, hloop, h2⟩ := except_bind_ok h
      cases h2
      generalize hg : lvl + k - 1 = g at hs'
      cases hs' with
      | bc _ _ _ _ _ _ _ _ _ enc' ty' std' size' small' ends' ins' ids' inner' closed' =>
        simp only [Meth.run, Meth.locals]
        rw [bcRun_code enc' ty' size' ends', bcRun_code enc ty size ends]
        have := subst_eval (A := onMeth A) (B := onMeth (A.adj k (locals :: outer) new)) code (f := adaptIns (adapt n (k + 1) (locals :: outer) new) k (locals :: outer) new)
          fun i hi s w o => adaptIns_adj (fun m m' h => Meth.adapt_id h) (fun l hl => by
            have := ins i hi
            rw [hl] at this
            have : l = lvl + k + 1 := this
            omega) s w o
        funext w r w'
        cases r with
        | val v => rfl
        | ret v => exact propext (this _ _ _)
        | exc e => exact propext (this _ _ _)

/-! ## Trees -/

mutual
/-- Like `Node.ok`, for trees that may have been adapted: a global that was not known keeps its level. -/
def Node.okA (chain : List (List Nat)) : Node → Prop
  | .lit _ => True
  | .globK n => ¬ special n
  | .globU n _ => ¬ special n
  | .readArg _ _ => True
  | .readLoc i s l => ∃ ls, chain[l]? = some ls ∧ ls[i]? = some s
  | .self _ => True
  | .writeArg _ _ e => e.okA chain
  | .writeLoc i s l e => e.okA chain ∧ ∃ ls, chain[l]? = some ls ∧ ls[i]? = some s
  | .fld _ l => l + 1 = chain.length
  | .fldW _ _ e => e.okA chain
  | .fldInc _ _ => True
  | .inc e => e.okA chain
  | .blk _ _ => True
  | .send _ r as => r.okA chain ∧ as.okA chain
  | .superSend _ r as => r.okA chain ∧ as.okA chain
  | .inl1 _ r a => r.okA chain ∧ a.okA chain
  | .inl2 _ r a b => r.okA chain ∧ a.okA chain ∧ b.okA chain
  | .while _ c b => c.okA chain ∧ b.okA chain
  | .seq es => es.okA chain
  | .retNL l e => l + 1 = chain.length ∧ e.okA chain
  | .retL e => chain.length = 1 ∧ e.okA chain
def Nodes.okA (chain : List (List Nat)) : Nodes → Prop
  | .nil => True
  | .cons e es => e.okA chain ∧ es.okA chain
end

mutual
theorem Node.ok_okA {ch ch2 : List (List Nat)} (hp : Within ch ch2) : ∀ (t : Node), t.ok ch → t.okA ch2
  | .lit _, _ => trivial
  | .globK _, h => h
  | .globU _ _, h => h.2
  | .readArg _ _, _ => trivial
  | .readLoc _ _ _, h => chain_mono hp h
  | .self _, _ => trivial
  | .writeArg _ _ e, h => Node.ok_okA hp e h
  | .writeLoc _ _ _ e, h => ⟨Node.ok_okA hp e h.1, chain_mono hp h.2⟩
  | .fld _ l, h => Eq.trans (b := ch.length) h hp.1
  | .fldW _ _ e, h => Node.ok_okA hp e h
  | .fldInc _ _, _ => trivial
  | .inc e, h => Node.ok_okA hp e h
  | .blk _ _, _ => trivial
  | .send _ r as, h => ⟨Node.ok_okA hp r h.1, Nodes.ok_okA hp as h.2⟩
  | .superSend _ r as, h => ⟨Node.ok_okA hp r h.1, Nodes.ok_okA hp as h.2⟩
  | .inl1 _ r a, h => ⟨Node.ok_okA hp r h.1, Node.ok_okA hp a h.2⟩
  | .inl2 _ r a b, h => ⟨Node.ok_okA hp r h.1, Node.ok_okA hp a h.2.1, Node.ok_okA hp b h.2.2⟩
  | .while _ r a, h => ⟨Node.ok_okA hp r h.1, Node.ok_okA hp a h.2⟩
  | .seq es, h => Nodes.ok_okA hp es h
  | .retNL _ e, h => ⟨h.1.trans hp.1, Node.ok_okA hp e h.2⟩
  | .retL e, h => ⟨hp.1.symm.trans h.1, Node.ok_okA hp e h.2⟩
theorem Nodes.ok_okA {ch ch2 : List (List Nat)} (hp : Within ch ch2) : ∀ (es : Nodes), es.ok ch → es.okA ch2
  | .nil, _ => trivial
  | .cons e es, h => ⟨Node.ok_okA hp e h.1, Nodes.ok_okA hp es h.2⟩
end

mutual
theorem Node.okA_mono {ch ch2 : List (List Nat)} (hp : Within ch ch2) : ∀ (t : Node), t.okA ch → t.okA ch2
  | .lit _, _ => trivial
  | .globK _, h => h
  | .globU _ _, h => h
  | .readArg _ _, _ => trivial
  | .readLoc _ _ _, h => chain_mono hp h
  | .self _, _ => trivial
  | .writeArg _ _ e, h => Node.okA_mono hp e h
  | .writeLoc _ _ _ e, h => ⟨Node.okA_mono hp e h.1, chain_mono hp h.2⟩
  | .fld _ l, h => Eq.trans (b := ch.length) h hp.1
  | .fldW _ _ e, h => Node.okA_mono hp e h
  | .fldInc _ _, _ => trivial
  | .inc e, h => Node.okA_mono hp e h
  | .blk _ _, _ => trivial
  | .send _ r as, h => ⟨Node.okA_mono hp r h.1, Nodes.okA_mono hp as h.2⟩
  | .superSend _ r as, h => ⟨Node.okA_mono hp r h.1, Nodes.okA_mono hp as h.2⟩
  | .inl1 _ r a, h => ⟨Node.okA_mono hp r h.1, Node.okA_mono hp a h.2⟩
  | .inl2 _ r a b, h => ⟨Node.okA_mono hp r h.1, Node.okA_mono hp a h.2.1, Node.okA_mono hp b h.2.2⟩
  | .while _ r a, h => ⟨Node.okA_mono hp r h.1, Node.okA_mono hp a h.2⟩
  | .seq es, h => Nodes.okA_mono hp es h
  | .retNL _ e, h => ⟨h.1.trans hp.1, Node.okA_mono hp e h.2⟩
  | .retL e, h => ⟨hp.1.symm.trans h.1, Node.okA_mono hp e h.2⟩
theorem Nodes.okA_mono {ch ch2 : List (List Nat)} (hp : Within ch ch2) : ∀ (es : Nodes), es.okA ch → es.okA ch2
  | .nil, _ => trivial
  | .cons e es, h => ⟨Node.okA_mono hp e h.1, Nodes.okA_mono hp es h.2⟩
end

theorem adaptSelf_ok {k l l' : Nat} (h : adaptSelf k l = .ok l') : l' = adjL k l := by
  unfold adaptSelf at h
  unfold adjL
  split at h
  · rename_i h0; cases h; subst h0; simp
  · split at h
    · rename_i h1
      split at h <;> cases h
      rw [if_pos h1]
    · cases h

theorem adj_moved {chain : List (List Nat)} {new : List Nat} {i s k j : Nat} (hn : new.Nodup) (hl : ∃ ls, chain[k]? = some ls ∧ ls[i]? = some s) (h : firstIdx new s = .ok j) :
    adjI chain new i k = j := by
  obtain ⟨ls, h1, h2⟩ := hl
  have hg : getLocal chain i k = .ok s := by simp only [getLocal, h1, h2]
  unfold adjI
  rw [hg]
  have h3 := firstIdx_spec h
  show (inlinedIdx new s).toOption.getD i = j
  unfold inlinedIdx
  cases hL : lastIdx new s new.length with
  | none =>
    have hlt : j < new.length := by rw [List.getElem?_eq_some_iff] at h3; exact h3.1
    exact absurd h3 (lastIdx_none hL hlt)
  | some k => exact nodup_idx hn (lastIdx_some hL) h3

section
variable {A : World Nat W E} {U : Sel → Nat → Src.Rel W E} {err : Err → E} {k : Nat} {chain bchain : List (List Nat)} {new : List Nat}

mutual
theorem Node.exec_adapt (hn : new.Nodup) (h1k : 1 ≤ k) (hk : k + 1 < chain.length) (hb : bchain[k]? = chain[k]?) : ∀ (t t' : Node), t.okA chain → t.adapt k new = .ok t' →
    t'.exec A U err = t.exec (A.adj k bchain new) U err
  | .lit v, t', _, h => by simp only [Node.adapt] at h; cases h; rfl
  | .globK n, t', _, h => by simp only [Node.adapt] at h; cases h; rfl
  | .globU n l, t', _, h => by simp only [Node.adapt] at h; cases h; rfl
  | .readArg i l, t', _, h => by
    simp only [Node.adapt] at h
    simp only [Node.exec, act_adj, Act.adj, adjL]
    split at h
    · rename_i h1; cases h; rw [if_pos h1]; rfl
    · rename_i h1
      split at h <;> cases h
      rw [if_neg h1]; rfl
  | .readLoc i s l, t', ho, h => by
    simp only [Node.adapt] at h
    simp only [Node.okA] at ho
    simp only [Node.exec, act_adj, Act.adj]
    split at h
    · rename_i h1
      cases h
      rw [if_neg (by omega), adjL, if_pos h1]; rfl
    · rename_i h1
      split at h
      · rename_i h2
        subst h2
        obtain ⟨j, hj, h3⟩ := except_bind_ok h
        cases h3
        rw [if_pos rfl, adj_moved hn (by rw [hb]; exact ho) hj]; rfl
      · rename_i h2
        cases h
        rw [if_neg h2, adjL, if_neg h1]; rfl
  | .self l, t', _, h => by
    simp only [Node.adapt] at h
    obtain ⟨l', h1, h2⟩ := except_bind_ok h
    cases h2
    rw [adaptSelf_ok h1]; rfl
  | .writeArg i l e, t', ho, h => by
    simp only [Node.adapt] at h
    obtain ⟨e', h1, h2⟩ := except_bind_ok h
    have ih := Node.exec_adapt hn h1k hk hb e e' ho h1
    split at h2
    · rename_i h3
      cases h2
      simp only [Node.exec, ih, act_adj, Act.adj, adjL, if_pos h3]
    · rename_i h3
      split at h2 <;> cases h2
      simp only [Node.exec, ih, act_adj, Act.adj, adjL, if_neg h3]
  | .writeLoc i s l e, t', ho, h => by
    simp only [Node.adapt] at h
    obtain ⟨e', h1, h2⟩ := except_bind_ok h
    have ih := Node.exec_adapt hn h1k hk hb e e' ho.1 h1
    split at h2
    · rename_i h3
      cases h2
      simp only [Node.exec, ih, act_adj, Act.adj, adjL, if_pos h3, if_neg (show ¬ l = k by omega)]
    · rename_i h3
      split at h2
      · rename_i h4
        subst h4
        obtain ⟨j, hj, h5⟩ := except_bind_ok h2
        cases h5
        simp only [Node.exec, ih, act_adj, Act.adj, if_true, adj_moved hn (show ∃ ls, bchain[l]? = some ls ∧ ls[i]? = some s by rw [hb]; exact ho.2) hj]
      · rename_i h4
        cases h2
        simp only [Node.exec, ih, act_adj, Act.adj, adjL, if_neg h3, if_neg h4]
  | .fld i l, t', _, h => by
    simp only [Node.adapt] at h
    obtain ⟨l', h1, h2⟩ := except_bind_ok h
    cases h2
    rw [adaptSelf_ok h1]; rfl
  | .fldW i l e, t', ho, h => by
    simp only [Node.adapt] at h
    obtain ⟨e', h0, h3⟩ := except_bind_ok h
    obtain ⟨l', h1, h2⟩ := except_bind_ok h3
    cases h2
    have ih := Node.exec_adapt hn h1k hk hb e e' ho h0
    rw [adaptSelf_ok h1]
    simp only [Node.exec, ih, act_adj, Act.adj]
  | .fldInc i l, t', _, h => by
    simp only [Node.adapt] at h
    obtain ⟨l', h1, h2⟩ := except_bind_ok h
    cases h2
    rw [adaptSelf_ok h1]; rfl
  | .inc e, t', ho, h => by
    simp only [Node.adapt] at h
    obtain ⟨e', h1, h2⟩ := except_bind_ok h
    cases h2
    simp only [Node.exec, Node.exec_adapt hn h1k hk hb e e' ho h1]; rfl
  | .blk true m, t', ho, h => by
    simp only [Node.adapt] at h
    obtain ⟨m', h1, h2⟩ := except_bind_ok h
    cases h2
    simp only [Node.exec, AMeth.adapt_id h1]; rfl
  | .blk false m, t', ho, h => by simp only [Node.adapt] at h; cases h; rfl
  | .send sel r as, t', ho, h => by
    simp only [Node.adapt] at h
    obtain ⟨r', h1, h2⟩ := except_bind_ok h
    obtain ⟨as', h3, h4⟩ := except_bind_ok h2
    cases h4
    simp only [Node.exec, Node.exec_adapt hn h1k hk hb r r' ho.1 h1, Nodes.exec_adapt hn h1k hk hb as as' ho.2 h3]; rfl
  | .superSend sel r as, t', ho, h => by
    simp only [Node.adapt] at h
    obtain ⟨r', h1, h2⟩ := except_bind_ok h
    obtain ⟨as', h3, h4⟩ := except_bind_ok h2
    cases h4
    simp only [Node.exec, Node.exec_adapt hn h1k hk hb r r' ho.1 h1, Nodes.exec_adapt hn h1k hk hb as as' ho.2 h3]; rfl
  | .inl1 x r a, t', ho, h => by
    simp only [Node.adapt] at h
    obtain ⟨r', h1, h2⟩ := except_bind_ok h
    obtain ⟨a', h3, h4⟩ := except_bind_ok h2
    cases h4
    simp only [Node.exec, Node.exec_adapt hn h1k hk hb r r' ho.1 h1, Node.exec_adapt hn h1k hk hb a a' ho.2 h3]
  | .inl2 x r a b, t', ho, h => by
    simp only [Node.adapt] at h
    obtain ⟨r', h1, h2⟩ := except_bind_ok h
    obtain ⟨a', h3, h4⟩ := except_bind_ok h2
    obtain ⟨b', h5, h6⟩ := except_bind_ok h4
    cases h6
    simp only [Node.exec, Node.exec_adapt hn h1k hk hb r r' ho.1 h1, Node.exec_adapt hn h1k hk hb a a' ho.2.1 h3, Node.exec_adapt hn h1k hk hb b b' ho.2.2 h5]
  | .while x c b, t', ho, h => by
    simp only [Node.adapt] at h
    obtain ⟨r', h1, h2⟩ := except_bind_ok h
    obtain ⟨a', h3, h4⟩ := except_bind_ok h2
    cases h4
    simp only [Node.exec, Node.exec_adapt hn h1k hk hb c r' ho.1 h1, Node.exec_adapt hn h1k hk hb b a' ho.2 h3]
  | .seq es, t', ho, h => by
    simp only [Node.adapt] at h
    obtain ⟨es', h1, h2⟩ := except_bind_ok h
    cases h2
    simp only [Node.exec]
    exact Nodes.execSeq_adapt hn h1k hk hb es es' ho h1
  | .retNL l e, t', ho, h => by
    simp only [Node.adapt] at h
    obtain ⟨e', h1, h2⟩ := except_bind_ok h
    have hl := ho.1
    rw [if_neg (by omega), if_neg (by omega)] at h2
    cases h2
    simp only [Node.exec, Node.exec_adapt hn h1k hk hb e e' ho.2 h1, act_adj, Act.adj, adjL, if_pos (show l > k by omega)]
  | .retL e, t', ho, h => by
    have := ho.1
    omega
theorem Nodes.exec_adapt (hn : new.Nodup) (h1k : 1 ≤ k) (hk : k + 1 < chain.length) (hb : bchain[k]? = chain[k]?) : ∀ (es es' : Nodes), es.okA chain → es.adapt k new = .ok es' →
    ∀ (f : List Val → Src.Rel W E), es'.exec A U err f = es.exec (A.adj k bchain new) U err f
  | .nil, es', _, h, f => by simp only [Nodes.adapt] at h; cases h; rfl
  | .cons e es, es', ho, h, f => by
    simp only [Nodes.adapt] at h
    obtain ⟨e', h1, h2⟩ := except_bind_ok h
    obtain ⟨es1, h3, h4⟩ := except_bind_ok h2
    cases h4
    simp only [Nodes.exec, Node.exec_adapt hn h1k hk hb e e' ho.1 h1, Nodes.exec_adapt hn h1k hk hb es es1 ho.2 h3]
theorem Nodes.execSeq_adapt (hn : new.Nodup) (h1k : 1 ≤ k) (hk : k + 1 < chain.length) (hb : bchain[k]? = chain[k]?) : ∀ (es es' : Nodes), es.okA chain → es.adapt k new = .ok es' →
    es'.execSeq A U err = es.execSeq (A.adj k bchain new) U err
  | .nil, es', _, h => by simp only [Nodes.adapt] at h; cases h; rfl
  | .cons e .nil, es', ho, h => by
    simp only [Nodes.adapt] at h
    obtain ⟨e', h1, h2⟩ := except_bind_ok h
    obtain ⟨es1, h3, h4⟩ := except_bind_ok h2
    cases h3
    cases h4
    exact Node.exec_adapt hn h1k hk hb e e' ho.1 h1
  | .cons e (.cons f es), es', ho, h => by
    rw [Nodes.adapt] at h
    obtain ⟨e', h1, h2⟩ := except_bind_ok h
    obtain ⟨es1, h3, h4⟩ := except_bind_ok h2
    cases h4
    have ih := Nodes.execSeq_adapt hn h1k hk hb (.cons f es) es1 ho.2 h3
    have hne : es1 ≠ .nil := by
      rintro rfl
      simp only [Nodes.adapt] at h3
      obtain ⟨_, _, h5⟩ := except_bind_ok h3
      obtain ⟨_, _, h6⟩ := except_bind_ok h5
      cases h6
    rw [execSeq_cons hne, execSeq_cons (by intro h; cases h), Node.exec_adapt hn h1k hk hb e e' ho.1 h1, ih]
end
end

/-- The variables of the contexts before and after a context at level `k` was inlined into the next one. -/
structure Shift (k : Nat) (new : List Nat) (ch out : List (List Nat)) : Prop where
  len : ch.length = out.length + 1
  low : ∀ (l : Nat), l < k → out[l]? = ch[l]?
  here : out[k]? = some new
  next : ∀ ls, ch[k + 1]? = some ls → ls <+: new
  high : ∀ (l : Nat), l > k + 1 → out[l - 1]? = ch[l]?

theorem Shift.of (p : List (List Nat)) (ls env0 new : List Nat) (rest : List (List Nat)) (h : env0 <+: new) : Shift p.length new (p ++ ls :: env0 :: rest) (p ++ new :: rest) where
  len := by simp only [List.length_append, List.length_cons]; omega
  low l hl := by rw [List.getElem?_append_left hl, List.getElem?_append_left hl]
  here := by simp
  next x hx := by
    rw [List.getElem?_append_right (by omega), show p.length + 1 - p.length = 1 by omega] at hx
    cases hx; exact h
  high l hl := by
    rw [List.getElem?_append_right (by omega), List.getElem?_append_right (by omega)]
    obtain ⟨d, rfl⟩ : ∃ d, l = p.length + 2 + d := ⟨l - p.length - 2, by omega⟩
    rw [show p.length + 2 + d - 1 - p.length = d + 1 by omega, show p.length + 2 + d - p.length = d + 1 + 1 by omega]
    rfl

section
variable {k : Nat} {new : List Nat} {ch out : List (List Nat)}

theorem Shift.up (h : Shift k new ch out) {i s l : Nat} (hl : l > k) (hv : ∃ ls, ch[l]? = some ls ∧ ls[i]? = some s) : ∃ ls, out[l - 1]? = some ls ∧ ls[i]? = some s := by
  obtain ⟨ls, h1, h2⟩ := hv
  by_cases hx : l = k + 1
  · subst hx
    obtain ⟨t, rfl⟩ := h.next ls h1
    refine ⟨_, h.here, ?_⟩
    have hi : i < ls.length := by rw [List.getElem?_eq_some_iff] at h2; exact h2.1
    rw [List.getElem?_append_left hi]; exact h2
  · exact ⟨ls, (h.high l (by omega)).trans h1, h2⟩

theorem adaptSelf_last {l l' : Nat} (h : Shift k new ch out) (hk : k + 1 < ch.length) (hl : l + 1 = ch.length) (ha : adaptSelf k l = .ok l') : l' + 1 = out.length := by
  rw [adaptSelf_ok ha, adjL, if_pos (by omega)]
  have := h.len
  omega

mutual
theorem Node.okA_adapt (h : Shift k new ch out) (h1k : 1 ≤ k) (hk : k + 1 < ch.length) : ∀ (t t' : Node), t.okA ch → t.adapt k new = .ok t' → t'.okA out
  | .lit v, t', _, ha => by simp only [Node.adapt] at ha; cases ha; trivial
  | .globK n, t', ho, ha => by simp only [Node.adapt] at ha; cases ha; exact ho
  | .globU n l, t', ho, ha => by simp only [Node.adapt] at ha; cases ha; exact ho
  | .readArg i l, t', _, ha => by
    simp only [Node.adapt] at ha
    split at ha
    · cases ha; trivial
    · split at ha <;> cases ha
      trivial
  | .readLoc i s l, t', ho, ha => by
    simp only [Node.adapt] at ha
    simp only [Node.okA] at ho
    split at ha
    · cases ha; exact h.up ‹_› ho
    · split at ha
      · rename_i h2
        subst h2
        obtain ⟨j, hj, h3⟩ := except_bind_ok ha
        cases h3
        exact ⟨new, h.here, firstIdx_spec hj⟩
      · cases ha
        obtain ⟨ls, h1, h2⟩ := ho
        exact ⟨ls, (h.low l (by omega)).trans h1, h2⟩
  | .self l, t', _, ha => by
    simp only [Node.adapt] at ha
    obtain ⟨l', h1, h2⟩ := except_bind_ok ha
    cases h2; trivial
  | .writeArg i l e, t', ho, ha => by
    simp only [Node.adapt] at ha
    obtain ⟨e', h1, h2⟩ := except_bind_ok ha
    have ih := Node.okA_adapt h h1k hk e e' ho h1
    split at h2
    · cases h2; exact ih
    · split at h2 <;> cases h2
      exact ih
  | .writeLoc i s l e, t', ho, ha => by
    simp only [Node.adapt] at ha
    obtain ⟨e', h1, h2⟩ := except_bind_ok ha
    have ih := Node.okA_adapt h h1k hk e e' ho.1 h1
    split at h2
    · cases h2; exact ⟨ih, h.up ‹_› ho.2⟩
    · split at h2
      · rename_i h4
        subst h4
        obtain ⟨j, hj, h5⟩ := except_bind_ok h2
        cases h5
        exact ⟨ih, new, h.here, firstIdx_spec hj⟩
      · cases h2
        obtain ⟨_, ls, h1, h2⟩ := ho
        exact ⟨ih, ls, (h.low l (by omega)).trans h1, h2⟩
  | .fld i l, t', ho, ha => by
    simp only [Node.adapt] at ha
    obtain ⟨l', h1, h2⟩ := except_bind_ok ha
    cases h2
    exact adaptSelf_last h hk ho h1
  | .fldW i l e, t', ho, ha => by
    simp only [Node.adapt] at ha
    obtain ⟨e', h0, h3⟩ := except_bind_ok ha
    obtain ⟨l', h1, h2⟩ := except_bind_ok h3
    cases h2
    exact Node.okA_adapt h h1k hk e e' ho h0
  | .fldInc i l, t', _, ha => by
    simp only [Node.adapt] at ha
    obtain ⟨l', h1, h2⟩ := except_bind_ok ha
    cases h2; trivial
  | .inc e, t', ho, ha => by
    simp only [Node.adapt] at ha
    obtain ⟨e', h1, h2⟩ := except_bind_ok ha
    cases h2
    exact Node.okA_adapt h h1k hk e e' ho h1
  | .blk true m, t', ho, ha => by
    simp only [Node.adapt] at ha
    obtain ⟨m', h1, h2⟩ := except_bind_ok ha
    cases h2; trivial
  | .blk false m, t', ho, ha => by simp only [Node.adapt] at ha; cases ha; trivial
  | .send sel r as, t', ho, ha => by
    simp only [Node.adapt] at ha
    obtain ⟨r', h1, h2⟩ := except_bind_ok ha
    obtain ⟨as', h3, h4⟩ := except_bind_ok h2
    cases h4
    exact ⟨Node.okA_adapt h h1k hk r r' ho.1 h1, Nodes.okA_adapt h h1k hk as as' ho.2 h3⟩
  | .superSend sel r as, t', ho, ha => by
    simp only [Node.adapt] at ha
    obtain ⟨r', h1, h2⟩ := except_bind_ok ha
    obtain ⟨as', h3, h4⟩ := except_bind_ok h2
    cases h4
    exact ⟨Node.okA_adapt h h1k hk r r' ho.1 h1, Nodes.okA_adapt h h1k hk as as' ho.2 h3⟩
  | .inl1 x r a, t', ho, ha => by
    simp only [Node.adapt] at ha
    obtain ⟨r', h1, h2⟩ := except_bind_ok ha
    obtain ⟨a', h3, h4⟩ := except_bind_ok h2
    cases h4
    exact ⟨Node.okA_adapt h h1k hk r r' ho.1 h1, Node.okA_adapt h h1k hk a a' ho.2 h3⟩
  | .inl2 x r a b, t', ho, ha => by
    simp only [Node.adapt] at ha
    obtain ⟨r', h1, h2⟩ := except_bind_ok ha
    obtain ⟨a', h3, h4⟩ := except_bind_ok h2
    obtain ⟨b', h5, h6⟩ := except_bind_ok h4
    cases h6
    exact ⟨Node.okA_adapt h h1k hk r r' ho.1 h1, Node.okA_adapt h h1k hk a a' ho.2.1 h3, Node.okA_adapt h h1k hk b b' ho.2.2 h5⟩
  | .while x c b, t', ho, ha => by
    simp only [Node.adapt] at ha
    obtain ⟨r', h1, h2⟩ := except_bind_ok ha
    obtain ⟨a', h3, h4⟩ := except_bind_ok h2
    cases h4
    exact ⟨Node.okA_adapt h h1k hk c r' ho.1 h1, Node.okA_adapt h h1k hk b a' ho.2 h3⟩
  | .seq es, t', ho, ha => by
    simp only [Node.adapt] at ha
    obtain ⟨es', h1, h2⟩ := except_bind_ok ha
    cases h2
    exact Nodes.okA_adapt h h1k hk es es' ho h1
  | .retNL l e, t', ho, ha => by
    simp only [Node.adapt] at ha
    obtain ⟨e', h1, h2⟩ := except_bind_ok ha
    have hl := ho.1
    have := h.len
    rw [if_neg (by omega), if_neg (by omega)] at h2
    cases h2
    exact ⟨by omega, Node.okA_adapt h h1k hk e e' ho.2 h1⟩
  | .retL e, t', ho, ha => by
    have := ho.1
    omega
theorem Nodes.okA_adapt (h : Shift k new ch out) (h1k : 1 ≤ k) (hk : k + 1 < ch.length) : ∀ (es es' : Nodes), es.okA ch → es.adapt k new = .ok es' → es'.okA out
  | .nil, es', _, ha => by simp only [Nodes.adapt] at ha; cases ha; trivial
  | .cons e es, es', ho, ha => by
    simp only [Nodes.adapt] at ha
    obtain ⟨e', h1, h2⟩ := except_bind_ok ha
    obtain ⟨es1, h3, h4⟩ := except_bind_ok h2
    cases h4
    exact ⟨Node.okA_adapt h h1k hk e e' ho.1 h1, Nodes.okA_adapt h h1k hk es es1 ho.2 h3⟩
end
end

/-- Blocks in contexts with the variables `chain`. -/
def AMeth.okA (chain : List (List Nat)) : AMeth → Prop
  | .ast _ _ locals body => body.okA (locals :: chain)
  | .triv _ _ => True

/-- An adapted block does in the world outside what the block does in its own. -/
theorem AMeth.run_adapt {k : Nat} {chain bchain : List (List Nat)} {new : List Nat} {m m' : AMeth} (hn : new.Nodup) (h1k : 1 ≤ k) (hk : k < chain.length)
    (hb : (bchain[k]? : Option (List Nat)) = (m.locals :: chain)[k]?) (ho : m.okA chain) (h : m.adapt k new = .ok m') (A : World Nat W E) (U : Sel → Nat → Src.Rel W E) (err : Err → E) :
    m'.run A U err = m.run (A.adj k bchain new) U err := by
  cases m with
  | triv id t => simp only [AMeth.adapt] at h; cases h
  | ast id args locals body =>
    simp only [AMeth.adapt] at h
    obtain ⟨b', h1, h2⟩ := except_bind_ok h
    cases h2
    simp only [AMeth.run]
    rw [Node.exec_adapt hn h1k (chain := locals :: chain) (by simp only [List.length_cons]; omega) hb body b' ho h1]

/-! ## The world -/

/-- The variable outside. -/
def Tgt.adj (k : Nat) (chain : List (List Nat)) (new : List Nat) : Tgt → Tgt
  | .var n true i l => .var n true i (adjL k l)
  | .var n false i l => if l = k then .var n false (adjI chain new i l) l else .var n false i (adjL k l)
  | .fld n i => .fld n i

theorem store_adj (A : World Nat W E) (k : Nat) (chain : List (List Nat)) (new : List Nat) (lvl : Nat) (v : Val) (t : Tgt) :
    Src.store (A.adj k chain new) lvl v t = Src.store A (adjL k lvl) v (t.adj k chain new) := by
  rcases t with ⟨n, _ | _, i, l⟩ | ⟨n, i⟩
  · simp only [Src.store, act_adj, Act.adj, Tgt.adj]
    by_cases h : l = k
    · rw [if_pos h, if_pos h]
    · rw [if_neg h, if_neg h]
  · rfl
  · rfl

theorem Std.adj {I D F C N : Prop} {A : World Nat W E} {U : Sel → Nat → Src.Rel W E} (h : ∀ l, Std I D F C N A U l) {k : Nat} (hk : 1 ≤ k) (chain : List (List Nat)) (new : List Nat) (lvl : Nat) :
    Std I D F C N (A.adj k chain new) U lvl where
  glob n hn := (h lvl).glob n hn
  inc hI v := (h lvl).inc hI v
  dec hD v := (h lvl).dec hD v
  fuse hF i l := (h lvl).fuse hF i (adjL k l)
  comm hC v t u := by
    rw [store_adj, store_adj]
    exact (h (adjL k lvl)).comm hC v _ _
  nlr hN := by
    rcases (h (adjL k lvl)).nlr hN with h0 | h0
    · refine .inl ?_
      unfold adjL at h0
      split at h0 <;> omega
    · exact .inr h0
end
end PySOM.BC

import Verif.Lemmas.AstTwin
import Verif.Lemmas.Program
/-!
# Code without returns from blocks

If the source of a method has no `^` in a block, then its code and the blocks in it have no non-local return.
-/
set_option autoImplicit false
namespace PySOM.BC
open PySOM

mutual
/-- There is a non-local return in a block or in a block in it. -/
def Meth.nl : Meth → Bool
  | .bc _ _ _ _ _ _ _ code => code.nl
  | .triv _ _ => false
def SC.nl : SC Meth → Bool
  | .nop => false
  | .ins i => i.nl
  | .seq a b => a.nl || b.nl
  | .thenB _ b => b.nl
  | .ifElse _ a b => a.nl || b.nl
  | .loop _ a b => a.nl || b.nl
def Ins.nl : Ins Meth → Bool
  | .pushBlock _ m => m.nl
  | .retNonLocal _ => true
  | _ => false
end

/-- No instruction and no block created returns non-locally. -/
def Mute (c : SC Meth) : Prop := ∀ i ∈ c.instrs, i.nl = false

theorem mute_iff : ∀ c : SC Meth, Mute c ↔ c.nl = false
  | .nop => ⟨fun _ => by simp only [SC.nl], fun _ i hi => nomatch hi⟩
  | .ins i => ⟨fun h => by simpa only [SC.nl] using h i (List.mem_singleton.mpr rfl), fun h j hj => by rw [List.mem_singleton.mp hj]; simpa only [SC.nl] using h⟩
  | .seq a b => by
    simp only [SC.nl, Bool.or_eq_false_iff, ← mute_iff a, ← mute_iff b, Mute, SC.instrs, List.mem_append]
    exact ⟨fun h => ⟨fun i hi => h i (.inl hi), fun i hi => h i (.inr hi)⟩, fun h i hi => hi.elim (h.1 i) (h.2 i)⟩
  | .thenB _ b => by simpa only [SC.nl, Mute, SC.instrs] using mute_iff b
  | .ifElse _ a b => by
    simp only [SC.nl, Bool.or_eq_false_iff, ← mute_iff a, ← mute_iff b, Mute, SC.instrs, List.mem_append]
    exact ⟨fun h => ⟨fun i hi => h i (.inl hi), fun i hi => h i (.inr hi)⟩, fun h i hi => hi.elim (h.1 i) (h.2 i)⟩
  | .loop _ a b => by
    simp only [SC.nl, Bool.or_eq_false_iff, ← mute_iff a, ← mute_iff b, Mute, SC.instrs, List.mem_append]
    exact ⟨fun h => ⟨fun i hi => h i (.inl hi), fun i hi => h i (.inr hi)⟩, fun h i hi => hi.elim (h.1 i) (h.2 i)⟩

theorem Mute.nop : Mute .nop := fun _ h => nomatch h
theorem Mute.ins {i : Ins Meth} (h : i.nl = false) : Mute (.ins i) := fun j hj => by rw [List.mem_singleton.mp hj]; exact h
theorem Mute.seq {a b : SC Meth} (ha : Mute a) (hb : Mute b) : Mute (.seq a b) := fun i hi => (List.mem_append.mp hi).elim (ha i) (hb i)
theorem Mute.ifElse {k : JCond} {a b : SC Meth} (ha : Mute a) (hb : Mute b) : Mute (.ifElse k a b) := fun i hi => (List.mem_append.mp hi).elim (ha i) (hb i)
theorem Mute.loop {k : JCond} {a b : SC Meth} (ha : Mute a) (hb : Mute b) : Mute (.loop k a b) := fun i hi => (List.mem_append.mp hi).elim (ha i) (hb i)
theorem Mute.thenB {k : JCond} {b : SC Meth} (hb : Mute b) : Mute (.thenB k b) := hb

theorem stub_nl (m : Meth) : m.stub.nl = false := by rw [Meth.stub, Meth.nl]

theorem adaptIns_nl {sub : Meth → Except Err Meth} {k : Nat} {chain : List (List Nat)} {new : List Nat} (hsub : ∀ m m', m.nl = false → sub m = .ok m' → m'.nl = false) (i : Ins Meth)
    (h : i.nl = false) : (adaptIns sub k chain new i).nl = false := by
  cases i with
  | pushVar a i l =>
    cases a
    · simp only [adaptIns]; split <;> simp only [Ins.nl]
    · simp only [adaptIns, Ins.nl]
  | popVar a i l =>
    cases a
    · simp only [adaptIns]; split <;> simp only [Ins.nl]
    · simp only [adaptIns, Ins.nl]
  | pushBlock c m =>
    cases c
    · exact h
    · simp only [adaptIns, Ins.nl] at h ⊢
      cases hs : sub m with
      | error e => exact stub_nl m
      | ok m' => exact hsub m m' h hs
  | retNonLocal l => simp only [Ins.nl] at h; cases h
  | _ => simp only [adaptIns, Ins.nl]

theorem adapt_nl : ∀ (n k : Nat) (outer : List (List Nat)) (new : List Nat) (m m' : Meth), m.nl = false → adapt n k outer new m = .ok m' → m'.nl = false
  | 0, _, _, _, _, _, _, h => by simp only [adapt] at h; cases h
  | n + 1, k, outer, new, .triv _ _, _, _, h => by simp only [adapt] at h; cases h
  | n + 1, k, outer, new, .bc id lits bytes loops args locals stack code, m', hm, h => by
    simp only [adapt] at h
    obtain ⟨⟨bs', l'⟩, _, h⟩ := except_bind_ok h
    cases h
    simp only [Meth.nl] at hm ⊢
    rw [← mute_iff] at hm ⊢
    intro j hj
    obtain ⟨i, hi, hj⟩ := mem_subst code hj
    rw [List.mem_singleton.mp hj]
    exact adaptIns_nl (fun m m' h1 h2 => adapt_nl n _ _ _ m m' h1 h2) i (hm i hi)

theorem globIns_nl (s : Sel) : (globIns s : Ins Meth).nl = false := by
  unfold globIns; repeat' split
  all_goals simp only [Ins.nl]

theorem inlIns_mute {n lvl : Nat} {outer : List (List Nat)} {new env locals : List Nat} {i : Ins Meth} (h : i.nl = false) : Mute (inlIns (adapt n 1 outer new) lvl env locals i) := by
  cases i with
  | pushVar a i l => cases a <;> cases l <;> exact .ins (by simp only [Ins.nl])
  | popVar a i l => cases a <;> cases l <;> exact .ins (by simp only [Ins.nl])
  | pushBlock c m =>
    cases c
    · exact .ins h
    · simp only [inlIns]
      cases ha : adapt n 1 outer new m with
      | error e => exact .ins (by simp only [Ins.nl])
      | ok m' =>
        refine .ins ?_
        simp only [Ins.nl] at h ⊢
        exact adapt_nl n 1 outer new m m' h ha
  | pushGlobal s => exact .ins (globIns_nl s)
  | retLocal => exact .nop
  | retNonLocal l => simp only [Ins.nl] at h; cases h
  | _ => exact .ins (by simp only [Ins.nl])

theorem inlCode_mute {n lvl : Nat} {m : Meth} {env : List Nat} (h : m.nl = false) : Mute (inlCode n m lvl env) := by
  cases m with
  | bc id lits bytes loops args locals stack code =>
    simp only [inlCode]
    split
    · simp only [Meth.nl] at h
      rw [← mute_iff] at h
      intro j hj
      obtain ⟨i, hi, hj⟩ := mem_subst code hj
      exact inlIns_mute (h i hi) j hj
    · exact .ins (by simp only [Ins.nl])
  | triv id t =>
    cases t with
    | lit l => cases l <;> first | exact .nop | exact .ins (by simp only [Ins.nl])
    | glob s k => exact .ins (globIns_nl s)
    | fldRead i l => exact .ins (by simp only [Ins.nl])
    | fldWrite i l => exact .nop

/-! ## Expressions -/

/-- No block has a non-local return. -/
def MuteBlks (bs : List (Bool × Meth)) : Prop := ∀ c m, (c, m) ∈ bs → m.nl = false

theorem MuteBlks.append {a b : List (Bool × Meth)} (h : MuteBlks (a ++ b)) : MuteBlks a ∧ MuteBlks b :=
  ⟨fun c m hm => h c m (List.mem_append_left _ hm), fun c m hm => h c m (List.mem_append_right _ hm)⟩

mutual
theorem lit_mute : ∀ l : LitT, Mute (litSC l)
  | .val v => by rw [litSC]; exact .ins (by simp only [Ins.nl])
  | .arr es => by
    rw [litSC]
    exact .seq (.ins (by simp only [Ins.nl])) (.seq (.ins (by simp only [Ins.nl])) (.seq (.ins (by simp only [Ins.nl])) (lits_mute es 1)))
theorem lits_mute : ∀ (es : LitTs) (i : Nat), Mute (litsSC es i)
  | .nil, _ => by rw [litsSC]; exact .nop
  | .cons e es, i => by
    rw [litsSC]
    exact .seq (.seq (.ins (by simp only [Ins.nl])) (.seq (lit_mute e) (.ins (by simp only [Ins.nl])))) (lits_mute es (i + 1))
end

theorem popIns_nl (lvl : Nat) (t : Tgt) : (t.popIns lvl : Ins Meth).nl = false := by cases t <;> simp only [Tgt.popIns, Ins.nl]

theorem dups_mute : ∀ k, Mute (dupsSC k)
  | 0 => .nop
  | k + 1 => .seq (.ins (by simp only [Ins.nl])) (dups_mute k)

theorem pops_mute (lvl : Nat) : ∀ ts : List Tgt, Mute (popsSC lvl ts)
  | [] => .nop
  | t :: ts => .seq (.ins (popIns_nl lvl t)) (pops_mute lvl ts)

theorem genAsg_mute {lvl : Nat} {t : Tgt} {ts : List Tgt} {e : Ex Meth} {ce : Gen Meth (List Nat)} (h : Mute ce.1) : Mute (genAsg lvl t ts e ce).1 := by
  unfold genAsg
  split
  · exact .ins (by simp only [Ins.nl])
  · exact .seq h (.seq (dups_mute _) (pops_mute _ _))

mutual
theorem genEx_mute (n lvl : Nat) : ∀ (e : Ex Meth) (st : Bool × List Nat), MuteBlks e.blks → Mute (genEx (inliner n) lvl e st).1
  | .lit l, st, _ => by simp only [genEx]; exact lit_mute l
  | .glob s, st, _ => by simp only [genEx]; exact .ins (globIns_nl s)
  | .var a i l, st, _ => by simp only [genEx]; exact .ins (by simp only [Ins.nl])
  | .fld _ i, st, _ => by simp only [genEx]; exact .ins (by simp only [Ins.nl])
  | .blk c m, st, hb => by simp only [genEx, Ex.blks] at hb ⊢; exact .ins (by simp only [Ins.nl]; exact hb c m (List.mem_singleton.mpr rfl))
  | .asg t ts e, st, hb => by simp only [genEx, Ex.blks] at hb ⊢; exact genAsg_mute (genEx_mute n lvl e st hb)
  | .inc e, st, hb => by simp only [genEx, Ex.blks] at hb ⊢; exact .seq (genEx_mute n lvl e st hb) (.ins (by simp only [Ins.nl]))
  | .dec e, st, hb => by simp only [genEx, Ex.blks] at hb ⊢; exact .seq (genEx_mute n lvl e st hb) (.ins (by simp only [Ins.nl]))
  | .superSend sel r as, st, hb => by
    simp only [genEx, Ex.blks] at hb ⊢
    exact .seq (genEx_mute n lvl r st hb.append.1) (.seq (genExs_mute n lvl as _ hb.append.2) (.ins (by simp only [Ins.nl])))
  | .send sel r as, st, hb => by
    simp only [genEx, Ex.blks] at hb ⊢
    have h1 := genEx_mute n lvl r st hb.append.1
    have h2 := genExs_mute n lvl as (genEx (inliner n) lvl r st).2 hb.append.2
    cases hin : inlined? sel r as with
    | none => exact .seq h1 (.seq h2 (.ins (by simp only [Ins.nl])))
    | some x =>
      unfold inlined? at hin
      split at hin <;> cases hin
      · simp only [Exs.blks, Ex.blks, List.append_nil] at hb
        exact .seq h1 (.thenB (inlCode_mute (hb.append.2 _ _ (List.mem_singleton.mpr rfl))))
      · simp only [Exs.blks, Ex.blks, List.append_nil] at hb
        exact .seq h1 (.ifElse (inlCode_mute (hb.append.2.append.1 _ _ (List.mem_singleton.mpr rfl))) (inlCode_mute (hb.append.2.append.2 _ _ (List.mem_singleton.mpr rfl))))
      · simp only [Exs.blks, Ex.blks, List.append_nil] at hb
        exact .seq (.loop (inlCode_mute (hb.append.1 _ _ (List.mem_singleton.mpr rfl)))
          (.seq (inlCode_mute (hb.append.2 _ _ (List.mem_singleton.mpr rfl))) (.ins (by simp only [Ins.nl])))) (.ins (by simp only [Ins.nl]))
      · simp only [Exs.blks, Ex.blks, List.append_nil] at hb
        exact .seq h1 (.ifElse (inlCode_mute (hb.append.2 _ _ (List.mem_singleton.mpr rfl))) (.ins (by simp only [Ins.nl])))
theorem genExs_mute (n lvl : Nat) : ∀ (es : Exs Meth) (st : Bool × List Nat), MuteBlks es.blks → Mute (genExs (inliner n) lvl es st).1
  | .nil, st, _ => by simp only [genExs]; exact .nop
  | .cons e es, st, hb => by
    simp only [genExs, Exs.blks] at hb ⊢
    exact .seq (genEx_mute n lvl e st hb.append.1) (genExs_mute n lvl es _ hb.append.2)
end

theorem genAsgEff_mute {lvl : Nat} {t : Tgt} {e : Ex Meth} {ce : Gen Meth (List Nat)} (h : Mute ce.1) : Mute (genAsgEff lvl t e ce) := by
  unfold genAsgEff
  split
  · exact .ins (by simp only [Ins.nl])
  · exact .seq h (.ins (popIns_nl lvl t))

theorem effOnly_mute {n lvl : Nat} {e : Ex Meth} {st : Bool × List Nat} {c : SC Meth} (hb : MuteBlks e.blks) (h : effOnly (inliner n) lvl e st = some c) : Mute c := by
  unfold effOnly at h
  split at h
  · split at h
    · cases h
      simp only [Ex.blks] at hb
      exact genAsgEff_mute (genEx_mute n lvl _ st hb)
    · cases h
  · cases h

theorem genStmt_mute {n lvl : Nat} {e : Ex Meth} {st : Bool × List Nat} (hb : MuteBlks e.blks) : Mute (genStmt (inliner n) lvl e st).1 := by
  unfold genStmt
  dsimp only
  split
  · rename_i c hc; exact effOnly_mute hb hc
  · exact .seq (genEx_mute n lvl e st hb) (.ins (by simp only [Ins.nl]))

/-- The body ends with `^`. -/
def Body.exits {M : Type} : Body M → Bool
  | .exit _ => true
  | .stmt _ r => r.exits
  | _ => false

theorem genBody_mute (n : Nat) (isBlock : Bool) (lvl : Nat) : ∀ (b : Body Meth) (st : Bool × List Nat), MuteBlks b.blks → (isBlock = true → b.exits = false) →
    Mute (genBody (inliner n) isBlock lvl b st)
  | .done, st, _, _ => by
    simp only [genBody]
    split
    · exact .seq (.ins (by simp only [Ins.nl])) (.ins (by simp only [Ins.nl]))
    · exact .ins (by simp only [Ins.nl])
  | .exitSelf, st, _, _ => by simp only [genBody]; exact .ins (by simp only [Ins.nl])
  | .last e, st, hb, _ => by
    simp only [genBody, Body.blks] at hb ⊢
    split
    · exact .seq (genEx_mute n lvl e st hb) (.ins (by simp only [Ins.nl]))
    · refine .seq ?_ (.ins (by simp only [Ins.nl]))
      split
      · rename_i c hc; exact effOnly_mute hb hc
      · exact genEx_mute n lvl e st hb
  | .exit e, st, hb, hx => by
    simp only [genBody, Body.blks] at hb ⊢
    split
    · rename_i h; exact absurd (hx h) (by simp [Body.exits])
    · unfold genReturn
      split
      · split
        · exact .ins (by simp only [Ins.nl])
        · exact .seq (genEx_mute n lvl _ st hb) (.ins (by simp only [Ins.nl]))
      · exact .seq (genEx_mute n lvl _ st hb) (.ins (by simp only [Ins.nl]))
  | .stmt e rest, st, hb, hx => by
    simp only [Body.blks] at hb
    by_cases hr : rest = .done
    · subst hr
      simp only [genBody]
      split
      · exact .seq (genEx_mute n lvl e st hb.append.1) (.ins (by simp only [Ins.nl]))
      · exact .seq (genStmt_mute hb.append.1) (.ins (by simp only [Ins.nl]))
    · have hgb : genBody (inliner n) isBlock lvl (.stmt e rest) st =
          .seq (genStmt (inliner n) lvl e st).1 (genBody (inliner n) isBlock lvl rest (genStmt (inliner n) lvl e st).2) := by
        cases rest with
        | done => exact absurd rfl hr
        | _ => simp only [genBody]
      rw [hgb]
      exact .seq (genStmt_mute hb.append.1) (genBody_mute n isBlock lvl rest _ hb.append.2 fun h => by have := hx h; rwa [Body.exits] at this)

/-! ## Blocks of the source -/

section
variable {known : Sel → Bool} {n : Nat}

theorem muteBlks_append {a b : List (Bool × Meth)} (ha : MuteBlks a) (hb : MuteBlks b) : MuteBlks (a ++ b) := fun c m hm => (List.mem_append.mp hm).elim (ha c m) (hb c m)
theorem muteBlks_nil : MuteBlks [] := fun _ _ h => nomatch h

mutual
theorem Ex.build_mute : ∀ (lvl : Nat) (e : Ex SBlock) (e' : Ex Meth), e.Wf → e.sids.Nodup → e.throws = false → e.build known n lvl = .ok e' → MuteBlks e'.blks
  | lvl, .lit l, _, hw, hi, ht, h => by simp only [Ex.build] at h; cases h; simp only [Ex.blks]; exact muteBlks_nil
  | lvl, .glob s, _, hw, hi, ht, h => by simp only [Ex.build] at h; cases h; simp only [Ex.blks]; exact muteBlks_nil
  | lvl, .var a i l, _, hw, hi, ht, h => by simp only [Ex.build] at h; cases h; simp only [Ex.blks]; exact muteBlks_nil
  | lvl, .fld s i, _, hw, hi, ht, h => by simp only [Ex.build] at h; cases h; simp only [Ex.blks]; exact muteBlks_nil
  | lvl, .blk c s, _, hw, hi, ht, h => by
    simp only [Ex.build] at h
    obtain ⟨m, h1, h⟩ := except_bind_ok h
    cases h
    simp only [Ex.Wf, Ex.sids, Ex.throws, Ex.blks] at hw hi ht ⊢
    intro c' m' hm
    cases List.mem_singleton.mp hm
    exact SBlock.compile_mute lvl s m hw hi ht h1
  | lvl, .asg t ts e, _, hw, hi, ht, h => by
    simp only [Ex.build] at h
    obtain ⟨e1, h1, h⟩ := except_bind_ok h
    cases h
    simp only [Ex.Wf, Ex.sids, Ex.throws, Ex.blks] at hw hi ht ⊢
    exact Ex.build_mute lvl e e1 hw hi ht h1
  | lvl, .inc e, _, hw, hi, ht, h => by
    simp only [Ex.build] at h
    obtain ⟨e1, h1, h⟩ := except_bind_ok h
    cases h
    simp only [Ex.Wf, Ex.sids, Ex.throws, Ex.blks] at hw hi ht ⊢
    exact Ex.build_mute lvl e e1 hw hi ht h1
  | lvl, .dec e, _, hw, hi, ht, h => by
    simp only [Ex.build] at h
    obtain ⟨e1, h1, h⟩ := except_bind_ok h
    cases h
    simp only [Ex.Wf, Ex.sids, Ex.throws, Ex.blks] at hw hi ht ⊢
    exact Ex.build_mute lvl e e1 hw hi ht h1
  | lvl, .send sel r as, _, hw, hi, ht, h => by
    simp only [Ex.build] at h
    obtain ⟨r1, h1, h⟩ := except_bind_ok h
    obtain ⟨as1, h2, h⟩ := except_bind_ok h
    cases h
    simp only [Ex.Wf, Ex.sids, Ex.throws, Ex.blks, Bool.or_eq_false_iff] at hw hi ht ⊢
    rw [List.nodup_append] at hi
    exact muteBlks_append (Ex.build_mute lvl r r1 hw.1 hi.1 ht.1 h1) (Exs.build_mute lvl as as1 hw.2.1 hi.2.1 ht.2 h2)
  | lvl, .superSend sel r as, _, hw, hi, ht, h => by
    simp only [Ex.build] at h
    obtain ⟨r1, h1, h⟩ := except_bind_ok h
    obtain ⟨as1, h2, h⟩ := except_bind_ok h
    cases h
    simp only [Ex.Wf, Ex.sids, Ex.throws, Ex.blks, Bool.or_eq_false_iff] at hw hi ht ⊢
    rw [List.nodup_append] at hi
    exact muteBlks_append (Ex.build_mute lvl r r1 hw.1 hi.1 ht.1 h1) (Exs.build_mute lvl as as1 hw.2.1 hi.2.1 ht.2 h2)
theorem Exs.build_mute : ∀ (lvl : Nat) (es : Exs SBlock) (es' : Exs Meth), es.Wf → es.sids.Nodup → es.throws = false → es.build known n lvl = .ok es' → MuteBlks es'.blks
  | lvl, .nil, _, hw, hi, ht, h => by simp only [Exs.build] at h; cases h; simp only [Exs.blks]; exact muteBlks_nil
  | lvl, .cons e es, _, hw, hi, ht, h => by
    simp only [Exs.build] at h
    obtain ⟨e1, h1, h⟩ := except_bind_ok h
    obtain ⟨es1, h2, h⟩ := except_bind_ok h
    cases h
    simp only [Exs.Wf, Exs.sids, Exs.throws, Exs.blks, Bool.or_eq_false_iff] at hw hi ht ⊢
    rw [List.nodup_append] at hi
    exact muteBlks_append (Ex.build_mute lvl e e1 hw.1 hi.1 ht.1 h1) (Exs.build_mute lvl es es1 hw.2 hi.2.1 ht.2 h2)
theorem Body.build_mute : ∀ (isBlock : Bool) (lvl : Nat) (b : Body SBlock) (b' : Body Meth), b.Wf → b.sids.Nodup → b.throws isBlock = false → b.build known n lvl = .ok b' →
    MuteBlks b'.blks ∧ (isBlock = true → b'.exits = false)
  | isBlock, lvl, .done, _, hw, hi, ht, h => by simp only [Body.build] at h; cases h; simp only [Body.blks]; exact ⟨muteBlks_nil, fun _ => rfl⟩
  | isBlock, lvl, .exitSelf, _, hw, hi, ht, h => by simp only [Body.build] at h; cases h; simp only [Body.blks]; exact ⟨muteBlks_nil, fun _ => rfl⟩
  | isBlock, lvl, .last e, _, hw, hi, ht, h => by
    simp only [Body.build] at h
    obtain ⟨e1, h1, h⟩ := except_bind_ok h
    cases h
    simp only [Body.Wf, Body.sids, Body.throws, Body.blks] at hw hi ht ⊢
    exact ⟨Ex.build_mute lvl e e1 hw hi ht h1, fun _ => rfl⟩
  | isBlock, lvl, .exit e, _, hw, hi, ht, h => by
    simp only [Body.build] at h
    obtain ⟨e1, h1, h⟩ := except_bind_ok h
    cases h
    simp only [Body.Wf, Body.sids, Body.throws, Body.blks, Bool.or_eq_false_iff] at hw hi ht ⊢
    exact ⟨Ex.build_mute lvl e e1 hw hi ht.2 h1, fun hb => absurd hb (by rw [ht.1]; decide)⟩
  | isBlock, lvl, .stmt e r, _, hw, hi, ht, h => by
    simp only [Body.build] at h
    obtain ⟨e1, h1, h⟩ := except_bind_ok h
    obtain ⟨r1, h2, h⟩ := except_bind_ok h
    cases h
    simp only [Body.Wf, Body.sids, Body.throws, Body.blks, Bool.or_eq_false_iff] at hw hi ht ⊢
    rw [List.nodup_append] at hi
    have hr := Body.build_mute isBlock lvl r r1 hw.2 hi.2.1 ht.2 h2
    exact ⟨muteBlks_append (Ex.build_mute lvl e e1 hw.1 hi.1 ht.1 h1) hr.1, fun hb => by rw [Body.exits]; exact hr.2 hb⟩
theorem SBlock.compile_mute : ∀ (lvl : Nat) (s : SBlock) (m : Meth), s.Wf → s.sids.Nodup → s.throws = false → s.compile known n lvl = .ok m → m.nl = false
  | lvl, .mk id args env b, m, hw, hi, ht, h => by
    simp only [SBlock.compile] at h
    obtain ⟨b1, h1, h⟩ := except_bind_ok h
    simp only [SBlock.Wf, SBlock.sids, List.nodup_cons, SBlock.throws] at hw hi ht
    have hb := Body.build_ok known n (lvl + 1) b b1 hw.1 hi.2 h1
    have hf := Body.build_fits known n true (lvl + 1) b b1 h1 hw.2
    have hok : BlksOK (lvl + 1) b1.blks := ⟨fun c m hm => (hb.blocks c m hm).good, fun m hm => (hb.closed m hm).sound _ (hb.blocks _ m hm).good.1⟩
    have hm := Body.build_mute true (lvl + 1) b b1 hw.1 hi.2 ht h1
    rcases compileBlock_cases hb.wf hf hok h with ⟨t, ht, rfl⟩ | ⟨g, C, _, _, rfl⟩
    · rw [Meth.nl]
    · rw [Meth.nl, ← mute_iff]
      exact genBody_mute n true (lvl + 1) b1 (false, env) hm.1 hm.2
end

end
end PySOM.BC

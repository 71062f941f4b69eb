import Verif.Lemmas.Compiled
/-!
# Blocks that refer to nothing outside compile to closed blocks
-/
set_option autoImplicit false
namespace PySOM.BC
open PySOM

/-- An instruction of a closed block. -/
def Still : Ins Meth → Prop
  | .pushFld _ _ => False
  | .retNonLocal _ => False
  | .pushBlock true m => Closed m
  | _ => True

/-- Code of a closed block. -/
def AllStill (c : SC Meth) : Prop := ∀ i ∈ c.instrs, Still i

theorem AllStill.seq {a b : SC Meth} (ha : AllStill a) (hb : AllStill b) : AllStill (.seq a b) := fun i hi => (List.mem_append.mp hi).elim (ha i) (hb i)
theorem AllStill.ifElse {a b : SC Meth} {k : JCond} (ha : AllStill a) (hb : AllStill b) : AllStill (.ifElse k a b) := fun i hi => (List.mem_append.mp hi).elim (ha i) (hb i)
theorem AllStill.loop {a b : SC Meth} {k : JCond} (ha : AllStill a) (hb : AllStill b) : AllStill (.loop k a b) := fun i hi => (List.mem_append.mp hi).elim (ha i) (hb i)
theorem AllStill.ins {i : Ins Meth} (h : Still i) : AllStill (.ins i) := fun j hj => by rw [List.mem_singleton.mp hj]; exact h
theorem AllStill.nop : AllStill .nop := fun _ h => nomatch h

theorem globIns_still (n : Sel) : AllStill (.ins (globIns n)) := by
  refine .ins ?_
  unfold globIns; repeat' split
  all_goals trivial

mutual
theorem lit_still : ∀ l : LitT, AllStill (litSC l)
  | .val v => by rw [litSC]; exact .ins trivial
  | .arr es => by
    rw [litSC]
    exact .seq (.ins trivial) (.seq (.ins trivial) (.seq (.ins trivial) (lits_still es 1)))
theorem lits_still : ∀ (es : LitTs) (i : Nat), AllStill (litsSC es i)
  | .nil, i => by rw [litsSC]; exact .nop
  | .cons e es, i => by
    rw [litsSC]
    exact .seq (.seq (.ins trivial) (.seq (lit_still e) (.ins trivial))) (lits_still es (i + 1))
end

theorem popIns_still (lvl : Nat) (t : Tgt) : AllStill (.ins (t.popIns lvl)) := by cases t <;> exact .ins trivial

theorem dups_still : ∀ k, AllStill (dupsSC k)
  | 0 => .nop
  | k + 1 => .seq (.ins trivial) (dups_still k)

theorem pops_still (lvl : Nat) : ∀ ts : List Tgt, AllStill (popsSC lvl ts)
  | [] => .nop
  | t :: ts => (popIns_still lvl t).seq (pops_still lvl ts)

theorem genAsg_still {lvl : Nat} {t : Tgt} {ts : List Tgt} {e : Ex Meth} {ce : Gen Meth (List Nat)} (h : AllStill ce.1) : AllStill (genAsg lvl t ts e ce).1 := by
  unfold genAsg
  split
  · exact .ins trivial
  · exact h.seq ((dups_still _).seq (pops_still lvl (t :: ts)))

theorem genAsgEff_still {lvl : Nat} {t : Tgt} {e : Ex Meth} {ce : Gen Meth (List Nat)} (h : AllStill ce.1) : AllStill (genAsgEff lvl t e ce) := by
  unfold genAsgEff
  split
  · exact .ins trivial
  · exact h.seq (popIns_still lvl t)

theorem Closed.still {id : Nat} {lits : List (Lit Meth)} {bytes : List Nat} {loops : List (Nat × Nat)} {args locals : List Nat} {stack : Nat} {code : SC Meth} :
    Closed (.bc id lits bytes loops args locals stack code) ↔ AllStill code := by
  constructor
  · intro h i hi
    cases h with
    | bc _ _ _ _ _ _ _ _ fld ret inner =>
      cases i with
      | pushFld j k => exact absurd hi (fld j k)
      | retNonLocal k => exact absurd hi (ret k)
      | pushBlock c m => cases c; trivial; exact inner m hi
      | _ => trivial
  · intro h
    exact .bc _ _ _ _ _ _ _ _ (fun i l hi => h _ hi) (fun l hi => h _ hi) (fun m hi => h _ hi)

theorem subst_still {tr : Ins Meth → SC Meth} {c : SC Meth} (h : AllStill c) (ht : ∀ i, Still i → AllStill (tr i)) : AllStill (c.subst tr) := by
  intro j hj
  obtain ⟨i, hi, hj⟩ := mem_subst c hj
  exact ht i (h i hi) j hj

theorem adapt_closed : ∀ (n k : Nat) (outer : List (List Nat)) (new : List Nat) (m m' : Meth), Closed m → adapt n k outer new m = .ok m' → Closed m'
  | 0, _, _, _, _, _, _, h => by cases h
  | n + 1, k, outer, new, .triv _ _, _, _, h => by cases h
  | n + 1, k, outer, new, .bc id lits bytes loops args locals stack code, m', hc, h => by
    obtain ⟨⟨bytes', lits'⟩, _, h⟩ := except_bind_ok h
    cases h
    refine Closed.still.mpr (subst_still (Closed.still.mp hc) fun i hi => .ins ?_)
    cases i with
    | pushFld j l => exact hi
    | retNonLocal l => exact hi
    | pushVar a j l =>
      cases a
      · simp only [adaptIns]; split <;> trivial
      · trivial
    | popVar a j l =>
      cases a
      · simp only [adaptIns]; split <;> trivial
      · trivial
    | pushBlock c m =>
      cases c
      · trivial
      · show Closed ((adapt n (k + 1) (locals :: outer) new m).toOption.getD m.stub)
        cases ha : adapt n (k + 1) (locals :: outer) new m with
        | error e => exact .triv _ _ (fun _ _ e => nomatch e)
        | ok m1 => exact adapt_closed n (k + 1) _ new m m1 hi ha
    | _ => trivial

theorem inlCode_still {n lvl : Nat} {m : Meth} {env : List Nat} (h : Closed m) : AllStill (inlCode n m lvl env) := by
  cases m with
  | triv id t =>
    cases h with
    | triv _ _ ok =>
      cases t with
      | lit l => cases l; exact .ins trivial; exact .nop
      | glob s k => exact globIns_still s
      | fldRead i l => exact absurd rfl (ok i l)
      | fldWrite i l => exact .nop
  | bc id lits bytes loops args locals stack code =>
    simp only [inlCode]
    split
    · refine subst_still (Closed.still.mp h) fun i hi => ?_
      cases i with
      | pushFld j l => exact (hi : False).elim
      | retNonLocal l => exact (hi : False).elim
      | pushVar a j l =>
        cases a
        · cases l <;> exact .ins trivial
        · exact .ins trivial
      | popVar a j l =>
        cases a
        · cases l <;> exact .ins trivial
        · exact .ins trivial
      | pushBlock c m =>
        cases c
        · exact .ins trivial
        · refine .ins ?_
          cases ha : adapt n 1 [locals] (env ++ locals) m with
          | error e => trivial
          | ok m1 => exact adapt_closed n 1 _ _ m m1 hi ha
      | pushGlobal s => exact globIns_still s
      | retLocal => exact .nop
      | _ => exact .ins trivial
    · exact .ins trivial

mutual
/-- The expression reads no field. -/
def Ex.noFld : Ex Meth → Prop
  | .fld _ _ => False
  | .asg _ _ e => e.noFld
  | .inc e => e.noFld
  | .dec e => e.noFld
  | .send _ r as => r.noFld ∧ as.noFld
  | .superSend _ r as => r.noFld ∧ as.noFld
  | _ => True
def Exs.noFld : Exs Meth → Prop
  | .nil => True
  | .cons e es => e.noFld ∧ es.noFld
end

/-- It does not return from a method either. -/
def Body.noFld : Body Meth → Prop
  | .done => True
  | .last e => e.noFld
  | .stmt e rest => e.noFld ∧ rest.noFld
  | .exit _ => False
  | .exitSelf => False

/-- All blocks are closed. -/
def AllClosed (bs : List (Bool × Meth)) : Prop := ∀ c m, (c, m) ∈ bs → Closed m

theorem AllClosed.append {a b : List (Bool × Meth)} : AllClosed (a ++ b) ↔ AllClosed a ∧ AllClosed b :=
  ⟨fun h => ⟨fun c m hm => h c m (List.mem_append_left _ hm), fun c m hm => h c m (List.mem_append_right _ hm)⟩,
   fun h c m hm => (List.mem_append.mp hm).elim (h.1 c m) (h.2 c m)⟩

theorem AllClosed.one {c : Bool} {m : Meth} : AllClosed [(c, m)] ↔ Closed m :=
  ⟨fun h => h c m (List.mem_singleton.mpr rfl), fun h c' m' hm => by cases List.mem_singleton.mp hm; exact h⟩

mutual
theorem genEx_still (n lvl : Nat) : ∀ (e : Ex Meth) (st : Bool × List Nat), e.noFld → AllClosed e.blks → AllStill (genEx (inliner n) lvl e st).1
  | .lit l, st, _, _ => by simp only [genEx]; exact lit_still l
  | .glob s, st, _, _ => by simp only [genEx]; exact globIns_still s
  | .var a i l, st, _, _ => by simp only [genEx]; exact .ins trivial
  | .fld _ i, st, h, _ => by simp only [Ex.noFld] at h
  | .blk c m, st, _, hb => by
    simp only [genEx, Ex.blks, AllClosed.one] at hb ⊢
    refine .ins ?_
    cases c
    · trivial
    · exact hb
  | .asg t ts e, st, hn, hb => by
    simp only [Ex.noFld, Ex.blks, genEx] at hn hb ⊢
    exact genAsg_still (genEx_still n lvl e st hn hb)
  | .inc e, st, hn, hb => by
    simp only [Ex.noFld, Ex.blks, genEx] at hn hb ⊢
    exact (genEx_still n lvl e st hn hb).seq (.ins trivial)
  | .dec e, st, hn, hb => by
    simp only [Ex.noFld, Ex.blks, genEx] at hn hb ⊢
    exact (genEx_still n lvl e st hn hb).seq (.ins trivial)
  | .superSend sel r as, st, hn, hb => by
    simp only [Ex.noFld, Ex.blks, genEx, AllClosed.append] at hn hb ⊢
    exact (genEx_still n lvl r st hn.1 hb.1).seq ((genExs_still n lvl as _ hn.2 hb.2).seq (.ins trivial))
  | .send sel r as, st, hn, hb => by
    simp only [Ex.noFld, Ex.blks, genEx, AllClosed.append] at hn hb ⊢
    have h1 := genEx_still n lvl r st hn.1 hb.1
    cases hin : inlined? sel r as with
    | none =>
      simp only [genSend]
      exact h1.seq ((genExs_still n lvl as _ hn.2 hb.2).seq (.ins trivial))
    | some x =>
      unfold inlined? at hin
      split at hin <;> cases hin
      · simp only [Exs.blks, Ex.blks, List.append_nil, AllClosed.one] at hb
        exact h1.seq (inlCode_still hb.2)
      · simp only [Exs.blks, Ex.blks, List.append_nil, AllClosed.append, AllClosed.one] at hb
        exact h1.seq ((inlCode_still hb.2.1).ifElse (inlCode_still hb.2.2))
      · simp only [Exs.blks, Ex.blks, List.append_nil, AllClosed.one] at hb
        exact .seq (.loop (inlCode_still hb.1) (.seq (inlCode_still hb.2) (.ins trivial))) (.ins trivial)
      · simp only [Exs.blks, Ex.blks, List.append_nil, AllClosed.one] at hb
        exact h1.seq ((inlCode_still hb.2).ifElse (.ins trivial))
theorem genExs_still (n lvl : Nat) : ∀ (es : Exs Meth) (st : Bool × List Nat), es.noFld → AllClosed es.blks → AllStill (genExs (inliner n) lvl es st).1
  | .nil, st, _, _ => by simp only [genExs]; exact .nop
  | .cons e es, st, hn, hb => by
    simp only [Exs.noFld, Exs.blks, genExs, AllClosed.append] at hn hb ⊢
    exact (genEx_still n lvl e st hn.1 hb.1).seq (genExs_still n lvl es _ hn.2 hb.2)
end

theorem genStmt_still {n lvl : Nat} {e : Ex Meth} {st : Bool × List Nat} (hn : e.noFld) (hb : AllClosed e.blks) : AllStill (genStmt (inliner n) lvl e st).1 := by
  unfold genStmt
  dsimp only
  split
  · rename_i c hc
    unfold effOnly at hc
    split at hc
    · split at hc
      · cases hc
        simp only [Ex.noFld, Ex.blks] at hn hb
        exact genAsgEff_still (genEx_still n lvl _ st hn hb)
      · cases hc
    · cases hc
  · exact (genEx_still n lvl e st hn hb).seq (.ins trivial)

theorem genBlock_still (n lvl : Nat) : ∀ (b : Body Meth) (st : Bool × List Nat), b.noFld → AllClosed b.blks → AllStill (genBody (inliner n) true lvl b st) := by
  intro b
  induction b with
  | done => intro st _ _; simp only [genBody, if_true]; exact .seq (.ins trivial) (.ins trivial)
  | last e =>
    intro st hn hb
    simp only [genBody, if_true, Body.blks, Body.noFld] at hn hb ⊢
    exact (genEx_still n lvl e st hn hb).seq (.ins trivial)
  | exit e => intro st hn; exact absurd hn id
  | exitSelf => intro st hn; exact absurd hn id
  | stmt e rest ih =>
    intro st hn hb
    simp only [Body.blks, Body.noFld, AllClosed.append] at hn hb
    by_cases hr : rest = .done
    · subst hr
      simp only [genBody, if_true]
      exact (genEx_still n lvl e st hn.1 hb.1).seq (.ins trivial)
    · have hgb : genBody (inliner n) true lvl (.stmt e rest) st =
          .seq (genStmt (inliner n) lvl e st).1 (genBody (inliner n) true lvl rest (genStmt (inliner n) lvl e st).2) := by
        cases rest with
        | done => exact absurd rfl hr
        | _ => simp only [genBody]
      rw [hgb]
      exact (genStmt_still hn.1 hb.1).seq (ih _ hn.2 hb.2)

/-- What `compileBlock` gives. -/
theorem compileBlock_cases {n lvl id : Nat} {args env : List Nat} {b : Body Meth} {m : Meth} (wf : b.wf fun _ => True) (fits : b.fits true)
    (ok : BlksOK (lvl + 1) b.blks) (h : compileBlock n lvl id args env b = .ok m) :
    (∃ t, b.triv true (lvl + 1) = some t ∧ m = .triv id t) ∨
    ∃ g C, compile (inlineMeth n) true (lvl + 1) env b = .ok g ∧ assemble g = .ok C ∧
      m = .bc id C.lits C.bytes g.loops args g.env C.max (genBody (inliner n) true (lvl + 1) b (false, env)) := by
  have hw : b.wf ((inliner n).good (lvl + 1)) := b.wf_of wf ok.good
  obtain ⟨g, hg, h⟩ := except_bind_ok h
  have ht := C35_recognised (inliner_ok n) hw fits (by simp) hg
  rw [ht] at h
  replace h : (match b.triv true (lvl + 1) with
    | some t => Except.ok (Meth.triv id t)
    | none => do
      let C ← assemble g
      .ok (Meth.bc id C.lits C.bytes g.loops args g.env C.max (genBody (inliner n) true (lvl + 1) b (false, env)))) = .ok m := h
  cases hb : b.triv true (lvl + 1) with
  | some t => rw [hb] at h; cases h; exact .inl ⟨t, rfl, rfl⟩
  | none =>
    rw [hb] at h
    obtain ⟨C, hC, h⟩ := except_bind_ok h
    cases h
    exact .inr ⟨g, C, hg, hC, rfl⟩

theorem compileBlock_closed {n lvl id : Nat} {args env : List Nat} {b : Body Meth} {m : Meth} (wf : b.wf fun _ => True) (fits : b.fits true)
    (ok : BlksOK (lvl + 1) b.blks) (hn : b.noFld) (hb : AllClosed b.blks) (h : compileBlock n lvl id args env b = .ok m) : Closed m := by
  rcases compileBlock_cases wf fits ok h with ⟨t, ht, rfl⟩ | ⟨g, C, _, _, rfl⟩
  · refine .triv _ _ fun i l e => ?_
    subst e
    have value : ∀ e : Ex Meth, e.noFld → e.triv (lvl + 1) ≠ some (.fldRead i l) := by
      intro e hn h
      cases e with
      | lit l => cases l <;> cases h
      | glob n =>
        simp only [Ex.triv, Option.some.injEq] at h
        repeat' split at h
        all_goals cases h
      | fld s i => simp only [Ex.noFld] at hn
      | _ => cases h
    cases b with
    | done => cases ht
    | last e => exact value e hn ht
    | exit e => cases ht
    | stmt e r => cases r <;> cases ht
    | exitSelf => cases ht
  · exact Closed.still.mpr (genBlock_still n (lvl + 1) b (false, env) hn hb)

end PySOM.BC

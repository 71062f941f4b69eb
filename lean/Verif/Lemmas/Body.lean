import Verif.Lemmas.GenSC
/-!
# The generator produces an encoding of the structured code: statements and bodies
-/
set_option autoImplicit false
namespace PySOM.BC
open PySOM

section
variable {M X : Type}

/-- `optimize_dup_pop_pop_sequence` has nothing to do. -/
def Quiet (g : G M X) : Prop := optimizeDupPopPop g = .ok (false, g)

theorem quiet_of {g : G M X} (h1 : g.l3 ≠ Op.incFieldPush) (h2 : popXBytecodes.contains g.l3 = false ∨ g.l2 ≠ Op.dup) : Quiet g := by
  unfold Quiet optimizeDupPopPop
  by_cases hi : g.inl = true
  · rw [if_pos hi]
  · rw [if_neg hi, if_neg h1]
    rcases h2 with h2 | h2
    · rw [if_pos h2]
    · by_cases h3 : popXBytecodes.contains g.l3 = false
      · rw [if_pos h3]
      · rw [if_neg h3, if_pos h2]

/-- `remove_last_pop_for_block_local_return` takes back what was done after `g1`. -/
def Restores (g1 g2 : G M X) : Prop :=
  ∀ g3, removeLastPop g2 = .ok g3 → g3.bytes = g1.bytes ∧ g3.lits = g1.lits ∧ g1.maxDepth ≤ g3.maxDepth ∧ g3.lvl = g1.lvl ∧
    pushFieldBytecodes.contains g3.l3 = false

theorem genPops_l2 {t t' : Tgt} {ts : List Tgt} {g g' : G M X} (h : genPops g (t :: t' :: ts) = .ok g') : g'.l3 = Op.incFieldPush ∨ g'.l2 ≠ Op.dup := by
  induction ts generalizing g t t' with
  | nil =>
    rw [genPops] at h
    obtain ⟨g1, h1, h⟩ := except_bind_ok h
    rw [genPops] at h
    obtain ⟨g2, h2, h⟩ := except_bind_ok h
    simp only [genPops] at h
    cases h
    have m1 := genPop_l3 h1
    have hnd : g1.l3 ≠ Op.dup := fun hh => by rw [hh] at m1; exact absurd m1 (by decide)
    obtain ⟨op, rest, hs⟩ := genPop_shape (noFuse_of t' (.inr (.inl hnd))) h2
    right
    rw [hs.l2]
    exact hnd
  | cons t'' ts ih =>
    rw [genPops] at h
    obtain ⟨g1, h1, h⟩ := except_bind_ok h
    exact ih h

/-- The optimisation of an assignment whose value is not used. -/
theorem dpp_ok {I : Inliner M X} (hI : I.OK) {e : Ex M} {g g1 g2 : G M X} {b : Bool} (hw : e.wf (I.good g.lvl)) (he : cEx I.run e g = .ok g1)
    (h : optimizeDupPopPop g1 = .ok (b, g2)) :
    (b = false ∧ g2 = g1 ∧ effOnly I g.lvl e (g.inl, g.env) = none) ∨
    (b = true ∧ Keep g1 g2 ∧ Quiet g2 ∧ Restores g1 g2 ∧ ∃ c, effOnly I g.lvl e (g.inl, g.env) = some c ∧ Ext g g2 c 0 0) := by
  obtain ⟨hx, hst⟩ := cEx_ok hI e g g1 hw he
  have hl3 := cEx_l3 he
  have hinl : (genEx I g.lvl e (g.inl, g.env)).2.1 = g1.inl := by rw [← hst]
  unfold optimizeDupPopPop at h
  by_cases hi : g1.inl = true
  · rw [if_pos hi] at h
    cases h
    refine .inl ⟨rfl, rfl, ?_⟩
    unfold effOnly
    split
    · rw [hinl, hi]; rfl
    · rfl
  · rw [if_neg hi] at h
    have hif : g1.inl = false := by simpa using hi
    by_cases hasg : g1.l3 ∈ Op.incFieldPush :: popXBytecodes
    case neg =>
      have hn1 : g1.l3 ≠ Op.incFieldPush := fun hh => hasg (by rw [hh]; exact List.mem_cons_self)
      have hn2 : popXBytecodes.contains g1.l3 = false := by
        cases hc : popXBytecodes.contains g1.l3 with
        | false => rfl
        | true => exact absurd (List.mem_cons_of_mem _ (List.contains_iff_mem.mp hc)) hasg
      rw [if_neg hn1, if_pos hn2] at h
      cases h
      refine .inl ⟨rfl, rfl, ?_⟩
      cases e with
      | asg t ts e => exact absurd (by exact hl3) hasg
      | _ => rfl
    case pos =>
    obtain ⟨t, ts, e', rfl⟩ := lastOps_asg hl3 hasg
    simp only [Ex.wf] at hw
    simp only [cEx] at he
    obtain ⟨ge, hge, hp⟩ := except_bind_ok he
    obtain ⟨an, kn⟩ := addNames_ext (t :: ts) g
    obtain ⟨h1, k1⟩ := cEx_ok hI e' (addNames g (t :: ts)) _ (an.lvl.symm ▸ hw) hge
    cases ts with
    | cons t' ts =>
      refine .inl ?_
      have hnd : ∀ (t : Tgt), NoFuse (emitDups ge ((t' :: ts).length + 1)) t := fun t => noFuse_of t (.inr (.inr (.inl (by
        have := (emitDups_l (ts.length + 1) (emit1 ge Op.dup 1) rfl).2 (by omega)
        show (emitDups (emit1 ge Op.dup 1) (ts.length + 1)).l2 ≠ Op.inc
        rw [this]; decide))))
      have hnip : g1.l3 ≠ Op.incFieldPush := by
        have key : ∀ (ts : List Tgt) (t : Tgt) (g g' : G M X), NoFuse g t → genPops g (t :: ts) = .ok g' → g'.l3 ≠ Op.incFieldPush := by
          intro ts
          induction ts with
          | nil =>
            intro t g g' hn h
            rw [genPops] at h
            obtain ⟨ga, ha, h⟩ := except_bind_ok h
            simp only [genPops] at h
            cases h
            obtain ⟨op, rest, hs⟩ := genPop_shape hn ha
            rw [hs.l3]
            intro hh
            have := hs.isPop
            rw [hh] at this
            exact absurd this (by decide)
          | cons t2 ts ih =>
            intro t g g' hn h
            rw [genPops] at h
            obtain ⟨ga, ha, h⟩ := except_bind_ok h
            refine ih t2 ga g' (noFuse_of _ (.inr (.inl ?_))) h
            obtain ⟨op, rest, hs⟩ := genPop_shape hn ha
            rw [hs.l3]
            intro hh
            have := hs.isPop
            rw [hh] at this
            exact absurd this (by decide)
        exact key _ t _ _ (hnd t) hp
      have hl2 := (genPops_l2 hp).resolve_left hnip
      have hq := quiet_of hnip (.inr hl2)
      unfold Quiet optimizeDupPopPop at hq
      rw [if_neg hi] at hq
      rw [hq] at h
      cases h
      exact ⟨rfl, rfl, rfl⟩
    | nil =>
      refine .inr ?_
      have heff : effOnly I g.lvl (.asg t [] e') (g.inl, g.env) = some (genAsgEff g.lvl t e' (genEx I g.lvl e' (g.inl, g.env))) := by
        simp only [effOnly]
        rw [if_pos (by rw [hinl]; exact hif)]
      rw [heff]
      rcases asg1_cases hge h1.lvl hp with ⟨i, gb, hf, hi', kk1, kk2, rfl, hb⟩ | ⟨hf, op, rest, hs⟩
      · -- the fused instruction
        have hl : (emitIncFieldPush gb i (addNames g [t]).lvl).l3 = Op.incFieldPush := rfl
        rw [if_pos hl] at h
        have hby : (emitIncFieldPush gb i (addNames g [t]).lvl).bytes = gb.bytes ++ [Op.incFieldPush, i, (addNames g [t]).lvl] := emit3_bytes ..
        have hopt : optimizeIncFieldPush (emitIncFieldPush gb i (addNames g [t]).lvl) =
            .ok { emitIncFieldPush gb i (addNames g [t]).lvl with bytes := gb.bytes ++ [Op.incField, i, (addNames g [t]).lvl], l3 := Op.incField } := by
          unfold optimizeIncFieldPush
          rw [hby]
          simp only [subAssert, List.length_append, List.length_cons, List.length_nil]
          rw [if_pos (by omega)]
          simp only [bind, Except.bind]
          have : gb.bytes.length + (0 + 1 + 1 + 1) - 3 = gb.bytes.length := by omega
          rw [this]
          simp
        rw [hopt] at h
        cases h
        refine ⟨rfl, ⟨rfl, rfl⟩, quiet_of (show Op.incField ≠ Op.incFieldPush by decide) (.inl (show popXBytecodes.contains Op.incField = false by decide)), ?_, _, rfl, ?_⟩
        · intro g3 h3
          unfold removeLastPop at h3
          rw [if_neg (show ¬ (Op.incField = Op.pop) by decide), if_neg (by
            show ¬ (popXBytecodes.contains Op.incField = true ∧ _)
            intro hh; exact absurd hh.1 (by decide)), if_pos rfl] at h3
          obtain ⟨j, hj, h3⟩ := except_bind_ok h3
          dsimp only at hj h3
          have : j = gb.bytes.length := by
            simp only [subAssert, List.length_append, List.length_cons, List.length_nil] at hj
            rw [if_pos (by omega)] at hj
            cases hj; omega
          subst this
          rw [if_pos (by simp)] at h3
          cases h3
          refine ⟨?_, rfl, Int.le_refl _, rfl, by show pushFieldBytecodes.contains Op.incFieldPush = false; decide⟩
          show (gb.bytes ++ [Op.incField, i, (addNames g [t]).lvl]).set gb.bytes.length Op.incFieldPush = _
          rw [hby]; simp
        · have : genAsgEff g.lvl t e' (genEx I g.lvl e' (g.inl, g.env)) = .ins (.incFld i g.lvl) := by
            unfold genAsgEff; rw [hf]
          rw [this]
          have e0 := an.thenNop hb
          refine e0.nopThen ⟨List.prefix_refl _, ⟨[Op.incField, i, (addNames g [t]).lvl], rfl, ?_⟩, ?_, ?_, ?_, rfl, .same rfl⟩
          · rw [an.lvl]
            exact .ins _ _ (fun _ => rfl)
          · intro _
            show gb.depth + 1 ≤ max gb.maxDepth (gb.depth + 1)
            omega
          · show gb.maxDepth ≤ max gb.maxDepth (gb.depth + 1)
            omega
          · intro _ d _ hd
            refine ⟨d, rfl, by omega, ?_, ?_⟩
            · show (d : Int) ≤ gb.depth + 1
              omega
            · show ((max d d : Nat) : Int) ≤ max gb.maxDepth (gb.depth + 1)
              omega
      · have hgi : ge.inl = false := by
          have := hs.inl
          rw [hif] at this
          exact this.symm
        have hfn : fusable t [] e' = none := by
          rcases hf with hf | hf
          · exact hf
          · rw [hgi] at hf; cases hf
        have hop : g1.l3 ≠ Op.incFieldPush := by
          rw [hs.l3]
          intro hh
          have := hs.isPop
          rw [hh] at this
          exact absurd this (by decide)
        have hl2 : g1.l2 = Op.dup := hs.l2
        rw [if_neg hop, if_neg (by rw [hs.l3, hs.isPop]; decide), if_neg (by rw [hl2]; decide)] at h
        have hby : g1.bytes = ge.bytes ++ Op.dup :: op :: rest := by
          rw [hs.bytes, emit1_bytes]; simp
        have hrem : removeLastAt1 g1 = .ok { g1 with bytes := ge.bytes ++ op :: rest } := by
          unfold removeLastAt1
          rw [hs.l3, hl2]
          simp only [lenOf, hs.len, show bytecodeLength Op.dup = some 1 by decide, bind, Except.bind, subAssert, hby, List.length_append, List.length_cons]
          rw [if_pos (by omega)]
          have : ge.bytes.length + (rest.length + 1 + 1) - (rest.length + 1 + 1) = ge.bytes.length := by omega
          simp only [this, delBytes]
          simp [List.drop_append]
        rw [hrem] at h
        cases h
        have hg1l1 : g1.l1 ≠ Op.dup := by
          rw [hs.l1]
          show ge.l3 ≠ Op.dup
          intro hh
          have := cEx_l3 hge
          rw [hh] at this
          exact lastOps_dup e' this
        refine ⟨rfl, ⟨rfl, rfl⟩, quiet_of hop (.inr hg1l1), ?_, _, rfl, ?_⟩
        · intro g3 h3
          have hpop : op ≠ Op.pop := by
            intro hh
            have := hs.isPop
            rw [hh] at this
            exact absurd this (by decide)
          unfold removeLastPop at h3
          rw [if_neg (by show ¬ g1.l3 = Op.pop; rw [hs.l3]; exact hpop), if_pos (by
            refine ⟨?_, hg1l1⟩
            show popXBytecodes.contains g1.l3 = true
            rw [hs.l3, hs.isPop])] at h3
          obtain ⟨n, hn, h3⟩ := except_bind_ok h3
          obtain ⟨j, hj, h3⟩ := except_bind_ok h3
          dsimp only at hn hj h3
          have hnn : n = rest.length + 1 := by
            rw [hs.l3] at hn
            simp only [lenOf, hs.len] at hn
            cases hn; rfl
          subst hnn
          have : j = ge.bytes.length := by
            simp only [subAssert, List.length_append, List.length_cons] at hj
            rw [if_pos (by omega)] at hj
            cases hj; omega
          subst this
          have hat : (ge.bytes ++ op :: rest)[ge.bytes.length]? = some op := by simp
          rw [hat] at h3
          dsimp only at h3
          rw [if_pos hs.isPop] at h3
          cases h3
          refine ⟨?_, rfl, Int.le_refl _, rfl, ?_⟩
          · show (ge.bytes ++ op :: rest).take ge.bytes.length ++ Op.dup :: (ge.bytes ++ op :: rest).drop ge.bytes.length = _
            rw [hby]; simp
          · show pushFieldBytecodes.contains g1.l3 = false
            rw [hs.l3]
            have := hs.isPop
            simp only [popXBytecodes, List.contains_iff_mem, List.mem_cons, List.not_mem_nil, or_false] at this
            rcases this with rfl | rfl | rfl | rfl | rfl <;> decide
        · have hga : genAsgEff g.lvl t e' (genEx I g.lvl e' (g.inl, g.env)) = .seq (genEx I g.lvl e' (g.inl, g.env)).1 (.ins (t.popIns g.lvl)) := by
            unfold genAsgEff; rw [hfn]
          rw [hga]
          rw [an.lvl, show ((addNames g [t]).inl, (addNames g [t]).env) = (g.inl, g.env) by rw [kn.1, kn.2]] at h1
          have hlv : (emit1 ge Op.dup 1).lvl = g.lvl := by show ge.lvl = _; rw [h1.lvl, an.lvl]
          have hd1 := hs.depth
          have hx1 := hs.maxDepth
          have dd : (emit1 ge Op.dup 1).depth = ge.depth + 1 := rfl
          have dm : (emit1 ge Op.dup 1).maxDepth = max ge.maxDepth (ge.depth + 1) := rfl
          have epop : Ext ge { g1 with bytes := ge.bytes ++ op :: rest, l2 := g1.l1, l1 := g1.l0, l0 := Op.invalid } (.ins (t.popIns g.lvl)) 1 (-1) := by
            refine ⟨?_, ⟨op :: rest, rfl, .ins _ _ ?_⟩, ?_, ?_, ?_, ?_, .same (by show g1.loops = _; rw [hs.loops]; rfl)⟩
            · show ge.lits <+: g1.lits
              rw [hs.lits]; exact List.prefix_refl _
            · rw [← hlv]; exact hs.is _
            · intro _
              show g1.depth ≤ g1.maxDepth
              omega
            · show ge.maxDepth ≤ g1.maxDepth
              omega
            · intro _ d hm hd
              have ht : (t.popIns g.lvl : Ins M).ty d = if 1 ≤ d then some (d - 1) else none := by cases t <;> rfl
              refine ⟨d - 1, ?_, by omega, ?_, ?_⟩
              · simp only [SC.ty, ht, if_pos hm]
              · show ((d - 1 : Nat) : Int) ≤ g1.depth
                omega
              · show ((SC.ins (t.popIns g.lvl) : SC M).maxd d : Int) ≤ g1.maxDepth
                simp only [SC.maxd, ht, if_pos hm, Option.getD_some]
                omega
            · show g1.lvl = ge.lvl
              exact hs.lvl
          exact ((an.nopThen h1).seq epop (by omega)).cast rfl (by omega)

/-- A statement. -/
theorem stmt_ok {I : Inliner M X} (hI : I.OK) {e : Ex M} {g g1 g2 : G M X} (hw : e.wf (I.good g.lvl)) (he : cEx I.run e g = .ok g1) (h : emitPop g1 = .ok g2) :
    Ext g g2 (genStmt I g.lvl e (g.inl, g.env)).1 0 0 ∧ (g2.inl, g2.env) = (genStmt I g.lvl e (g.inl, g.env)).2 ∧ Quiet g2 ∧ Restores g1 g2 := by
  obtain ⟨hx, hst⟩ := cEx_ok hI e g g1 hw he
  unfold emitPop at h
  obtain ⟨⟨b, gd⟩, hd, h'⟩ := except_bind_ok h
  clear h
  rcases dpp_ok hI hw he hd with ⟨rfl, rfl, heff⟩ | ⟨rfl, k, q, r, c, heff, ec⟩
  · cases h'
    simp only [Bool.false_eq_true, if_false]
    simp only [genStmt, heff]
    refine ⟨(hx.seq (ext_pop gd) (by omega)).cast rfl (by omega), hst, quiet_of (by show Op.pop ≠ Op.incFieldPush; decide) (.inl (by show popXBytecodes.contains Op.pop = false; decide)), ?_⟩
    intro g3 h3
    unfold removeLastPop at h3
    rw [if_pos (show (emit1 gd Op.pop (-1)).l3 = Op.pop from rfl)] at h3
    cases h3
    refine ⟨?_, rfl, ?_, rfl, by show pushFieldBytecodes.contains Op.pop = false; decide⟩
    · show (gd.bytes ++ [Op.pop]).dropLast = gd.bytes
      simp
    · show gd.maxDepth ≤ max gd.maxDepth (gd.depth + -1)
      omega
  · cases h'
    simp only [genStmt, heff]
    exact ⟨ec, by rw [← hst]; simp only [if_true]; rw [k.1, k.2], q, r⟩

theorem dpp_loops {g g' : G M X} {b : Bool} (h : optimizeDupPopPop g = .ok (b, g')) : g'.loops = g.loops := by
  unfold optimizeDupPopPop at h
  split at h
  · cases h; rfl
  · split at h
    · obtain ⟨g1, h1, h⟩ := except_bind_ok h
      cases h
      unfold optimizeIncFieldPush at h1
      obtain ⟨i, _, h1⟩ := except_bind_ok h1
      split at h1 <;> cases h1
      rfl
    · split at h
      · cases h; rfl
      · split at h
        · cases h; rfl
        · obtain ⟨g1, h1, h⟩ := except_bind_ok h
          cases h
          unfold removeLastAt1 at h1
          obtain ⟨_, _, h1⟩ := except_bind_ok h1
          obtain ⟨_, _, h1⟩ := except_bind_ok h1
          obtain ⟨_, _, h1⟩ := except_bind_ok h1
          cases h1; rfl

theorem pop_loops {g g' : G M X} (h : emitPop g = .ok g') : g'.loops = g.loops := by
  unfold emitPop at h
  obtain ⟨⟨b, g1⟩, h1, h⟩ := except_bind_ok h
  cases h
  have := dpp_loops h1
  cases b <;> exact this

theorem removeLastPop_loops {g g' : G M X} (h : removeLastPop g = .ok g') : g'.loops = g.loops := by
  unfold removeLastPop at h
  split at h
  · cases h; rfl
  · split at h
    · obtain ⟨_, _, h⟩ := except_bind_ok h
      obtain ⟨_, _, h⟩ := except_bind_ok h
      repeat' split at h
      all_goals (cases h; try rfl)
    · split at h
      · obtain ⟨_, _, h⟩ := except_bind_ok h
        split at h <;> cases h
        rfl
      · cases h; rfl

/-! ## Bodies -/

/-- Like `Ext`, for the end of a method, where the depth no longer matters. -/
structure Ends (g g' : G M X) (sc : SC M) : Prop where
  lits : g.lits <+: g'.lits
  bytes : ∃ bs, g'.bytes = g.bytes ++ bs ∧ Enc g'.lits sc bs
  dep : g.depth ≤ g.maxDepth → ∀ d : Nat, (d : Int) ≤ g.depth → ∃ d' : Nat, sc.ty d = some d' ∧ (sc.maxd d : Int) ≤ g'.maxDepth
  mono : g.maxDepth ≤ g'.maxDepth
  loops : Loops g g'

theorem Ext.ends {g g' : G M X} {sc : SC M} {k : Int} (h : Ext g g' sc 0 k) : Ends g g' sc where
  lits := h.lits
  bytes := h.bytes
  mono := h.mono
  loops := h.loops
  dep := by
    intro h0 d hd
    obtain ⟨d', t, _, _, x⟩ := h.dep h0 d (Nat.zero_le _) hd
    exact ⟨d', t, x⟩

theorem Ext.thenEnds {g g1 g2 : G M X} {a b : SC M} {k : Int} (h1 : Ext g g1 a 0 k) (h2 : Ends g1 g2 b) : Ends g g2 (.seq a b) where
  lits := h1.lits.trans h2.lits
  bytes := by
    obtain ⟨b1, e1, c1⟩ := h1.bytes
    obtain ⟨b2, e2, c2⟩ := h2.bytes
    exact ⟨b1 ++ b2, by rw [e2, e1]; simp, .seq _ _ _ _ (c1.mono h2.lits) c2⟩
  mono := Int.le_trans h1.mono h2.mono
  loops := h1.loops.trans h2.loops h1.app (let ⟨b, e, _⟩ := h2.bytes; ⟨b, e⟩)
  dep := by
    intro h d hd
    obtain ⟨d1, t1, e1, l1, x1⟩ := h1.dep h d (Nat.zero_le _) hd
    obtain ⟨d2, t2, x2⟩ := h2.dep (h1.ok h) d1 l1
    refine ⟨d2, by simp [SC.ty, t1, t2], ?_⟩
    have := h2.mono
    simp only [SC.maxd, t1]
    omega

theorem enc_nil {lits : List (Lit M)} {sc : SC M} {bs : List Nat} (h : Enc lits sc bs) (hb : bs = []) : ∀ d d', sc.ty d = some d' → d' = d := by
  induction h with
  | nop => intro d d' h; simp only [SC.ty] at h; cases h; rfl
  | ins i bs h => subst hb; have := h []; simp [decode] at this
  | seq a b ba bb ha hb' iha ihb =>
    intro d d' h
    simp only [List.append_eq_nil_iff] at hb
    simp only [SC.ty, Option.bind_eq_some_iff] at h
    obtain ⟨d1, h1, h2⟩ := h
    rw [ihb hb.2 _ _ h2, iha hb.1 _ _ h1]
  | thenB c body j bb hj hb' ih =>
    have := hj.1
    simp only [List.append_eq_nil_iff] at hb
    rw [hb.1] at this; cases this
  | ifElse c a b j ba k bb hj ha hk hb' iha ihb =>
    have := hj.1
    simp only [List.append_eq_nil_iff] at hb
    rw [hb.1] at this; cases this
  | loop c cond body bc j bb k hc hj hb' hk ihc ihb =>
    have := hj.1
    simp only [List.append_eq_nil_iff] at hb
    rw [hb.2.1] at this; cases this

/-- Invariant of the generator: the depth counters. -/
def DepthOK (g : G M X) : Prop := 0 ≤ g.depth ∧ g.depth ≤ g.maxDepth

theorem Ext.bytes_ne {g g' : G M X} {sc : SC M} (h : Ext g g' sc 0 1) (hd : DepthOK g) : g'.bytes ≠ [] := by
  intro hb
  obtain ⟨bs, e, c⟩ := h.bytes
  rw [e, List.append_eq_nil_iff] at hb
  obtain ⟨d', t, e1, _, _⟩ := h.dep hd.2 0 (Nat.zero_le _) hd.1
  have := enc_nil c hb.2 _ _ t
  omega

theorem Ext.depthOK {g g' : G M X} {sc : SC M} {k : Int} (h : Ext g g' sc 0 k) (hd : DepthOK g) : DepthOK g' := by
  obtain ⟨d', t, e1, l, x⟩ := h.dep hd.2 0 (Nat.zero_le _) hd.1
  exact ⟨by omega, h.ok hd.2⟩

/-- The return at the end of a block, and of `^ e` in a method when it is not optimised. -/
theorem returnLocal_plain {g1 g2 : G M X} (h : emitReturnLocal g1 = .ok g2) (hf : pushFieldBytecodes.contains g1.l3 = false) :
    g2 = emit1 g1 Op.returnLocal 0 := by
  unfold emitReturnLocal at h
  have : optimizeReturnField g1 = .ok (false, g1) := by
    unfold optimizeReturnField
    by_cases hi : g1.inl = true
    · rw [if_pos hi]
    · have n1 : g1.l3 ≠ Op.pushField0 := fun hh => by rw [hh] at hf; exact absurd hf (by decide)
      have n2 : g1.l3 ≠ Op.pushField1 := fun hh => by rw [hh] at hf; exact absurd hf (by decide)
      have n3 : g1.l3 ≠ Op.pushField := fun hh => by rw [hh] at hf; exact absurd hf (by decide)
      rw [if_neg hi, if_neg n1, if_neg n2, if_neg n3]
  rw [this] at h
  cases h
  rfl

theorem lastOps_field_iff (e : Ex M) {op : Nat} (h : op ∈ e.lastOps) (hn : ∀ n i, e ≠ .fld n i) : pushFieldBytecodes.contains op = false := by
  cases hc : pushFieldBytecodes.contains op with
  | false => rfl
  | true =>
    obtain ⟨n, i, rfl⟩ := lastOps_field h hc
    exact absurd rfl (hn n i)

theorem returnLocal_block {I : Inliner M X} {e : Ex M} {g g1 g2 : G M X} (he : cEx I.run e g = .ok g1) (hlv : 1 ≤ g.lvl)
    (h : emitReturnLocal g1 = .ok g2) : g2 = emit1 g1 Op.returnLocal 0 := by
  by_cases hf : ∃ n i, e = .fld n i
  · obtain ⟨n, i, rfl⟩ := hf
    simp only [cEx] at he
    cases he
    have hgl := addLit_lvl g (.val (.sym n) : Lit M)
    generalize (addLiteralIfAbsent g (.val (.sym n))).2 = gl at *
    have hp : emitPushField gl i g.lvl = emit3 gl Op.pushField i g.lvl 1 := by
      unfold emitPushField
      rw [if_neg (by omega), if_neg (by omega), hgl]
    rw [hp] at h ⊢
    unfold emitReturnLocal at h
    have : optimizeReturnField (emit3 gl Op.pushField i g.lvl 1) = .ok (false, emit3 gl Op.pushField i g.lvl 1) := by
      unfold optimizeReturnField
      by_cases hi : (emit3 gl Op.pushField i g.lvl 1).inl = true
      · rw [if_pos hi]
      · have hl3 : (emit3 gl Op.pushField i g.lvl 1).l3 = Op.pushField := rfl
        rw [if_neg hi, hl3, if_neg (by decide), if_neg (by decide), if_pos rfl, emit3_bytes]
        have e1 : (gl.bytes ++ [Op.pushField, i, g.lvl])[(gl.bytes ++ [Op.pushField, i, g.lvl]).length - 1]? = some g.lvl := by simp
        have e2 : (gl.bytes ++ [Op.pushField, i, g.lvl])[(gl.bytes ++ [Op.pushField, i, g.lvl]).length - 2]? = some i := by
          have : (gl.bytes ++ [Op.pushField, i, g.lvl]).length - 2 = gl.bytes.length + 1 := by simp
          rw [this]; simp
        rw [e1, e2]
        dsimp only
        rw [if_pos (by omega)]
    rw [this] at h
    cases h
    rfl
  · exact returnLocal_plain h (lastOps_field_iff e (cEx_l3 he) (fun n i hh => hf ⟨n, i, hh⟩))

theorem ext_retFld (g : G M X) {i : Nat} (hi : i ≤ 2) : ∃ g', emitReturnField g i = .ok g' ∧ Ext g g' (.ins (.retFld i)) 0 0 := by
  have ht : ∀ i, ∀ d : Nat, 0 ≤ d → ∃ d' : Nat, (Ins.retFld i : Ins M).ty d = some d' ∧ (d' : Int) = d + 0 := fun i d _ => ⟨d, rfl, by omega⟩
  have : i = 0 ∨ i = 1 ∨ i = 2 := by omega
  rcases this with rfl | rfl | rfl
  · exact ⟨_, rfl, ext1 g (fun _ => rfl) (ht 0)⟩
  · exact ⟨_, rfl, ext1 g (fun _ => rfl) (ht 1)⟩
  · exact ⟨_, rfl, ext1 g (fun _ => rfl) (ht 2)⟩

/-- `^ e` in a method. -/
theorem return_ok {I : Inliner M X} (hI : I.OK) {e : Ex M} {g g1 g2 : G M X} (hw : e.wf (I.good g.lvl)) (he : cEx I.run e g = .ok g1) (hlv : g.lvl = 0)
    (h : emitReturnLocal g1 = .ok g2) : ∃ k, Ext g g2 (genReturn I g.lvl e (g.inl, g.env)) 0 k := by
  obtain ⟨hx, hst⟩ := cEx_ok hI e g g1 hw he
  have plain : g2 = emit1 g1 Op.returnLocal 0 → ∃ k, Ext g g2 (.seq (genEx I g.lvl e (g.inl, g.env)).1 (.ins .retLocal)) 0 k := by
    rintro rfl
    exact ⟨_, hx.seq (ext_returnLocal g1) (by omega)⟩
  by_cases hf : ∃ n i, e = .fld n i
  · obtain ⟨n, i, rfl⟩ := hf
    simp only [cEx] at he
    cases he
    have hgl := addLit_ext g (.val (.sym n) : Lit M)
    have kgl := keepLit g (.val (.sym n) : Lit M)
    generalize (addLiteralIfAbsent g (.val (.sym n))).2 = gl at *
    have hkk := keep_pushField gl i g.lvl
    unfold emitReturnLocal at h
    obtain ⟨⟨b, go⟩, ho, h⟩ := except_bind_ok h
    dsimp only at h
    simp only [genReturn]
    have hin : (emitPushField gl i g.lvl).inl = g.inl := hkk.1.trans kgl.1
    by_cases hi : g.inl = true
    · rw [if_neg (by simp [hi])]
      unfold optimizeReturnField at ho
      rw [if_pos (hin.trans hi)] at ho
      cases ho
      exact plain (by cases h; rfl)
    · have hif : g.inl = false := by simpa using hi
      unfold optimizeReturnField at ho
      rw [if_neg (by rw [hin]; exact hi)] at ho
      -- replacing the last instruction
      have repl : ∀ n, bytecodeLength (emitPushField gl i g.lvl).l3 = some n → (emitPushField gl i g.lvl).bytes.take ((emitPushField gl i g.lvl).bytes.length - n) = gl.bytes →
          n ≤ (emitPushField gl i g.lvl).bytes.length →
          i ≤ 2 → replaceByReturnField (emitPushField gl i g.lvl) i = .ok (b, go) → ∃ k, Ext g g2 (.ins (.retFld i)) 0 k := by
        intro n hn ht hle hi2 hr
        unfold replaceByReturnField at hr
        obtain ⟨gr, hgr, hr⟩ := except_bind_ok hr
        unfold removeLast1 at hgr
        rw [lenOf_ok hn] at hgr
        simp only [bind, Except.bind, subAssert] at hgr
        rw [if_pos hle] at hgr
        dsimp only at hgr
        rw [ht] at hgr
        cases hgr
        obtain ⟨gq, hq, eq⟩ := ext_retFld (resetLast { emitPushField gl i g.lvl with bytes := gl.bytes }) hi2
        rw [hq] at hr
        obtain ⟨_, hr1, hr⟩ := except_bind_ok hr
        cases hr1
        cases hr
        cases h
        obtain ⟨s1, s2, s3, s4, s5⟩ := pushField_state gl i g.lvl
        refine ⟨0, hgl.nopThen (Ext.nopThen (g1 := resetLast { emitPushField gl i g.lvl with bytes := gl.bytes }) (Ext.nop ?_ rfl ?_ ?_ ?_ ?_ s5) eq)⟩
        · show gl.lits <+: (emitPushField gl i g.lvl).lits
          rw [s1]; exact List.prefix_refl _
        · show gl.depth ≤ (emitPushField gl i g.lvl).depth
          omega
        · show gl.maxDepth ≤ (emitPushField gl i g.lvl).maxDepth
          omega
        · intro _
          show (emitPushField gl i g.lvl).depth ≤ (emitPushField gl i g.lvl).maxDepth
          omega
        · exact s4
      have hlv0 := hlv
      rw [hlv] at repl ho plain ⊢
      by_cases h0 : i = 0
      · subst h0
        rw [if_pos ⟨hif, rfl, by omega⟩]
        exact repl 1 rfl (by simp [emitPushField, emit1_bytes]) (by simp [emitPushField, emit1_bytes]) (by omega) ho
      · by_cases h1 : i = 1
        · subst h1
          rw [if_pos ⟨hif, rfl, by omega⟩]
          exact repl 1 rfl (by simp [emitPushField, emit1_bytes]) (by simp [emitPushField, emit1_bytes]) (by omega) ho
        · have hp : emitPushField gl i 0 = emit3 gl Op.pushField i 0 1 := by
            unfold emitPushField
            rw [if_neg (by omega), if_neg (by omega), hgl.lvl, hlv0]
          rw [hp] at ho repl plain
          have hl3 : (emit3 gl Op.pushField i 0 1).l3 = Op.pushField := rfl
          rw [hl3, if_neg (by decide), if_neg (by decide), if_pos rfl, emit3_bytes] at ho
          have e1 : (gl.bytes ++ [Op.pushField, i, 0])[(gl.bytes ++ [Op.pushField, i, 0]).length - 1]? = some 0 := by simp
          have e2 : (gl.bytes ++ [Op.pushField, i, 0])[(gl.bytes ++ [Op.pushField, i, 0]).length - 2]? = some i := by
            have : (gl.bytes ++ [Op.pushField, i, 0]).length - 2 = gl.bytes.length + 1 := by simp
            rw [this]; simp
          rw [e1, e2] at ho
          dsimp only at ho
          rw [if_neg (by omega)] at ho
          by_cases h2 : i > 2
          · rw [if_pos h2] at ho
            cases ho
            rw [if_neg (by omega)]
            exact plain (by cases h; rfl)
          · rw [if_neg h2] at ho
            rw [if_pos ⟨hif, rfl, by omega⟩]
            exact repl 3 rfl (by simp [emit3_bytes]) (by simp [emit3_bytes]) (by omega) ho
  · have hne : ∀ n i, e ≠ .fld n i := fun n i hh => hf ⟨n, i, hh⟩
    have hgr : genReturn I g.lvl e (g.inl, g.env) = .seq (genEx I g.lvl e (g.inl, g.env)).1 (.ins .retLocal) := by
      cases e with
      | fld n i => exact absurd rfl (hne n i)
      | _ => rfl
    rw [hgr]
    exact plain (returnLocal_plain h (lastOps_field_iff e (cEx_l3 he) hne))

theorem returnSelf_quiet {g g' : G M X} (hq : Quiet g) (h : emitReturnSelf g = .ok g') : g' = emit1 g Op.returnSelf 0 := by
  unfold emitReturnSelf at h
  rw [hq] at h
  cases h
  rfl

theorem cBody_ok {I : Inliner M X} (hI : I.OK) (isBlock : Bool) : ∀ (b : Body M) (seen : Bool) (g g' : G M X), b.wf (I.good g.lvl) →
    (isBlock = true → 1 ≤ g.lvl) → (isBlock = false → g.lvl = 0) → (b = .done → g.bytes = [] ∧ seen = false ∧ g.l3 = Op.invalid) →
    DepthOK g → Quiet g → cBody I.run isBlock b seen g = .ok g' → Ends g g' (genBody I isBlock g.lvl b (g.inl, g.env))
  | .done, seen, g, g', _, _, _, hdone, hd, hq, h => by
    obtain ⟨hb, hs, hl3⟩ := hdone rfl
    subst hs
    simp only [cBody] at h
    cases isBlock with
    | true =>
      simp only [if_true, Bool.false_eq_true, if_false] at h
      obtain ⟨ga, hga, h⟩ := except_bind_ok h
      cases hga
      rw [if_pos hb] at h
      have hf : pushFieldBytecodes.contains (emitPushConstant g .nil).l3 = false := by
        have := pushConstant_l3 g .nil
        cases hc : pushFieldBytecodes.contains (emitPushConstant g .nil).l3 with
        | false => rfl
        | true =>
          simp only [pushFieldBytecodes, List.contains_iff_mem, List.mem_cons, List.not_mem_nil, or_false] at hc
          rcases hc with hc | hc | hc <;> rw [hc] at this <;> exact absurd this (by decide)
      have := returnLocal_plain h hf
      subst this
      simp only [genBody, if_true]
      exact ((ext_pushConstant g .nil).seq (ext_returnLocal _) (by omega)).ends
    | false =>
      simp only [Bool.false_eq_true, if_false] at h
      rw [returnSelf_quiet hq h]
      simp only [genBody, Bool.false_eq_true, if_false]
      exact (ext_returnSelf g).ends
  | .last e, seen, g, g', hw, hb1, hb0, _, hd, hq, h => by
    simp only [Body.wf] at hw
    simp only [cBody] at h
    obtain ⟨g1, he, h⟩ := except_bind_ok h
    obtain ⟨hx, hst⟩ := cEx_ok hI e g g1 hw he
    cases isBlock with
    | true =>
      simp only [if_true] at h
      rw [if_neg (hx.bytes_ne hd)] at h
      have := returnLocal_block he (hb1 rfl) h
      subst this
      simp only [genBody, if_true]
      exact (hx.seq (ext_returnLocal g1) (by omega)).ends
    | false =>
      simp only [Bool.false_eq_true, if_false] at h
      unfold emitReturnSelf at h
      obtain ⟨⟨b, g2⟩, hd2, h⟩ := except_bind_ok h
      cases h
      simp only [genBody, Bool.false_eq_true, if_false]
      rcases dpp_ok hI hw he hd2 with ⟨rfl, rfl, heff⟩ | ⟨rfl, k, q, r, c, heff, ec⟩
      · rw [heff]
        exact (hx.seq (ext_returnSelf g2) (by omega)).ends
      · rw [heff]
        exact (ec.seq (ext_returnSelf g2) (by omega)).ends
  | .exit e, seen, g, g', hw, hb1, hb0, _, hd, hq, h => by
    simp only [Body.wf] at hw
    simp only [cBody] at h
    obtain ⟨g1, he, h⟩ := except_bind_ok h
    cases isBlock with
    | true =>
      simp only [if_true] at h
      cases h
      obtain ⟨hx, hst⟩ := cEx_ok hI e g g1 hw he
      simp only [genBody, if_true]
      have := ext_returnNonLocal g1
      rw [hx.lvl] at this
      exact (hx.seq this (by omega)).ends
    | false =>
      simp only [Bool.false_eq_true, if_false] at h
      obtain ⟨k, hk⟩ := return_ok hI hw he (hb0 rfl) h
      simp only [genBody, Bool.false_eq_true, if_false]
      exact hk.ends
  | .exitSelf, seen, g, g', _, _, _, _, hd, hq, h => by
    simp only [cBody] at h
    rw [returnSelf_quiet hq h]
    simp only [genBody]
    exact (ext_returnSelf g).ends
  | .stmt e rest, seen, g, g', hw, hb1, hb0, _, hd, hq, h => by
    simp only [Body.wf] at hw
    simp only [cBody] at h
    obtain ⟨g1, he, h⟩ := except_bind_ok h
    obtain ⟨g2, hp, h⟩ := except_bind_ok h
    obtain ⟨ex, kx, q2, r2⟩ := stmt_ok hI hw.1 he hp
    by_cases hr : rest = .done
    · subst hr
      simp only [cBody] at h
      cases isBlock with
      | true =>
        simp only [if_true] at h
        obtain ⟨g3, h3, h⟩ := except_bind_ok h
        obtain ⟨e1, e2, e3, e4, e5⟩ := r2 g3 h3
        obtain ⟨hx, hst⟩ := cEx_ok hI e g g1 hw.1 he
        rw [if_neg (by rw [e1]; exact hx.bytes_ne hd)] at h
        have := returnLocal_plain h e5
        subst this
        simp only [genBody, if_true]
        obtain ⟨bs, hbs, c⟩ := hx.bytes
        have hlp : g3.loops = g1.loops := (removeLastPop_loops h3).trans (pop_loops hp)
        refine ⟨?_, ⟨bs ++ [Op.returnLocal], ?_, ?_⟩, ?_, ?_, ?_⟩
        · show g.lits <+: g3.lits
          rw [e2]; exact hx.lits
        · rw [emit1_bytes, e1, hbs]; simp
        · show Enc g3.lits _ _
          rw [e2]
          exact .seq _ _ _ _ c (.ins _ _ (fun _ => rfl))
        · intro h0 d hdd
          obtain ⟨d', t, e, l, x⟩ := hx.dep h0 d (Nat.zero_le _) hdd
          have hd' : 1 ≤ d' := by omega
          refine ⟨d', ?_, ?_⟩
          · simp only [SC.ty, t, Option.bind_some, Ins.ty]
            rw [if_pos hd']
          · show ((SC.seq (genEx I g.lvl _ (g.inl, g.env)).1 (.ins .retLocal)).maxd d : Int) ≤ max g3.maxDepth (g3.depth + 0)
            have hle := SC.ty_le_maxd _ _ _ t
            simp only [SC.maxd, t, Ins.ty]
            rw [if_pos hd']
            simp only [Option.getD_some]
            omega
        · have := hx.mono
          show g.maxDepth ≤ max g3.maxDepth (g3.depth + 0)
          omega
        · obtain ⟨ls, l1, l2⟩ := hx.loops
          refine ⟨ls, by show g3.loops = _; rw [hlp, l1], fun e he => ?_⟩
          rw [emit1_bytes, e1]
          exact (l2 e he).append _
      | false =>
        simp only [Bool.false_eq_true, if_false] at h
        rw [returnSelf_quiet q2 h]
        simp only [genBody, Bool.false_eq_true, if_false]
        exact (ex.seq (ext_returnSelf g2) (by omega)).ends
    · have ih := cBody_ok hI isBlock rest true g2 g' (ex.lvl ▸ hw.2) (by rw [ex.lvl]; exact hb1) (by rw [ex.lvl]; exact hb0) (fun hh => absurd hh hr)
        (ex.depthOK hd) q2 h
      rw [ex.lvl, kx] at ih
      have hgb : genBody I isBlock g.lvl (.stmt e rest) (g.inl, g.env) =
          .seq (genStmt I g.lvl e (g.inl, g.env)).1 (genBody I isBlock g.lvl rest (genStmt I g.lvl e (g.inl, g.env)).2) := by
        cases rest with
        | done => exact absurd rfl hr
        | _ => simp only [genBody]
      rw [hgb]
      exact ex.thenEnds ih

theorem compile_ends {I : Inliner M X} (hI : I.OK) {isBlock : Bool} {lvl : Nat} {env : X} {b : Body M} {g : G M X} (hw : b.wf (I.good lvl))
    (hlv : isBlock = true ↔ 1 ≤ lvl) (h : compile I.run isBlock lvl env b = .ok g) :
    Ends (G.new lvl env) g (genBody I isBlock lvl b (false, env)) :=
  cBody_ok hI isBlock b false (G.new lvl env) g hw hlv.mp
    (fun hh => by
      show lvl = 0
      cases lvl with
      | zero => rfl
      | succ n => rw [hlv.mpr (by omega)] at hh; cases hh)
    (fun _ => ⟨rfl, rfl, rfl⟩) ⟨Int.le_refl _, Int.le_refl _⟩
    (quiet_of (by show Op.invalid ≠ Op.incFieldPush; decide) (.inl (by show popXBytecodes.contains Op.invalid = false; decide))) h

/-- The recorded loops are those of the code. -/
theorem compile_loops {I : Inliner M X} (hI : I.OK) {isBlock : Bool} {lvl : Nat} {env : X} {b : Body M} {g : G M X} (hw : b.wf (I.good lvl))
    (hlv : isBlock = true ↔ 1 ≤ lvl) (h : compile I.run isBlock lvl env b = .ok g) : ∀ e ∈ g.loops, LoopAt M 0 g.bytes e := by
  obtain ⟨ls, h1, h2⟩ := (compile_ends hI hw hlv h).loops
  intro e he
  rw [h1] at he
  exact h2 e (by simpa [G.new] using he)

/-- The whole generator: the bytes are an encoding of the structured code, which is well typed and needs at most `maxDepth` elements. -/
theorem compile_ok {I : Inliner M X} (hI : I.OK) {isBlock : Bool} {lvl : Nat} {env : X} {b : Body M} {g : G M X} (hw : b.wf (I.good lvl))
    (hlv : isBlock = true ↔ 1 ≤ lvl) (h : compile I.run isBlock lvl env b = .ok g) :
    Enc g.lits (genBody I isBlock lvl b (false, env)) g.bytes ∧
      ∃ d, (genBody I isBlock lvl b (false, env)).ty 0 = some d ∧ ((genBody I isBlock lvl b (false, env)).maxd 0 : Int) ≤ g.maxDepth := by
  have he := compile_ends hI hw hlv h
  obtain ⟨bs, hb, c⟩ := he.bytes
  obtain ⟨d, t, x⟩ := he.dep (Int.le_refl _) 0 (Int.le_refl _)
  have : g.bytes = bs := by rw [hb]; rfl
  rw [this]
  exact ⟨c, d, t, x⟩

theorem genBody_returns (I : Inliner M X) (isBlock : Bool) (lvl : Nat) : ∀ (b : Body M) (st : Bool × X), (genBody I isBlock lvl b st).returns = true
  | .done, st => by cases isBlock <;> simp [genBody, SC.returns]
  | .last e, st => by cases isBlock <;> simp [genBody, SC.returns]
  | .exit e, st => by
    cases isBlock
    · simp only [genBody, Bool.false_eq_true, if_false]
      unfold genReturn
      split
      · split <;> simp [SC.returns]
      · simp [SC.returns]
    · simp [genBody, SC.returns]
  | .exitSelf, st => by simp [genBody, SC.returns]
  | .stmt e rest, st => by
    cases rest with
    | done => cases isBlock <;> simp [genBody, SC.returns]
    | last e' =>
      have := genBody_returns I isBlock lvl (.last e') (genStmt I lvl e st).2
      rw [genBody]
      · simp [SC.returns, this]
      · simp
    | exit e' =>
      have := genBody_returns I isBlock lvl (.exit e') (genStmt I lvl e st).2
      rw [genBody]
      · simp [SC.returns, this]
      · simp
    | exitSelf =>
      have := genBody_returns I isBlock lvl .exitSelf (genStmt I lvl e st).2
      rw [genBody]
      · simp [SC.returns, this]
      · simp
    | stmt e' r =>
      have := genBody_returns I isBlock lvl (.stmt e' r) (genStmt I lvl e st).2
      rw [genBody]
      · simp [SC.returns, this]
      · simp

end
end PySOM.BC

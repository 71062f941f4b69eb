import Verif.Lemmas.GenCode
/-!
# The generator produces an encoding of the structured code: expressions, statements, bodies
-/
set_option autoImplicit false
namespace PySOM.BC
open PySOM

section
variable {M X : Type}

/-- A change without code. -/
theorem Ext.nop {g g' : G M X} (hl : g.lits <+: g'.lits) (hb : g'.bytes = g.bytes) (hd : g.depth ≤ g'.depth) (hx : g.maxDepth ≤ g'.maxDepth)
    (hok : g.depth ≤ g.maxDepth → g'.depth ≤ g'.maxDepth) (hv : g'.lvl = g.lvl)
    (ho : g'.loops = g.loops := by rfl) : Ext g g' .nop 0 0 where
  lits := hl
  bytes := ⟨[], by simp [hb], .nop⟩
  ok := hok
  mono := hx
  dep := by
    intro h d _ hle
    exact ⟨d, rfl, by omega, by omega, by simp only [SC.maxd]; omega⟩
  lvl := hv
  loops := .same ho

/-- The effect of an extension need only be known by its value. -/
theorem Ext.cast {g g' : G M X} {sc : SC M} {m m' : Nat} {k k' : Int} (h : Ext g g' sc m k) (hm : m = m') (hk : k = k') : Ext g g' sc m' k' := by
  subst hm; subst hk; exact h

/-! ## Assignments -/

theorem addLit_lvl (g : G M X) (l : Lit M) : (addLiteralIfAbsent g l).2.lvl = g.lvl := (addLit_ext g l).lvl

theorem pushField_state (g : G M X) (i l : Nat) : (emitPushField g i l).lits = g.lits ∧ (emitPushField g i l).depth = g.depth + 1 ∧
    (emitPushField g i l).maxDepth = max g.maxDepth (g.depth + 1) ∧ (emitPushField g i l).lvl = g.lvl ∧ (emitPushField g i l).loops = g.loops := by
  unfold emitPushField
  repeat' split
  all_goals exact ⟨rfl, rfl, rfl, rfl, rfl⟩

/-- The two outcomes of an assignment to one variable. -/
theorem asg1_cases {I : Inliner M X} {e : Ex M} {t : Tgt} {gn ge g1 : G M X} (hge : cEx I.run e gn = .ok ge) (hlv : ge.lvl = gn.lvl)
    (h : genPops (emitDups ge 1) [t] = .ok g1) :
    (∃ i gb, fusable t [] e = some i ∧ ge.inl = false ∧ Keep ge g1 ∧ Keep gn ge ∧ g1 = emitIncFieldPush gb i gn.lvl ∧ Ext gn gb .nop 0 0) ∨
    ((fusable t [] e = none ∨ ge.inl = true) ∧ ∃ op rest, PopShape (emit1 ge Op.dup 1) g1 t op rest) := by
  rw [genPops] at h
  obtain ⟨g2, h2, h⟩ := except_bind_ok h
  simp only [genPops] at h
  cases h
  simp only [emitDups] at h2
  have no : NoFuse (emit1 ge Op.dup 1) t → ∃ op rest, PopShape (emit1 ge Op.dup 1) g1 t op rest := fun hn => genPop_shape hn h2
  cases hinl : ge.inl with
  | true => exact .inr ⟨.inr rfl, no (noFuse_of t (.inl hinl))⟩
  | false =>
    cases t with
    | var n a i l => exact .inr ⟨.inl rfl, no (fun _ _ hh => nomatch hh)⟩
    | fld n i =>
      by_cases hinc : ge.l3 = Op.inc
      · have hm := cEx_l3 hge
        rw [hinc] at hm
        obtain ⟨e', rfl⟩ := lastOps_inc hm
        simp only [cEx] at hge
        obtain ⟨gf, hgf, hge⟩ := except_bind_ok hge
        cases hge
        by_cases hfld : pushFieldBytecodes.contains gf.l3 = true
        · obtain ⟨n', j, rfl⟩ := lastOps_field (cEx_l3 hgf) hfld
          simp only [cEx] at hgf
          generalize hgl : (addLiteralIfAbsent gn (.val (.sym n'))).2 = gl at hgf
          have hgl2 : Ext gn gl .nop 0 0 := by rw [← hgl]; exact addLit_ext _ _
          have hgl3 : Keep gn gl := by rw [← hgl]; exact keepLit _ _
          cases hgf
          rw [← hgl2.lvl] at h2 no hinl ⊢
          have hli : gl.inl = false := by
            have := (keep_pushField gl j gl.lvl).1
            rw [← this]; exact hinl
          have hopt := optimizeIncField_field gl j i hli
          have hlv2 : (emit1 (emit1 (emitPushField gl j gl.lvl) Op.inc 0) Op.dup 1).lvl = gl.lvl := (pushField_state gl j gl.lvl).2.2.2.1
          by_cases hji : j = i
          · subst hji
            rw [if_pos rfl] at hopt
            simp only [genPop, emitPopField] at h2
            rw [hlv2, hopt] at h2
            cases h2
            obtain ⟨s1, s2, s3, s4, s5⟩ := pushField_state gl j gl.lvl
            refine .inl ⟨j, _, by simp [fusable], rfl, ⟨rfl, rfl⟩, ?_, rfl, hgl2.thenNop (Ext.nop ?_ rfl ?_ ?_ ?_ ?_ s5)⟩
            · exact hgl3.trans (keep_pushField gl j gl.lvl)
            · show gl.lits <+: (emitPushField gl j gl.lvl).lits
              rw [s1]; exact List.prefix_refl _
            · show gl.depth ≤ (emitPushField gl j gl.lvl).depth + 0 + 1
              omega
            · show gl.maxDepth ≤ max (max (emitPushField gl j gl.lvl).maxDepth ((emitPushField gl j gl.lvl).depth + 0)) ((emitPushField gl j gl.lvl).depth + 0 + 1)
              omega
            · intro _
              show (emitPushField gl j gl.lvl).depth + 0 + 1 ≤ max (max (emitPushField gl j gl.lvl).maxDepth ((emitPushField gl j gl.lvl).depth + 0)) ((emitPushField gl j gl.lvl).depth + 0 + 1)
              omega
            · exact s4
          · rw [if_neg hji] at hopt
            refine .inr ⟨.inl ?_, no ?_⟩
            · simp only [fusable]; rw [if_neg (fun hh => hji hh.symm)]
            · intro n2 i2 hh
              cases hh
              rw [hlv2]; exact hopt
        · refine .inr ⟨.inl ?_, no (noFuse_of _ (.inr (.inr (.inr ?_))))⟩
          · cases e' with
            | fld n' j =>
              exfalso
              have := cEx_l3 hgf
              exact hfld (List.contains_iff_mem.mpr this)
            | _ => rfl
          · show pushFieldBytecodes.contains gf.l3 = false
            simpa using hfld
      · refine .inr ⟨.inl ?_, no (noFuse_of _ (.inr (.inr (.inl hinc))))⟩
        cases e with
        | inc e' => exact absurd (List.mem_singleton.mp (cEx_l3 hge)) hinc
        | _ => rfl

theorem fusable_ts (t t' : Tgt) (ts : List Tgt) (e : Ex M) : fusable t (t' :: ts) e = none := by
  cases t <;> rfl

theorem genAsg_none {lvl : Nat} {t : Tgt} {ts : List Tgt} {e : Ex M} {ce : Gen M X} (h : fusable t ts e = none ∨ ce.2.1 = true) :
    genAsg lvl t ts e ce = (.seq ce.1 (.seq (dupsSC (ts.length + 1)) (popsSC lvl (t :: ts))), ce.2) := by
  unfold genAsg
  rcases h with h | h
  · rw [h]
  · rw [h]; cases fusable t ts e <;> rfl

theorem asg_ok {I : Inliner M X} {e : Ex M} {t : Tgt} {ts : List Tgt} {g ge g1 : G M X} {ce : Gen M X}
    (hge : cEx I.run e (addNames g (t :: ts)) = .ok ge) (h : genPops (emitDups ge (ts.length + 1)) (t :: ts) = .ok g1)
    (ih : Ext (addNames g (t :: ts)) ge ce.1 0 1) (hst : (ge.inl, ge.env) = ce.2) :
    Ext g g1 (genAsg g.lvl t ts e ce).1 0 1 ∧ (g1.inl, g1.env) = (genAsg g.lvl t ts e ce).2 := by
  obtain ⟨an, kn⟩ := addNames_ext (t :: ts) g
  have hinl : ce.2.1 = ge.inl := by rw [← hst]
  -- the general case
  have plain : (fusable t ts e = none ∨ ge.inl = true) → (∀ t' ∈ (t :: ts).head?, NoFuse (emitDups ge (ts.length + 1)) t') →
      Ext g g1 (genAsg g.lvl t ts e ce).1 0 1 ∧ (g1.inl, g1.env) = (genAsg g.lvl t ts e ce).2 := by
    intro hf hn
    rw [genAsg_none (by rw [hinl]; exact hf)]
    obtain ⟨ed, kd⟩ := emitDups_ext (ts.length + 1) ge
    obtain ⟨ep, kp⟩ := genPops_ext (t :: ts) _ _ hn h
    have hlv : (emitDups ge (ts.length + 1)).lvl = g.lvl := by rw [ed.lvl, ih.lvl, an.lvl]
    rw [hlv] at ep
    refine ⟨((an.nopThen ih).seq (ed.seq ep ?_) ?_).cast rfl ?_, ?_⟩
    · simp only [List.length_cons]; omega
    · omega
    · simp only [List.length_cons]; omega
    · dsimp only
      rw [← hst, (kd.trans kp).1, (kd.trans kp).2]
  cases ts with
  | cons t' ts =>
    refine plain (.inl (fusable_ts ..)) (fun t'' _ => noFuse_of t'' (.inr (.inr (.inl ?_))))
    have := (emitDups_l (ts.length + 1) (emit1 ge Op.dup 1) rfl).2 (by omega)
    show (emitDups (emit1 ge Op.dup 1) (ts.length + 1)).l2 ≠ Op.inc
    rw [this]; decide
  | nil =>
    rcases asg1_cases hge ih.lvl h with ⟨i, gb, hf, hi, k1, k2, rfl, hb⟩ | ⟨hf, op, rest, hs⟩
    · have : genAsg g.lvl t [] e ce = (.ins (.incFldPush i g.lvl), ce.2) := by
        unfold genAsg
        rw [hf, hinl, hi]
      rw [this]
      rw [an.lvl]
      refine ⟨(an.thenNop hb).nopThen (ext_incFieldPush gb i g.lvl), ?_⟩
      rw [← hst]
      have h1 := k1.1
      have h2 := k1.2
      rw [an.lvl] at h1 h2
      rw [h1, h2]
    · rw [genAsg_none (by rw [hinl]; exact hf)]
      obtain ⟨ed, kd⟩ := emitDups_ext 1 ge
      have hlv : (emit1 ge Op.dup 1).lvl = g.lvl := by show ge.lvl = _; rw [ih.lvl, an.lvl]
      have ep := hs.ext
      rw [hlv] at ep
      refine ⟨((an.nopThen ih).seq (ed.seq (ep.seq (Ext.refl g1) (by omega)) (by omega)) (by omega)).cast rfl (by omega), ?_⟩
      dsimp only
      rw [← hst, hs.inl, hs.env]
      rfl

/-! ## Literal blocks -/

/-- The state after a block has been pushed. -/
structure BlkShape (g g1 : G M X) (m : M) : Prop where
  len : bytecodeLength g1.l3 = some 2
  isBlk : pushBlockBytecodes.contains g1.l3 = true
  l2 : g1.l2 = g.l3
  l1 : g1.l1 = g.l2
  lit : ∃ op i, g1.bytes = g.bytes ++ [op, i] ∧ g1.lits[i]? = some (.meth m)
  lits : g.lits <+: g1.lits
  depth : g1.depth = g.depth + 1
  maxDepth : g1.maxDepth = max g.maxDepth (g.depth + 1)
  lvl : g1.lvl = g.lvl
  inl : g1.inl = g.inl
  env : g1.env = g.env
  loops : g1.loops = g.loops

theorem blkShape (g : G M X) (m : M) (c : Bool) : BlkShape g (emitPushBlock g m c) m := by
  unfold emitPushBlock
  obtain ⟨h1, h2, h3⟩ := addLit_spec g (.meth m)
  generalize addLiteralIfAbsent g (.meth m) = r at h1 h2 h3
  obtain ⟨i, g1⟩ := r
  dsimp only at *
  rw [h3]
  refine ⟨by cases c <;> rfl, by cases c <;> rfl, rfl, rfl, ⟨_, i, emit2_bytes .., h2⟩, h1, rfl, rfl, rfl, rfl, rfl, rfl⟩

theorem BlkShape.remove {g g1 : G M X} {m : M} (h : BlkShape g g1 m) : removeLast1 g1 = .ok { g1 with bytes := g.bytes } := by
  obtain ⟨op, i, hb, _⟩ := h.lit
  unfold removeLast1
  simp only [lenOf, h.len, bind, Except.bind, subAssert, hb, List.length_append]
  rw [if_pos (by simp)]
  simp

theorem BlkShape.removeExt {g g1 : G M X} {m : M} (h : BlkShape g g1 m) : Ext g { g1 with bytes := g.bytes } .nop 0 0 := by
  refine Ext.nop h.lits rfl ?_ ?_ ?_ h.lvl h.loops
  · show g.depth ≤ g1.depth; rw [h.depth]; omega
  · show g.maxDepth ≤ g1.maxDepth; rw [h.maxDepth]; omega
  · intro _; show g1.depth ≤ g1.maxDepth; rw [h.depth, h.maxDepth]; omega

theorem BlkShape.last {g g1 : G M X} {m : M} (h : BlkShape g g1 m) : ∃ i, g1.bytes[g1.bytes.length - 1]? = some i ∧ g1.lits[i]? = some (.meth m) := by
  obtain ⟨op, i, hb, hl⟩ := h.lit
  exact ⟨i, by simp [hb], hl⟩

theorem blockLit_ok {g : G M X} {i : Nat} {m : M} (h : g.lits[i]? = some (.meth m)) : blockLit g (some i) = .ok m := by
  simp [blockLit, h]

theorem extract_ok {g g1 g2 : G M X} {m1 m2 : M} (h1 : BlkShape g g1 m1) (h2 : BlkShape g1 g2 m2) :
    extractBlocks g2 = .ok (m1, m2, { g2 with bytes := g.bytes }) := by
  obtain ⟨o1, i1, b1, k1⟩ := h1.lit
  obtain ⟨o2, i2, b2, k2⟩ := h2.lit
  have hb : g2.bytes = g.bytes ++ [o1, i1, o2, i2] := by rw [b2, b1]; simp
  have e1 : g2.bytes[g2.bytes.length - 3]? = some i1 := by
    rw [hb]
    have : (g.bytes ++ [o1, i1, o2, i2]).length - 3 = g.bytes.length + 1 := by simp
    rw [this]; simp
  have e2 : g2.bytes[g2.bytes.length - 1]? = some i2 := by rw [hb]; simp
  have hlen1 : bytecodeLength g2.l2 = some 2 := by rw [h2.l2]; exact h1.len
  unfold extractBlocks
  rw [e1, e2, blockLit_ok (getElem?_of_prefix h2.lits k1), blockLit_ok k2]
  simp only [bind, Except.bind, removeLast2, lenOf, h2.len, hlen1, subAssert, hb, List.length_append]
  rw [if_pos (by simp)]
  simp

theorem extractExt {g g1 g2 : G M X} {m1 m2 : M} (h1 : BlkShape g g1 m1) (h2 : BlkShape g1 g2 m2) :
    Ext g { g2 with bytes := g.bytes } .nop 0 0 := by
  have e1 := h1.depth
  have e2 := h2.depth
  have x1 := h1.maxDepth
  have x2 := h2.maxDepth
  refine Ext.nop (h1.lits.trans h2.lits) rfl ?_ ?_ ?_ (h2.lvl.trans h1.lvl) (h2.loops.trans h1.loops)
  · show g.depth ≤ g2.depth; omega
  · show g.maxDepth ≤ g2.maxDepth; omega
  · intro _; show g2.depth ≤ g2.maxDepth; omega

/-! ## Inlined control structures -/

theorem patchJump_with {g g' : G M X} {k : Nat} (h : patchJump g k = .ok g') : ∃ b, g' = { g with bytes := b } := by
  unfold patchJump at h
  obtain ⟨st, _, h⟩ := except_bind_ok h
  cases hb : g.bytes[st]? with
  | none => rw [hb] at h; cases h
  | some op =>
    rw [hb] at h
    dsimp only at h
    split at h
    · cases h
    · split at h
      · cases h
      · split at h
        · cases h; exact ⟨_, rfl⟩
        · generalize (if op < firstDoubleByteJump then op + numSingleByteJumps else op) = op' at h
          by_cases hc : jumpBytecodes.contains op' = false
          · rw [if_pos hc] at h; cases h
          · rw [if_neg hc] at h; cases h; exact ⟨_, rfl⟩

theorem thenBranch_ok {I : Inliner M X} (hI : I.OK) {g g1 g' : G M X} {m : M} {c : JCond} (hb : BlkShape g g1 m) (hg : I.good g.lvl m)
    (h : inlineThenBranch I.run g1 c = .ok (true, g')) :
    Ext g g' (.thenB c (I.code m g.lvl g.env)) 1 0 ∧ g'.inl = true ∧ g'.env = I.env m g.lvl g.env := by
  obtain ⟨i, hi, hl⟩ := hb.last
  unfold inlineThenBranch at h
  rw [if_neg (by rw [hb.isBlk]; decide)] at h
  rw [hi, hb.remove] at h
  obtain ⟨ga, hga, h⟩ := except_bind_ok h
  cases hga
  obtain ⟨m', hm', h⟩ := except_bind_ok h
  rw [blockLit_ok (by exact hl)] at hm'
  cases hm'
  obtain ⟨g2, h2, h⟩ := except_bind_ok h
  obtain ⟨g3, h3, h⟩ := except_bind_ok h
  cases h
  have hlv : g1.lvl = g.lvl := hb.lvl
  have he : g1.env = g.env := hb.env
  obtain ⟨e2, i2, v2⟩ := hI.run m _ _ rfl h2 (show I.good g1.lvl m from hlv ▸ hg)
  replace e2 : Ext _ g2 (I.code m g1.lvl g1.env) 0 1 := e2
  replace v2 : g2.env = I.env m g1.lvl g1.env := v2
  rw [show I.code m g1.lvl g1.env = I.code m g.lvl g.env by rw [hlv, he]] at e2
  rw [hlv, he] at v2
  obtain ⟨e3, b3, rfl⟩ := ext_thenB (g := { g1 with bytes := g.bytes }) (c := c) e2 rfl rfl (Int.add_zero _) (by show max g1.maxDepth (g1.depth + 0) = _; rw [Int.add_zero]) rfl rfl h3
  exact ⟨(hb.removeExt.nopThen e3).congr rfl rfl rfl rfl rfl rfl rfl rfl rfl rfl, i2, v2⟩

theorem thenElse_ok {I : Inliner M X} (hI : I.OK) {g g1 g2 g' : G M X} {m1 m2 : M} {c : JCond} (hb1 : BlkShape g g1 m1) (hb2 : BlkShape g1 g2 m2) (hg1 : I.good g.lvl m1) (hg2 : I.good g.lvl m2)
    (h : inlineThenElse I.run g2 c = .ok (true, g')) :
    Ext g g' (.ifElse c (I.code m1 g.lvl g.env) (I.code m2 g.lvl (I.env m1 g.lvl g.env))) 1 0 ∧ g'.inl = false ∧
      g'.env = I.env m2 g.lvl (I.env m1 g.lvl g.env) := by
  unfold inlineThenElse at h
  rw [if_neg (by simp only [hasTwoBlocks, hb2.isBlk, hb2.l2, hb1.isBlk]; decide)] at h
  rw [extract_ok hb1 hb2] at h
  obtain ⟨ga, hga, h⟩ := except_bind_ok h
  cases hga
  dsimp only at h
  obtain ⟨g3, h3, h⟩ := except_bind_ok h
  obtain ⟨g4, h4, h⟩ := except_bind_ok h
  obtain ⟨g5, h5, h⟩ := except_bind_ok h
  obtain ⟨g6, h6, h⟩ := except_bind_ok h
  cases h
  obtain ⟨e3, i3, v3⟩ := hI.run m1 _ _ rfl h3 (show I.good g2.lvl m1 from (hb2.lvl.trans hb1.lvl) ▸ hg1)
  have hlv : g2.lvl = g.lvl := hb2.lvl.trans hb1.lvl
  have he : g2.env = g.env := hb2.env.trans hb1.env
  replace e3 : Ext _ g3 (I.code m1 g2.lvl g2.env) 0 1 := e3
  replace v3 : g3.env = I.env m1 g2.lvl g2.env := v3
  rw [show I.code m1 g2.lvl g2.env = I.code m1 g.lvl g.env by rw [hlv, he]] at e3
  rw [hlv, he] at v3
  have hlv3 : g3.lvl = g.lvl := e3.lvl.trans hlv
  have k4 : g4.inl = g3.inl ∧ g4.env = g3.env ∧ g4.lvl = g3.lvl := by
    obtain ⟨b, rfl⟩ := patchJump_with h4
    exact ⟨rfl, rfl, rfl⟩
  obtain ⟨e5, i5, v5⟩ := hI.run m2 (resetLast g4) _ (by show g4.inl = true; rw [k4.1, i3]) h5 (show I.good g4.lvl m2 by rw [k4.2.2, hlv3]; exact hg2)
  replace e5 : Ext (resetLast g4) g5 (I.code m2 g4.lvl g4.env) 0 1 := e5
  replace v5 : g5.env = I.env m2 g4.lvl g4.env := v5
  rw [show I.code m2 g4.lvl g4.env = I.code m2 g.lvl (I.env m1 g.lvl g.env) by rw [k4.2.2, k4.2.1, hlv3, v3]] at e5
  rw [k4.2.2, k4.2.1, hlv3, v3] at v5
  have e5' : Ext (resetLast g4) { g5 with inl := false } _ 0 1 := e5.congr rfl rfl rfl rfl rfl rfl rfl rfl rfl rfl
  obtain ⟨e6, b6, rfl⟩ := ext_ifElse (g := { g2 with bytes := g.bytes }) (c := c) (g4 := resetLast g4) e3 rfl rfl rfl rfl rfl rfl h4 rfl rfl rfl rfl rfl rfl e5' h6
  exact ⟨((extractExt hb1 hb2).nopThen e6).congr rfl rfl rfl rfl rfl rfl rfl rfl rfl rfl, rfl, v5⟩

theorem while_ok {I : Inliner M X} (hI : I.OK) {g g1 g2 g' : G M X} {m1 m2 : M} {b : Bool} (hb1 : BlkShape g g1 m1) (hb2 : BlkShape g1 g2 m2) (hg1 : I.good g.lvl m1) (hg2 : I.good g.lvl m2)
    (h : inlineWhile I.run g2 b = .ok (true, g')) :
    Ext g g' (.seq (.loop (if b then .onFalse else .onTrue) (I.code m1 g.lvl g.env) (.seq (I.code m2 g.lvl (I.env m1 g.lvl g.env)) (.ins .pop)))
      (.ins (.pushConst .nil))) 0 1 ∧ g'.inl = false ∧ g'.env = I.env m2 g.lvl (I.env m1 g.lvl g.env) := by
  unfold inlineWhile at h
  rw [if_neg (by simp only [hasTwoBlocks, hb2.isBlk, hb2.l2, hb1.isBlk]; decide)] at h
  rw [extract_ok hb1 hb2] at h
  obtain ⟨ga, hga, h⟩ := except_bind_ok h
  cases hga
  dsimp only at h
  obtain ⟨g3, h3, h⟩ := except_bind_ok h
  obtain ⟨g5, h5, h⟩ := except_bind_ok h
  obtain ⟨g6, h6, h⟩ := except_bind_ok h
  obtain ⟨g7, h7, h⟩ := except_bind_ok h
  obtain ⟨g8, h8, h⟩ := except_bind_ok h
  cases h
  obtain ⟨e3, i3, v3⟩ := hI.run m1 _ _ rfl h3 (show I.good g2.lvl m1 from (hb2.lvl.trans hb1.lvl) ▸ hg1)
  have hlv : g2.lvl = g.lvl := hb2.lvl.trans hb1.lvl
  have he : g2.env = g.env := hb2.env.trans hb1.env
  replace e3 : Ext _ g3 (I.code m1 g2.lvl g2.env) 0 1 := e3
  replace v3 : g3.env = I.env m1 g2.lvl g2.env := v3
  rw [show I.code m1 g2.lvl g2.env = I.code m1 g.lvl g.env by rw [hlv, he]] at e3
  rw [hlv, he] at v3
  have hlv3 : g3.lvl = g.lvl := e3.lvl.trans hlv
  generalize hc : (if b = true then JCond.onFalse else JCond.onTrue) = c at *
  obtain ⟨e5, i5, v5⟩ := hI.run m2 (emitJumpOnDummy g3 c true).2 _ i3 h5 (show I.good g3.lvl m2 by rw [show g3.lvl = g.lvl from e3.lvl.trans hlv]; exact hg2)
  replace e5 : Ext _ g5 (I.code m2 g3.lvl g3.env) 0 1 := e5
  replace v5 : g5.env = I.env m2 g3.lvl g3.env := v5
  rw [show I.code m2 g3.lvl g3.env = I.code m2 g.lvl (I.env m1 g.lvl g.env) by rw [hlv3, v3]] at e5
  rw [hlv3, v3] at v5
  have h6' : g6 = emit1 (resetLast g5) Op.pop (-1) := by
    unfold emitPop optimizeDupPopPop at h6
    rw [if_pos (show (resetLast g5).inl = true from i5)] at h6
    cases h6
    rfl
  subst h6'
  have e6 : Ext (emitJumpOnDummy g3 c true).2 (emit1 (resetLast g5) Op.pop (-1)) (.seq (I.code m2 g.lvl (I.env m1 g.lvl g.env)) (.ins .pop)) 0 0 :=
    ((e5.congr (h' := resetLast g5) rfl rfl rfl rfl rfl rfl rfl rfl rfl rfl).seq (ext_pop (resetLast g5)) (by omega)).cast rfl (by omega)
  obtain ⟨e8, i8, v8⟩ := ext_loop e3 (g2 := (emitJumpOnDummy g3 c true).2) rfl rfl rfl rfl rfl rfl e6 h7 h8
  have e9 := (e8.seq (ext_pushConstant g8 .nil) (by omega)).cast (k' := 1) rfl (by omega)
  have e10 := (extractExt hb1 hb2).nopThen (e9.congr (h := { g2 with bytes := g.bytes }) (h' := resetLast (emitPushConstant g8 .nil)) rfl rfl rfl rfl rfl rfl rfl rfl rfl rfl)
  have kk := keep_pushConstant g8 .nil
  refine ⟨e10.congr rfl rfl rfl rfl rfl rfl rfl rfl rfl rfl, rfl, ?_⟩
  show (emitPushConstant g8 .nil).env = _
  rw [kk.2, v8]
  exact v5

theorem andOr_ok {I : Inliner M X} (hI : I.OK) {g g1 g' : G M X} {m : M} {b : Bool} (hb : BlkShape g g1 m) (hg : I.good g.lvl m)
    (h : inlineAndOr I.run g1 b = .ok (true, g')) :
    Ext g g' (.ifElse (if b then .onTrue else .onFalse) (I.code m g.lvl g.env) (.ins (.pushConst (if b then .tru else .fls)))) 1 0 ∧
      g'.inl = false ∧ g'.env = I.env m g.lvl g.env := by
  obtain ⟨i, hi, hl⟩ := hb.last
  unfold inlineAndOr at h
  rw [if_neg (by rw [hb.isBlk]; decide)] at h
  rw [hi, hb.remove] at h
  obtain ⟨ga, hga, h⟩ := except_bind_ok h
  cases hga
  obtain ⟨m', hm', h⟩ := except_bind_ok h
  rw [blockLit_ok (by exact hl)] at hm'
  cases hm'
  obtain ⟨g3, h3, h⟩ := except_bind_ok h
  obtain ⟨g4, h4, h⟩ := except_bind_ok h
  obtain ⟨g6, h6, h⟩ := except_bind_ok h
  cases h
  obtain ⟨e3, i3, v3⟩ := hI.run m _ _ rfl h3 (show I.good g1.lvl m from hb.lvl ▸ hg)
  have hlv : g1.lvl = g.lvl := hb.lvl
  have he : g1.env = g.env := hb.env
  replace e3 : Ext _ g3 (I.code m g1.lvl g1.env) 0 1 := e3
  replace v3 : g3.env = I.env m g1.lvl g1.env := v3
  rw [show I.code m g1.lvl g1.env = I.code m g.lvl g.env by rw [hlv, he]] at e3
  rw [hlv, he] at v3
  generalize hc : (if b = true then JCond.onTrue else JCond.onFalse) = c at *
  generalize hv : (if b = true then Val.tru else Val.fls) = v at *
  have k4 : g4.inl = false ∧ g4.env = g3.env := by
    obtain ⟨b, rfl⟩ := patchJump_with h4
    exact ⟨rfl, rfl⟩
  have kk := keep_pushConstant g4 v
  have e3' := e3.congr (h' := { g3 with inl := false }) rfl rfl rfl rfl rfl rfl rfl rfl rfl rfl
  obtain ⟨e6, b6, rfl⟩ := ext_ifElse (g := { g1 with bytes := g.bytes }) (c := c) e3' rfl rfl rfl rfl rfl rfl h4
    rfl rfl rfl rfl rfl rfl (ext_pushConstant g4 v) h6
  refine ⟨(hb.removeExt.nopThen e6).congr rfl rfl rfl rfl rfl rfl rfl rfl rfl rfl, ?_, ?_⟩
  · show (emitPushConstant g4 _).inl = false
    rw [kk.1, k4.1]
  · show (emitPushConstant g4 _).env = _
    rw [kk.2, k4.2, v3]

/-! ## Expressions -/

def Special.arity : Special → Nat
  | .thenElse _ => 3
  | _ => 2

theorem special_arity {sel : Sel} {sp : Special} (h : special? sel = some sp) :
    Sym.numberOfSignatureArguments sel = sp.arity := by
  have hm : (sel, sp) ∈ specials := by
    unfold special? at h
    generalize specials = l at h
    induction l with
    | nil => cases h
    | cons p l ih =>
      obtain ⟨a, b⟩ := p
      rw [List.lookup_cons] at h
      split at h
      · rename_i heq
        cases h
        rw [show sel = a from by simpa using heq]
        exact List.mem_cons_self
      · exact List.mem_cons_of_mem _ (ih h)
  revert hm
  have hall : ∀ p ∈ specials, Sym.numberOfSignatureArguments p.1 = p.2.arity := by decide +kernel
  exact fun hm => hall _ hm

theorem Exs.length_one {as : Exs M} (h : as.length = 1) : ∃ a, as = .cons a .nil := by
  cases as with
  | nil => cases h
  | cons a as =>
    cases as with
    | nil => exact ⟨a, rfl⟩
    | cons b as => simp [Exs.length] at h

theorem Exs.length_two {as : Exs M} (h : as.length = 2) : ∃ a b, as = .cons a (.cons b .nil) := by
  cases as with
  | nil => cases h
  | cons a as =>
    obtain ⟨b, rfl⟩ := Exs.length_one (as := as) (by simpa [Exs.length] using h)
    exact ⟨a, b, rfl⟩

mutual
theorem cEx_ok {I : Inliner M X} (hI : I.OK) (e : Ex M) : ∀ (g g' : G M X), e.wf (I.good g.lvl) → cEx I.run e g = .ok g' →
    Ext g g' (genEx I g.lvl e (g.inl, g.env)).1 0 1 ∧ (g'.inl, g'.env) = (genEx I g.lvl e (g.inl, g.env)).2 := by
  intro g g' hw h
  have keep : ∀ {a b : G M X}, Keep a b → (b.inl, b.env) = (a.inl, a.env) := fun k => by rw [k.1, k.2]
  cases e with
  | lit l =>
    simp only [cEx] at h
    simp only [Ex.wf] at hw
    obtain ⟨h1, k⟩ := cLit_ext l g g' hw h
    exact ⟨h1, keep k⟩
  | glob n => simp only [cEx] at h; cases h; exact ⟨ext_pushGlobal g n, keep (keep_pushGlobal g n)⟩
  | var a i l => simp only [cEx] at h; cases h; exact ⟨ext_pushVar g a i l, keep (by cases a <;> exact keep3 ..)⟩
  | fld n i =>
    simp only [cEx] at h; cases h
    have hl := addLit_lvl g (.val (.sym n))
    have h2 := ext_pushField (addLiteralIfAbsent g (.val (.sym n))).2 i
    rw [hl] at h2
    exact ⟨(addLit_ext g _).nopThen h2, keep ((keepLit g _).trans (keep_pushField _ _ _))⟩
  | blk c m => simp only [cEx] at h; cases h; exact ⟨ext_pushBlock g m c, keep (keep_pushBlock g m c)⟩
  | asg t ts e =>
    simp only [cEx] at h
    obtain ⟨ge, hge, h⟩ := except_bind_ok h
    simp only [Ex.wf] at hw
    obtain ⟨an, kn⟩ := addNames_ext (t :: ts) g
    obtain ⟨h1, k1⟩ := cEx_ok hI e (addNames g (t :: ts)) _ (an.lvl.symm ▸ hw) hge
    rw [an.lvl, keep kn] at h1 k1
    simp only [genEx]
    exact asg_ok hge h h1 k1
  | inc e =>
    simp only [cEx] at h
    obtain ⟨ge, hge, h⟩ := except_bind_ok h
    simp only [Ex.wf] at hw
    obtain ⟨h1, k1⟩ := cEx_ok hI e _ _ hw hge
    cases h
    simp only [genEx]
    exact ⟨h1.seq (ext_inc ge) (by omega), k1⟩
  | dec e =>
    simp only [cEx] at h
    obtain ⟨ge, hge, h⟩ := except_bind_ok h
    simp only [Ex.wf] at hw
    obtain ⟨h1, k1⟩ := cEx_ok hI e _ _ hw hge
    cases h
    simp only [genEx]
    exact ⟨h1.seq (ext_dec ge) (by omega), k1⟩
  | superSend sel r as =>
    simp only [cEx] at h
    obtain ⟨gr, hgr, h⟩ := except_bind_ok h
    obtain ⟨ga, hga, h⟩ := except_bind_ok h
    simp only [Ex.wf] at hw
    obtain ⟨wr, wa, ar⟩ := hw
    obtain ⟨h1, k1⟩ := cEx_ok hI r _ _ wr hgr
    obtain ⟨h2, k2⟩ := cExs_ok hI as _ _ (h1.lvl ▸ wa) hga
    cases h
    rw [h1.lvl, k1] at h2 k2
    simp only [genEx]
    have h3 := ext_superSend ga sel
    refine ⟨(h1.seq ((h2.weaken (Nat.zero_le 1)).seq h3 (by omega)) (by omega)).cast rfl (by omega), ?_⟩
    rw [← k2]
    exact keep (keep_superSend ga sel)
  | send sel r as =>
    simp only [cEx] at h
    obtain ⟨gr, hgr, h⟩ := except_bind_ok h
    obtain ⟨ga, hga, h⟩ := except_bind_ok h
    simp only [Ex.wf] at hw
    obtain ⟨wr, wa, ar⟩ := hw
    obtain ⟨h1, k1⟩ := cEx_ok hI r _ _ wr hgr
    obtain ⟨h2, k2⟩ := cExs_ok hI as _ _ (h1.lvl ▸ wa) hga
    rw [h1.lvl, k1] at h2 k2
    simp only [genEx]
    -- a plain send
    have plain : inlined? sel r as = none → g' = emitSend ga sel →
        Ext g g' (genSend I g.lvl sel (inlined? sel r as) (genEx I g.lvl r (g.inl, g.env)) (genExs I g.lvl as (genEx I g.lvl r (g.inl, g.env)).2)).1 0 1 ∧
        (g'.inl, g'.env) = (genSend I g.lvl sel (inlined? sel r as) (genEx I g.lvl r (g.inl, g.env)) (genExs I g.lvl as (genEx I g.lvl r (g.inl, g.env)).2)).2 := by
      intro hn hg
      subst hg
      rw [hn]
      simp only [genSend]
      have h3 := ext_send ga sel
      refine ⟨(h1.seq ((h2.weaken (Nat.zero_le 1)).seq h3 (by omega)) (by omega)).cast rfl (by omega), ?_⟩
      rw [← k2]
      exact keep (keep_send ga sel)
    have hst1 : gr.inl = (genEx I g.lvl r (g.inl, g.env)).2.1 := by rw [← k1]
    have hst2 : gr.env = (genEx I g.lvl r (g.inl, g.env)).2.2 := by rw [← k1]
    unfold sendOrInline at h
    cases hsp : special? sel with
    | none =>
      rw [hsp] at h
      refine plain ?_ (by cases h; rfl)
      simp only [inlined?, hsp]
    | some sp =>
      rw [hsp] at h
      have har := special_arity hsp
      rw [ar] at har
      obtain ⟨⟨b, g1⟩, hb, h⟩ := except_bind_ok h
      dsimp only at h
      cases sp with
      | thenBranch c =>
        obtain ⟨a, rfl⟩ := Exs.length_one (as := as) (by simp only [Special.arity] at har; omega)
        simp only [cExs] at hga
        obtain ⟨ga', hga', hga⟩ := except_bind_ok hga
        cases hga
        simp only [tryInline] at hb
        by_cases hblk : pushBlockBytecodes.contains ga.l3 = true
        · obtain ⟨ct, m, rfl⟩ := lastOps_block (cEx_l3 hga') hblk
          simp only [cEx] at hga'
          cases hga'
          have hbs := blkShape gr m ct
          cases b with
          | false =>
            exfalso
            unfold inlineThenBranch at hb
            rw [if_neg (by rw [hblk]; decide)] at hb
            obtain ⟨_, _, hb⟩ := except_bind_ok hb
            obtain ⟨_, _, hb⟩ := except_bind_ok hb
            obtain ⟨_, _, hb⟩ := except_bind_ok hb
            obtain ⟨_, _, hb⟩ := except_bind_ok hb
            cases hb
          | true =>
            cases h
            obtain ⟨e1, i1, v1⟩ := thenBranch_ok hI hbs (h1.lvl ▸ (by simpa only [Exs.wf, Ex.wf, and_true] using wa)) hb
            rw [h1.lvl, hst2] at e1 v1
            simp only [inlined?, hsp, genSend]
            exact ⟨h1.seq e1 (by omega), by simp [i1, v1]⟩
        · unfold inlineThenBranch at hb
          rw [if_pos (by simpa using hblk)] at hb
          cases hb
          refine plain ?_ (by cases h; rfl)
          cases a with
          | blk ct m => simp only [cEx] at hga'; cases hga'; exact absurd (blkShape gr m ct).isBlk hblk
          | _ => simp only [inlined?, hsp]
      | andOr c =>
        obtain ⟨a, rfl⟩ := Exs.length_one (as := as) (by simp only [Special.arity] at har; omega)
        simp only [cExs] at hga
        obtain ⟨ga', hga', hga⟩ := except_bind_ok hga
        cases hga
        simp only [tryInline] at hb
        by_cases hblk : pushBlockBytecodes.contains ga.l3 = true
        · obtain ⟨ct, m, rfl⟩ := lastOps_block (cEx_l3 hga') hblk
          simp only [cEx] at hga'
          cases hga'
          have hbs := blkShape gr m ct
          cases b with
          | false =>
            exfalso
            unfold inlineAndOr at hb
            rw [if_neg (by rw [hblk]; decide)] at hb
            obtain ⟨_, _, hb⟩ := except_bind_ok hb
            obtain ⟨_, _, hb⟩ := except_bind_ok hb
            obtain ⟨_, _, hb⟩ := except_bind_ok hb
            obtain ⟨_, _, hb⟩ := except_bind_ok hb
            obtain ⟨_, _, hb⟩ := except_bind_ok hb
            cases hb
          | true =>
            cases h
            obtain ⟨e1, i1, v1⟩ := andOr_ok hI hbs (h1.lvl ▸ (by simpa only [Exs.wf, Ex.wf, and_true] using wa)) hb
            rw [h1.lvl, hst2] at e1 v1
            simp only [inlined?, hsp, genSend]
            exact ⟨h1.seq e1 (by omega), by simp [i1, v1]⟩
        · unfold inlineAndOr at hb
          rw [if_pos (by simpa using hblk)] at hb
          cases hb
          refine plain ?_ (by cases h; rfl)
          cases a with
          | blk ct m => simp only [cEx] at hga'; cases hga'; exact absurd (blkShape gr m ct).isBlk hblk
          | _ => simp only [inlined?, hsp]
      | «while» c =>
        obtain ⟨a, rfl⟩ := Exs.length_one (as := as) (by simp only [Special.arity] at har; omega)
        simp only [cExs] at hga
        obtain ⟨ga', hga', hga⟩ := except_bind_ok hga
        cases hga
        simp only [tryInline] at hb
        by_cases hblk : hasTwoBlocks ga = true
        · have hblk' := hblk
          simp only [hasTwoBlocks, Bool.and_eq_true] at hblk'
          obtain ⟨ct, m, rfl⟩ := lastOps_block (cEx_l3 hga') hblk'.1
          simp only [cEx] at hga'
          cases hga'
          have hbs := blkShape gr m ct
          rw [hbs.l2] at hblk'
          obtain ⟨ct', m', rfl⟩ := lastOps_block (cEx_l3 hgr) hblk'.2
          simp only [cEx] at hgr
          cases hgr
          have hbs' := blkShape g m' ct'
          cases b with
          | false =>
            exfalso
            unfold inlineWhile at hb
            rw [if_neg (by rw [hblk]; decide)] at hb
            obtain ⟨⟨_, _, _⟩, _, hb⟩ := except_bind_ok hb
            dsimp only at hb
            obtain ⟨_, _, hb⟩ := except_bind_ok hb
            obtain ⟨_, _, hb⟩ := except_bind_ok hb
            obtain ⟨_, _, hb⟩ := except_bind_ok hb
            obtain ⟨_, _, hb⟩ := except_bind_ok hb
            obtain ⟨_, _, hb⟩ := except_bind_ok hb
            cases hb
          | true =>
            cases h
            obtain ⟨e1, i1, v1⟩ := while_ok hI hbs' hbs (by simpa only [Ex.wf] using wr) (by simpa only [Exs.wf, Ex.wf, and_true] using wa) hb
            simp only [inlined?, hsp, genSend, genEx]
            exact ⟨e1, by simp [i1, v1]⟩
        · unfold inlineWhile at hb
          rw [if_pos (by simpa using hblk)] at hb
          cases hb
          refine plain ?_ (by cases h; rfl)
          cases a with
          | blk ct m =>
            simp only [cEx] at hga'; cases hga'
            cases r with
            | blk ct' m' =>
              simp only [cEx] at hgr; cases hgr
              exact absurd (by simp only [hasTwoBlocks, (blkShape _ m ct).isBlk, (blkShape _ m ct).l2, (blkShape g m' ct').isBlk]; rfl) hblk
            | _ => simp only [inlined?, hsp]
          | _ => cases r <;> simp only [inlined?, hsp]
      | thenElse c =>
        obtain ⟨a1, a2, rfl⟩ := Exs.length_two (as := as) (by simp only [Special.arity] at har; omega)
        simp only [cExs] at hga
        obtain ⟨gb, hgb, hga⟩ := except_bind_ok hga
        obtain ⟨gc, hgc, hga⟩ := except_bind_ok hga
        cases hga
        simp only [tryInline] at hb
        by_cases hblk : hasTwoBlocks ga = true
        · have hblk' := hblk
          simp only [hasTwoBlocks, Bool.and_eq_true] at hblk'
          obtain ⟨ct, m, rfl⟩ := lastOps_block (cEx_l3 hgc) hblk'.1
          simp only [cEx] at hgc
          cases hgc
          have hbs := blkShape gb m ct
          rw [hbs.l2] at hblk'
          obtain ⟨ct', m', rfl⟩ := lastOps_block (cEx_l3 hgb) hblk'.2
          simp only [cEx] at hgb
          cases hgb
          have hbs' := blkShape gr m' ct'
          cases b with
          | false =>
            exfalso
            unfold inlineThenElse at hb
            rw [if_neg (by rw [hblk]; decide)] at hb
            obtain ⟨⟨_, _, _⟩, _, hb⟩ := except_bind_ok hb
            dsimp only at hb
            obtain ⟨_, _, hb⟩ := except_bind_ok hb
            obtain ⟨_, _, hb⟩ := except_bind_ok hb
            obtain ⟨_, _, hb⟩ := except_bind_ok hb
            obtain ⟨_, _, hb⟩ := except_bind_ok hb
            cases hb
          | true =>
            cases h
            obtain ⟨e1, i1, v1⟩ := thenElse_ok hI hbs' hbs (h1.lvl ▸ (by simp only [Exs.wf, Ex.wf, and_true] at wa; exact wa.1)) (h1.lvl ▸ (by simp only [Exs.wf, Ex.wf, and_true] at wa; exact wa.2)) hb
            rw [h1.lvl, hst2] at e1 v1
            simp only [inlined?, hsp, genSend]
            exact ⟨h1.seq e1 (by omega), by simp [i1, v1]⟩
        · unfold inlineThenElse at hb
          rw [if_pos (by simpa using hblk)] at hb
          cases hb
          refine plain ?_ (by cases h; rfl)
          cases a2 with
          | blk ct m =>
            simp only [cEx] at hgc; cases hgc
            cases a1 with
            | blk ct' m' =>
              simp only [cEx] at hgb; cases hgb
              exact absurd (by simp only [hasTwoBlocks, (blkShape _ m ct).isBlk, (blkShape _ m ct).l2, (blkShape gr m' ct').isBlk]; rfl) hblk
            | _ => simp only [inlined?, hsp]
          | _ => cases a1 <;> simp only [inlined?, hsp]
theorem cExs_ok {I : Inliner M X} (hI : I.OK) (es : Exs M) : ∀ (g g' : G M X), es.wf (I.good g.lvl) → cExs I.run es g = .ok g' →
    Ext g g' (genExs I g.lvl es (g.inl, g.env)).1 0 es.length ∧ (g'.inl, g'.env) = (genExs I g.lvl es (g.inl, g.env)).2 := by
  intro g g' hw h
  cases es with
  | nil => simp only [cExs] at h; cases h; exact ⟨Ext.refl g, rfl⟩
  | cons e es =>
    simp only [cExs] at h
    obtain ⟨ge, hge, h⟩ := except_bind_ok h
    simp only [Exs.wf] at hw
    obtain ⟨h1, k1⟩ := cEx_ok hI e _ _ hw.1 hge
    obtain ⟨h2, k2⟩ := cExs_ok hI es _ _ (h1.lvl ▸ hw.2) h
    rw [h1.lvl, k1] at h2 k2
    simp only [genExs]
    exact ⟨(h1.seq h2 (by omega)).cast rfl (by simp only [Exs.length]; omega), k2⟩
end

end
end PySOM.BC

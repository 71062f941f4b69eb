import Verif.Lemmas.Emit
/-!
# Inlined control structures: the jumps emitted around inlined blocks
-/
set_option autoImplicit false
namespace PySOM.BC
open PySOM

section
variable {M X : Type}

theorem isJump_patched {op : Nat} (hop : jumpBytecodes.contains op = true) {d : Dec M} (hd : ∀ lits, decode lits [op, 0, 0] = some d) (o : Nat) :
    IsJump (d.withOff o) (patched op o) :=
  ⟨patched_length op o, fun lits rest => decode_patched hop lits 0 0 o [] rest d (hd lits), by
    obtain ⟨d', h1, h2⟩ := decode_jump (M := M) hop [] 0 0 []
    rw [hd] at h1
    cases h1
    have hdist : (d.withOff o).dist = o := by
      cases d with
      | ins i l => exact absurd rfl (h2 i l)
      | _ => rfl
    rw [hdist]
    unfold patched
    split
    · exact ⟨_, _, _, rfl, by simp⟩
    · exact ⟨_, _, _, rfl, (low_high o).symm⟩⟩

theorem isJump_top (c : JCond) (o : Nat) : IsJump (M := M) (.jumpTop c o) (patched (jumpOp c false) o) := by
  cases c <;> exact isJump_patched (d := .jumpTop _ 0) (by decide) (fun _ => rfl) o

theorem isJump_pop (c : JCond) (o : Nat) : IsJump (M := M) (.jumpPop c o) (patched (jumpOp c true) o) := by
  cases c <;> exact isJump_patched (d := .jumpPop _ 0) (by decide) (fun _ => rfl) o

theorem isJump_jump (o : Nat) : IsJump (M := M) (.jump o) (patched Op.jump o) :=
  isJump_patched (d := .jump 0) (by decide) (fun _ => rfl) o

theorem isJump_back (o : Nat) :
    IsJump (M := M) (.jumpBack o) [if o ≤ 0xFF then Op.jumpBackward else Op.jump2Backward, o &&& 0xFF, o >>> 8] := by
  refine ⟨rfl, fun lits rest => ?_, _, _, _, rfl, (low_high o).symm⟩
  split
  · rename_i h
    have h3 : o &&& 0xFF = o % 2 ^ 8 := Nat.and_two_pow_sub_one_eq_mod o 8
    have : o &&& 0xFF = o := by omega
    rw [this]; rfl
  · have := low_high o
    conv => rhs; rw [← this]
    rfl

theorem jumpOp_mem (c : JCond) (b : Bool) : jumpBytecodes.contains (jumpOp c b) = true := by cases c <;> cases b <;> decide

theorem emit3Dummy_bytes (g : G M X) (op : Nat) (k : Int) : (emit3Dummy g op k).2.bytes = g.bytes ++ [op, 0, 0] := by
  simp [emit3Dummy, addArg, addBytecode]

/-- What patching does, given what is before and after the jump. -/
theorem patchJump_ok {g g' : G M X} {at1 : Nat} {pre mid : List Nat} {op x y : Nat} (h : patchJump g at1 = .ok g') (hat : at1 = pre.length + 1)
    (hb : g.bytes = pre ++ op :: x :: y :: mid) (hop : jumpBytecodes.contains op = true) :
    g' = { g with bytes := pre ++ patched op (3 + mid.length) ++ mid } := by
  subst hat
  rw [patchJump_eq g pre mid op x y hb hop] at h
  split at h
  · cases h; rfl
  · cases h

/-- `inline_then_branch`. -/
theorem ext_thenB {g g1 g2 g3 : G M X} {c : JCond} {body : SC M}
    (e : Ext g1 g2 body 0 1) (hb1 : g1.bytes = (emitJumpOnDummy g c false).2.bytes) (hl1 : g1.lits = g.lits) (hd1 : g1.depth = g.depth)
    (hx1 : g1.maxDepth = max g.maxDepth g.depth) (hv1 : g1.lvl = g.lvl) (ho1 : g1.loops = g.loops)
    (hp : patchJump g2 (emitJumpOnDummy g c false).1 = .ok g3) :
    Ext g g3 (.thenB c body) 1 0 ∧ ∃ b, g3 = { g2 with bytes := b } := by
  obtain ⟨bs, hbs, hbody⟩ := e.bytes
  have hb2 : g2.bytes = g.bytes ++ jumpOp c false :: 0 :: 0 :: bs := by
    rw [hbs, hb1]; simp [emitJumpOnDummy, emit3Dummy_bytes]
  have h3 := patchJump_ok hp rfl hb2 (jumpOp_mem c false)
  refine ⟨?_, _, h3⟩
  subst h3
  refine ⟨by rw [← hl1]; exact e.lits, ⟨patched (jumpOp c false) (3 + bs.length) ++ bs, by simp, ?_⟩, ?_, ?_, ?_, ?_, ?_⟩
  · exact .thenB c body _ bs (isJump_top c _) hbody
  · intro h; exact e.ok (by rw [hd1, hx1]; omega)
  · have := e.mono; rw [hx1] at this; dsimp only; omega
  · intro h d hm hd
    obtain ⟨d', t, e1, l, x⟩ := e.dep (by rw [hd1, hx1]; omega) (d - 1) (Nat.zero_le _) (by rw [hd1]; omega)
    have hdd : d' = d := by omega
    subst hdd
    refine ⟨d', ?_, by omega, l, ?_⟩
    · simp only [SC.ty]; rw [if_pos ⟨hm, t⟩]
    · have := e.mono; rw [hx1] at this
      simp only [SC.maxd]; omega
  · show g2.lvl = g.lvl
    rw [e.lvl, hv1]
  · obtain ⟨ls, h1, h2⟩ := e.loops
    have hlen : g1.bytes.length = g.bytes.length + 3 := by rw [hb1]; simp [emitJumpOnDummy, emit3Dummy_bytes]
    refine ⟨ls, by show g2.loops = _; rw [h1, ho1], fun x hx => ?_⟩
    have := h2 x hx
    rw [hbs] at this
    exact (this.swap (Nat.le_refl _) (by simp [hlen, patched_length])).le (by omega)

/-- `inline_then_else_branches` and `inline_andor`. -/
theorem ext_ifElse {g g1 g2 g3 g4 g5 g6 : G M X} {c : JCond} {a b : SC M}
    (ea : Ext g1 g2 a 0 1) (hb1 : g1.bytes = (emitJumpOnDummy g c true).2.bytes) (hl1 : g1.lits = g.lits) (hd1 : g1.depth = g.depth + -1)
    (hx1 : g1.maxDepth = max g.maxDepth (g.depth + -1)) (hv1 : g1.lvl = g.lvl) (ho1 : g1.loops = g.loops)
    (hp : patchJump (emitJumpDummy g2).2 (emitJumpOnDummy g c true).1 = .ok g3)
    (hb4 : g4.bytes = g3.bytes) (hl4 : g4.lits = g3.lits) (hd4 : g4.depth = g3.depth) (hx4 : g4.maxDepth = g3.maxDepth) (hv4 : g4.lvl = g3.lvl) (ho4 : g4.loops = g3.loops)
    (eb : Ext g4 g5 b 0 1) (hq : patchJump g5 (emitJumpDummy g2).1 = .ok g6) :
    Ext g g6 (.ifElse c a b) 1 0 ∧ ∃ b, g6 = { g5 with bytes := b } := by
  obtain ⟨ba, hba, ca⟩ := ea.bytes
  obtain ⟨bb, hbb, cb⟩ := eb.bytes
  have h2 : (emitJumpDummy g2).2.bytes = g.bytes ++ jumpOp c true :: 0 :: 0 :: (ba ++ [Op.jump, 0, 0]) := by
    simp only [emitJumpDummy]; rw [emit3Dummy_bytes, hba, hb1]; simp [emitJumpOnDummy, emit3Dummy_bytes]
  have h3 := patchJump_ok hp rfl h2 (jumpOp_mem c true)
  have hb5 : g5.bytes = (g.bytes ++ patched (jumpOp c true) (3 + (ba ++ [Op.jump, 0, 0]).length) ++ ba) ++ Op.jump :: 0 :: 0 :: bb := by
    rw [hbb, hb4, h3]; simp
  have hat : (emitJumpDummy g2).1 = (g.bytes ++ patched (jumpOp c true) (3 + (ba ++ [Op.jump, 0, 0]).length) ++ ba).length + 1 := by
    simp only [emitJumpDummy, emit3Dummy]
    rw [hba, hb1]
    simp only [emitJumpOnDummy, emit3Dummy_bytes]
    simp only [List.length_append, patched_length]
    simp
  have h6 := patchJump_ok hq hat hb5 (by decide)
  have hl3 : g3.lits = g2.lits := by rw [h3]; rfl
  have hd3 : g3.depth = g2.depth := by rw [h3]; show g2.depth + 0 = g2.depth; omega
  have hx3 : g3.maxDepth = max g2.maxDepth g2.depth := by rw [h3]; show max g2.maxDepth (g2.depth + 0) = _; rw [Int.add_zero]
  have hv3 : g3.lvl = g2.lvl := by rw [h3]; rfl
  refine ⟨?_, _, h6⟩
  subst h6
  refine ⟨?_, ⟨patched (jumpOp c true) (3 + (ba ++ [Op.jump, 0, 0]).length) ++ (ba ++ (patched Op.jump (3 + bb.length) ++ bb)), by simp, ?_⟩, ?_, ?_, ?_, ?_, ?_⟩
  · have := eb.lits
    rw [hl4, hl3] at this
    rw [← hl1]
    exact ea.lits.trans this
  · have e1 : 3 + (ba ++ [Op.jump, 0, 0]).length = 3 + ba.length + 3 := by simp; omega
    rw [e1]
    refine .ifElse c a b _ ba _ bb (isJump_pop c _) (ca.mono ?_) (isJump_jump _) cb
    have := eb.lits
    rw [hl4, hl3] at this
    exact this
  · intro h
    have h2 := ea.ok (by rw [hd1, hx1]; omega)
    exact eb.ok (by rw [hd4, hx4, hd3, hx3]; omega)
  · have h1 := ea.mono
    have h2 := eb.mono
    rw [hx1] at h1
    rw [hx4, hx3] at h2
    dsimp only
    omega
  · intro h d hm hd
    have m1 := ea.mono
    have m2 := eb.mono
    rw [hx1] at m1
    rw [hx4, hx3] at m2
    have ok2 := ea.ok (by rw [hd1, hx1]; omega)
    obtain ⟨d1, t1, e1, l1, x1⟩ := ea.dep (by rw [hd1, hx1]; omega) (d - 1) (Nat.zero_le _) (by rw [hd1]; omega)
    obtain ⟨d2, t2, e2, l2, x2⟩ := eb.dep (by rw [hd4, hx4, hd3, hx3]; omega) (d - 1) (Nat.zero_le _) (by rw [hd4, hd3]; omega)
    have hd1 : d1 = d := by omega
    have hd2 : d2 = d := by omega
    rw [hd1] at t1; rw [hd2] at t2
    refine ⟨d, ?_, by omega, by dsimp only; omega, ?_⟩
    · simp only [SC.ty, t1, t2]; rw [if_pos ⟨hm, trivial⟩]
    · simp only [SC.maxd]; omega
  · show g5.lvl = g.lvl
    rw [eb.lvl, hv4, hv3, ea.lvl, hv1]
  · obtain ⟨l1, h1, h2⟩ := ea.loops
    obtain ⟨l2, k1, k2⟩ := eb.loops
    have ho3 : g3.loops = g2.loops := by rw [h3]; rfl
    have hlen : g1.bytes.length = g.bytes.length + 3 := by rw [hb1]; simp [emitJumpOnDummy, emit3Dummy_bytes]
    have hlen4 : g4.bytes.length = g.bytes.length + 3 + ba.length + 3 := by rw [hb4, h3]; simp [patched_length]; omega
    refine ⟨l1 ++ l2, by show g5.loops = _; rw [k1, ho4, ho3, h1, ho1]; simp, fun x hx => ?_⟩
    rcases List.mem_append.mp hx with hx | hx
    · have := h2 x hx
      rw [hba] at this
      have := ((this.swap (p' := g.bytes ++ patched (jumpOp c true) (3 + (ba ++ [Op.jump, 0, 0]).length)) (Nat.le_refl _) (by simp [hlen, patched_length])).le
        (base' := g.bytes.length) (by omega)).append (patched Op.jump (3 + bb.length) ++ bb)
      simpa using this
    · have := k2 x hx
      rw [hbb] at this
      exact (this.swap (Nat.le_refl _) (by simp [hlen4, patched_length]; omega)).le (by omega)

/-- `inline_while`. -/
theorem ext_loop {g g1 g2 g3 g4 g5 : G M X} {c : JCond} {cond body : SC M}
    (ec : Ext g g1 cond 0 1)
    (hb2 : g2.bytes = (emitJumpOnDummy g1 c true).2.bytes) (hl2 : g2.lits = g1.lits) (hd2 : g2.depth = g1.depth + -1)
    (hx2 : g2.maxDepth = max g1.maxDepth (g1.depth + -1)) (hv2 : g2.lvl = g1.lvl) (ho2 : g2.loops = g1.loops)
    (eb : Ext g2 g3 body 0 0) (hk : emitBackJump g3 g.bytes.length = .ok g4) (hp : patchJump g4 (emitJumpOnDummy g1 c true).1 = .ok g5) :
    Ext g g5 (.loop c cond body) 0 0 ∧ g5.inl = g3.inl ∧ g5.env = g3.env := by
  obtain ⟨bc, hbc, cc⟩ := ec.bytes
  obtain ⟨bb, hbb, cb⟩ := eb.bytes
  have hb3 : g3.bytes = g.bytes ++ (bc ++ ([jumpOp c true, 0, 0] ++ bb)) := by
    rw [hbb, hb2]; simp only [emitJumpOnDummy, emit3Dummy_bytes]; rw [hbc]; simp
  unfold emitBackJump at hk
  dsimp only at hk
  split at hk
  · cases hk
  · rename_i hr
    have hoff : ((g3.bytes.length : Int) - (g.bytes.length : Int)).toNat = bc.length + 3 + bb.length := by rw [hb3]; simp; omega
    rw [hoff] at hk
    cases hk
    generalize hj : [if bc.length + 3 + bb.length ≤ 0xFF then Op.jumpBackward else Op.jump2Backward, (bc.length + 3 + bb.length) &&& 0xFF,
      (bc.length + 3 + bb.length) >>> 8] = jb at *
    have hbj : (emit3 g3 (if bc.length + 3 + bb.length ≤ 0xFF then Op.jumpBackward else Op.jump2Backward) ((bc.length + 3 + bb.length) &&& 0xFF)
      ((bc.length + 3 + bb.length) >>> 8) 0).bytes = (g.bytes ++ bc) ++ jumpOp c true :: 0 :: 0 :: (bb ++ jb) := by
      rw [emit3_bytes, hb3, ← hj]; simp
    have hat : (emitJumpOnDummy g1 c true).1 = (g.bytes ++ bc).length + 1 := by simp only [emitJumpOnDummy, emit3Dummy]; rw [hbc]
    have h5 := patchJump_ok hp hat hbj (jumpOp_mem c true)
    have hjl : jb.length = 3 := by rw [← hj]; rfl
    have hjb : IsJump (M := M) (.jumpBack (bc.length + 3 + bb.length)) jb := by rw [← hj]; exact isJump_back _
    subst h5
    refine ⟨?_, rfl, rfl⟩
    have l3 : g1.lits <+: g3.lits := by rw [← hl2]; exact eb.lits
    refine ⟨ec.lits.trans l3, ⟨bc ++ (patched (jumpOp c true) (3 + (bb ++ jb).length) ++ (bb ++ jb)), by simp, ?_⟩, ?_, ?_, ?_, ?_, ?_⟩
    · have e1 : 3 + (bb ++ jb).length = 3 + bb.length + 3 := by simp [hjl]; omega
      rw [e1]
      exact .loop c cond body bc _ bb jb (cc.mono l3) (isJump_pop c _) cb hjb
    · intro h
      have h1 := ec.ok h
      have h2 := eb.ok (by rw [hd2, hx2]; omega)
      show g3.depth + 0 ≤ max g3.maxDepth (g3.depth + 0)
      omega
    · have h1 := ec.mono
      have h2 := eb.mono
      rw [hx2] at h2
      show g.maxDepth ≤ max g3.maxDepth (g3.depth + 0)
      omega
    · intro h d hm hd
      have h1 := ec.ok h
      have m2 := eb.mono
      rw [hx2] at m2
      obtain ⟨d1, t1, e1, l1, x1⟩ := ec.dep h d (Nat.zero_le _) hd
      obtain ⟨d2, t2, e2, l2, x2⟩ := eb.dep (by rw [hd2, hx2]; omega) d (Nat.zero_le _) (by rw [hd2]; omega)
      have hd1 : d1 = d + 1 := by omega
      have hd2' : d2 = d := by omega
      rw [hd1] at t1; rw [hd2'] at t2
      refine ⟨d, ?_, by omega, ?_, ?_⟩
      · simp only [SC.ty]; rw [if_pos ⟨t1, t2⟩]
      · show (d : Int) ≤ g3.depth + 0
        omega
      · show ((SC.loop c cond body).maxd d : Int) ≤ max g3.maxDepth (g3.depth + 0)
        simp only [SC.maxd]; omega
    · show g3.lvl = g.lvl
      rw [eb.lvl, hv2, ec.lvl]
    · obtain ⟨l1, h1, h2⟩ := ec.loops
      obtain ⟨l2, k1, k2⟩ := eb.loops
      have hlen2 : g2.bytes.length = g.bytes.length + bc.length + 3 := by rw [hb2]; simp [emitJumpOnDummy, emit3Dummy_bytes, hbc]; omega
      refine ⟨l1 ++ l2 ++ [(g.bytes.length, g3.bytes.length)], by show g3.loops ++ _ = _; rw [k1, ho2, h1]; simp, fun x hx => ?_⟩
      rcases List.mem_append.mp hx with hx | hx
      · rcases List.mem_append.mp hx with hx | hx
        · have := (h2 x hx).append (patched (jumpOp c true) (3 + (bb ++ jb).length) ++ (bb ++ jb))
          rw [hbc] at this
          simpa using this
        · have := k2 x hx
          rw [hbb] at this
          have := ((this.swap (p' := g.bytes ++ bc ++ patched (jumpOp c true) (3 + (bb ++ jb).length)) (Nat.le_refl _)
            (by simp [hlen2, patched_length]; omega)).append jb).le (base' := g.bytes.length) (by omega)
          simpa using this
      · simp only [List.mem_singleton] at hx
        subst hx
        refine ⟨Nat.le_refl _, by rw [hb3]; simp, g.bytes ++ bc ++ patched (jumpOp c true) (3 + (bb ++ jb).length) ++ bb, jb, [], by simp, ?_, ?_⟩
        · rw [hb3]; simp [patched_length]; omega
        · have : g3.bytes.length - g.bytes.length = bc.length + 3 + bb.length := by rw [hb3]; simp; omega
          show IsJump (.jumpBack (g3.bytes.length - g.bytes.length)) jb
          rw [this]; exact hjb

end
end PySOM.BC

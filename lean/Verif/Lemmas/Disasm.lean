import Verif.Spec.Disasm
/-!
# Lemmas for the disassembler
-/
set_option autoImplicit false
namespace PySOM.Disasm
open PySOM BC

theorem byteAt_ok {bytes : List Nat} {i b : Nat} (h : bytes[i]? = some b) : byteAt bytes i = .ok b := by
  unfold byteAt; rw [h]

theorem constant_ok {lits : List (Lit Meth)} {bytes : List Nat} {p i : Nat} {l : Lit Meth} (h : bytes[p + 1]? = some i) (hl : lits[i]? = some l) :
    constant lits bytes p = .ok l := by
  unfold constant
  rw [byteAt_ok h]
  show (match lits[i]? with | some l => Except.ok l | none => Except.error Fail.index) = _
  rw [hl]

theorem fieldName_ok {N : Names} {i : Nat} {fs : List Text} {f : Text} (h : N.fields = some fs) (hf : fs[i]? = some f) : fieldName N i = .ok f := by
  unfold fieldName
  rw [h]
  show (match fs[i]? with | some f => Except.ok f | none => Except.error Fail.index) = _
  rw [hf]

theorem constVal_inv {lits : List (Lit Meth)} {i : Nat} {v : Val} (h : constVal lits i = some v) : lits[i]? = some (.val v) := by
  unfold constVal at h
  split at h
  · rename_i e; cases h; exact e
  · cases h

theorem constSym_inv {lits : List (Lit Meth)} {i : Nat} {s : Sel} (h : constSym lits i = some s) : lits[i]? = some (.val (.sym s)) := by
  unfold constSym at h
  split at h
  · rename_i e; cases h; exact e
  · cases h

theorem constMeth_inv {lits : List (Lit Meth)} {i : Nat} {m : Meth} (h : constMeth lits i = some m) : lits[i]? = some (.meth m) := by
  unfold constMeth at h
  split at h
  · rename_i e; cases h; exact e
  · cases h

/-- What is printed for one instruction. -/
structure Printed (N : Names) (exact : Bool) (inner : Lit Meth → Text → Except Fail Text) (lits : List (Lit Meth)) (bytes : List Nat) (indent : Text) (p op : Nat) (d : Dec Meth)
    (word : String) (text : Text) : Prop where
  name : names[op]? = some word
  run : operands N inner lits bytes indent p op = .ok text
  isWord : Spec.Word lits d word
  isText : Spec.Operands N exact lits indent p d text

section
variable {N : Names} {exact : Bool} {inner : Lit Meth → Text → Except Fail Text} {lits : List (Lit Meth)} {bytes : List Nat} {indent : Text} {p op : Nat} {d : Dec Meth}

theorem one_byte {word : String} (hn : names[op]? = some word) (hl : lengthOf op = .ok 1) {i : Ins Meth} (hw : Spec.Word lits (.ins i 1) word) :
    ∃ w t, Printed N exact inner lits bytes indent p op (.ins i 1) w t := by
  refine ⟨word, "\n".toList, hn, ?_, hw, .none _ _ _ _⟩
  unfold operands
  rw [hl]
  rfl

theorem a_jump {word : String} (hn : names[op]? = some word) (hop : op ∈ jumpBytecodes) (hd : ∀ i n, d ≠ .ins i n)
    (hj : (∀ i n, d ≠ .ins i n) → ∃ a b, bytes[p + 1]? = some a ∧ bytes[p + 2]? = some b ∧ d.dist = a + b <<< 8) (hw : Spec.Word lits d word)
    (hb : (op = Op.jumpBackward ∨ op = Op.jump2Backward) ↔ ∃ o, d = .jumpBack o) :
    ∃ w t, Printed N exact inner lits bytes indent p op d w t := by
  obtain ⟨a, b, ha, hb', he⟩ := hj hd
  have hA := byteAt_ok ha
  have hB := byteAt_ok hb'
  refine ⟨word, "(jump offset: ".toList ++ dec d.dist ++ " -> jump target: ".toList ++ decInt (if op = Op.jumpBackward ∨ op = Op.jump2Backward then (p : Int) - d.dist else p + d.dist) ++
    ")\n".toList, hn, ?_, hw, ?_⟩
  · rw [he]
    unfold operands
    rw [hA, hB]
    simp only [jumpBytecodes, List.mem_cons, List.not_mem_nil, or_false] at hop
    clear hn hw hb hd hj he
    rcases hop with rfl | rfl | rfl | rfl | rfl | rfl | rfl | rfl | rfl | rfl | rfl | rfl | rfl | rfl | rfl | rfl | rfl | rfl | rfl | rfl <;> rfl
  · cases d with
    | ins i n => exact absurd rfl (hd i n)
    | jumpBack o =>
      rw [if_pos (hb.mpr ⟨o, rfl⟩)]
      exact .backward _ _ _ _
    | jump o =>
      rw [if_neg fun h => by obtain ⟨_, h⟩ := hb.mp h; cases h]
      exact .forward _ _ p o .onNil _ (.inl rfl)
    | jumpTop c o =>
      rw [if_neg fun h => by obtain ⟨_, h⟩ := hb.mp h; cases h]
      exact .forward _ _ p o c _ (.inr (.inl rfl))
    | jumpPop c o =>
      rw [if_neg fun h => by obtain ⟨_, h⟩ := hb.mp h; cases h]
      exact .forward _ _ p o c _ (.inr (.inr rfl))
set_option maxHeartbeats 1000000 in
/-- Every instruction is printed as it should be. -/
theorem line_ok (h : decodeOp lits op bytes[p + 1]? bytes[p + 2]? = some d) (hs : ∀ b ∈ bytes, b ≤ 255)
    (hj : (∀ i n, d ≠ .ins i n) → ∃ a b, bytes[p + 1]? = some a ∧ bytes[p + 2]? = some b ∧ d.dist = a + b <<< 8)
    (hf : ∀ i l k, d = .ins k 3 → k = .pushFld i l ∨ k = .popFld i l ∨ k = .incFld i l ∨ k = .incFldPush i l → ∃ fs f, N.fields = some fs ∧ fs[i]? = some f)
    (hk : ∀ m, d = .ins (.pushBlock true m) 2 → ∃ t, inner (.meth m) (indent ++ "\t".toList) = .ok t ∧ Spec.Listing N exact m (indent ++ "\t".toList) t)
    (hx : ∀ m, d = .ins (.pushBlock false m) 2 → exact = false) : ∃ w t, Printed N exact inner lits bytes indent p op d w t := by
  unfold decodeOp at h
  by_cases e : op = Op.dup
  · subst e
    rw [if_pos rfl] at h
    cases h
    exact one_byte rfl rfl (.dup _)
  rw [if_neg e] at h
  clear e
  by_cases e : op = Op.pushField
  · subst e
    rw [if_pos rfl] at h
    simp only [Option.bind_eq_bind, Option.bind_eq_some_iff, Option.some.injEq] at h
    obtain ⟨a, ha, b, hb, rfl⟩ := h
    obtain ⟨fs, f, h1, h2⟩ := hf a b _ rfl (.inl rfl)
    refine ⟨_, _, rfl, ?_, .pushField _ _, .field _ _ _ a b fs f _ (.inl rfl) h1 h2⟩
    unfold operands
    rw [byteAt_ok ha, byteAt_ok hb]
    show (fieldName N a >>= _) = _
    rw [fieldName_ok h1 h2]
    rfl
  rw [if_neg e] at h
  clear e
  by_cases e : op = Op.pushField0
  · subst e
    rw [if_pos rfl] at h
    cases h
    exact one_byte rfl rfl (.pushField0)
  rw [if_neg e] at h
  clear e
  by_cases e : op = Op.pushField1
  · subst e
    rw [if_pos rfl] at h
    cases h
    exact one_byte rfl rfl (.pushField1)
  rw [if_neg e] at h
  clear e
  by_cases e : op = Op.pushBlock
  · subst e
    rw [if_pos rfl] at h
    simp only [Option.bind_eq_bind, Option.bind_eq_some_iff, Option.some.injEq] at h
    obtain ⟨a, ha, m, hm, rfl⟩ := h
    obtain ⟨t, h1, h2⟩ := hk m rfl
    refine ⟨_, _, rfl, ?_, .pushBlock _ _, .block _ _ _ _ m a t (constMeth_inv hm) h2⟩
    unfold operands
    rw [byteAt_ok ha, constant_ok ha (constMeth_inv hm)]
    show (inner (.meth m) (indent ++ "\t".toList) >>= _) = _
    rw [h1]
    rfl
  rw [if_neg e] at h
  clear e
  by_cases e : op = Op.pushBlockNoCtx
  · subst e
    rw [if_pos rfl] at h
    simp only [Option.bind_eq_bind, Option.bind_eq_some_iff, Option.some.injEq] at h
    obtain ⟨a, ha, m, hm, rfl⟩ := h
    exact ⟨_, _, rfl, rfl, .pushBlockNoCtx _ _, .lost _ _ _ m (hx m rfl)⟩
  rw [if_neg e] at h
  clear e
  by_cases e : op = Op.pushConstant
  · subst e
    rw [if_pos rfl] at h
    simp only [Option.bind_eq_bind, Option.bind_eq_some_iff, Option.some.injEq] at h
    obtain ⟨a, ha, v, hv, rfl⟩ := h
    refine ⟨_, _, rfl, ?_, .pushConstant _, .constant _ _ _ v a (constVal_inv hv)⟩
    unfold operands
    rw [byteAt_ok ha, constant_ok ha (constVal_inv hv)]
    rfl
  rw [if_neg e] at h
  clear e
  by_cases e : op = Op.pushConstant0
  · subst e
    rw [if_pos rfl] at h
    simp only [Option.bind_eq_bind, Option.bind_eq_some_iff, Option.some.injEq] at h
    obtain ⟨v, hv, rfl⟩ := h
    exact one_byte rfl rfl (.pushConstant0 _ (constVal_inv hv))
  rw [if_neg e] at h
  clear e
  by_cases e : op = Op.pushConstant1
  · subst e
    rw [if_pos rfl] at h
    simp only [Option.bind_eq_bind, Option.bind_eq_some_iff, Option.some.injEq] at h
    obtain ⟨v, hv, rfl⟩ := h
    exact one_byte rfl rfl (.pushConstant1 _ (constVal_inv hv))
  rw [if_neg e] at h
  clear e
  by_cases e : op = Op.pushConstant2
  · subst e
    rw [if_pos rfl] at h
    simp only [Option.bind_eq_bind, Option.bind_eq_some_iff, Option.some.injEq] at h
    obtain ⟨v, hv, rfl⟩ := h
    exact one_byte rfl rfl (.pushConstant2 _ (constVal_inv hv))
  rw [if_neg e] at h
  clear e
  by_cases e : op = Op.push0
  · subst e
    rw [if_pos rfl] at h
    cases h
    exact one_byte rfl rfl (.push0)
  rw [if_neg e] at h
  clear e
  by_cases e : op = Op.push1
  · subst e
    rw [if_pos rfl] at h
    cases h
    exact one_byte rfl rfl (.push1)
  rw [if_neg e] at h
  clear e
  by_cases e : op = Op.pushNil
  · subst e
    rw [if_pos rfl] at h
    cases h
    exact one_byte rfl rfl (.pushNil)
  rw [if_neg e] at h
  clear e
  by_cases e : op = Op.pushGlobal
  · subst e
    rw [if_pos rfl] at h
    simp only [Option.bind_eq_bind, Option.bind_eq_some_iff, Option.some.injEq] at h
    obtain ⟨a, ha, v, hv, rfl⟩ := h
    refine ⟨_, _, rfl, ?_, .pushGlobal _ _, .global _ _ _ v a (constSym_inv hv)⟩
    unfold operands
    rw [byteAt_ok ha, constant_ok ha (constSym_inv hv)]
    rfl
  rw [if_neg e] at h
  clear e
  by_cases e : op = Op.pop
  · subst e
    rw [if_pos rfl] at h
    cases h
    exact one_byte rfl rfl (.pop _)
  rw [if_neg e] at h
  clear e
  by_cases e : op = Op.popField
  · subst e
    rw [if_pos rfl] at h
    simp only [Option.bind_eq_bind, Option.bind_eq_some_iff, Option.some.injEq] at h
    obtain ⟨a, ha, b, hb, rfl⟩ := h
    obtain ⟨fs, f, h1, h2⟩ := hf a b _ rfl (.inr (.inl rfl))
    refine ⟨_, _, rfl, ?_, .popField _ _, .field _ _ _ a b fs f _ (.inr (.inl rfl)) h1 h2⟩
    unfold operands
    rw [byteAt_ok ha, byteAt_ok hb]
    show (fieldName N a >>= _) = _
    rw [fieldName_ok h1 h2]
    rfl
  rw [if_neg e] at h
  clear e
  by_cases e : op = Op.popField0
  · subst e
    rw [if_pos rfl] at h
    cases h
    exact one_byte rfl rfl (.popField0)
  rw [if_neg e] at h
  clear e
  by_cases e : op = Op.popField1
  · subst e
    rw [if_pos rfl] at h
    cases h
    exact one_byte rfl rfl (.popField1)
  rw [if_neg e] at h
  clear e
  by_cases e : op = Op.send1
  · subst e
    rw [if_pos rfl] at h
    simp only [Option.bind_eq_bind, Option.bind_eq_some_iff, Option.some.injEq] at h
    obtain ⟨a, ha, v, hv, rfl⟩ := h
    refine ⟨_, _, rfl, ?_, .send1 _ _, .send _ _ _ v a _ (constSym_inv hv)⟩
    unfold operands
    rw [byteAt_ok ha, constant_ok ha (constSym_inv hv)]
    rfl
  rw [if_neg e] at h
  clear e
  by_cases e : op = Op.send2
  · subst e
    rw [if_pos rfl] at h
    simp only [Option.bind_eq_bind, Option.bind_eq_some_iff, Option.some.injEq] at h
    obtain ⟨a, ha, v, hv, rfl⟩ := h
    refine ⟨_, _, rfl, ?_, .send2 _ _, .send _ _ _ v a _ (constSym_inv hv)⟩
    unfold operands
    rw [byteAt_ok ha, constant_ok ha (constSym_inv hv)]
    rfl
  rw [if_neg e] at h
  clear e
  by_cases e : op = Op.send3
  · subst e
    rw [if_pos rfl] at h
    simp only [Option.bind_eq_bind, Option.bind_eq_some_iff, Option.some.injEq] at h
    obtain ⟨a, ha, v, hv, rfl⟩ := h
    refine ⟨_, _, rfl, ?_, .send3 _ _, .send _ _ _ v a _ (constSym_inv hv)⟩
    unfold operands
    rw [byteAt_ok ha, constant_ok ha (constSym_inv hv)]
    rfl
  rw [if_neg e] at h
  clear e
  by_cases e : op = Op.sendN
  · subst e
    rw [if_pos rfl] at h
    simp only [Option.bind_eq_bind, Option.bind_eq_some_iff, Option.some.injEq] at h
    obtain ⟨a, ha, v, hv, rfl⟩ := h
    refine ⟨_, _, rfl, ?_, .sendN _ _, .send _ _ _ v a _ (constSym_inv hv)⟩
    unfold operands
    rw [byteAt_ok ha, constant_ok ha (constSym_inv hv)]
    rfl
  rw [if_neg e] at h
  clear e
  by_cases e : op = Op.superSend
  · subst e
    rw [if_pos rfl] at h
    simp only [Option.bind_eq_bind, Option.bind_eq_some_iff, Option.some.injEq] at h
    obtain ⟨a, ha, v, hv, rfl⟩ := h
    refine ⟨_, _, rfl, ?_, .superSend _ _ _, .superSend _ _ _ v a _ (constSym_inv hv)⟩
    unfold operands
    rw [byteAt_ok ha, constant_ok ha (constSym_inv hv)]
    rfl
  rw [if_neg e] at h
  clear e
  by_cases e : op = Op.returnLocal
  · subst e
    rw [if_pos rfl] at h
    cases h
    exact one_byte rfl rfl (.retLocal _)
  rw [if_neg e] at h
  clear e
  by_cases e : op = Op.returnNonLocal
  · subst e
    rw [if_pos rfl] at h
    simp only [Option.bind_eq_bind, Option.bind_eq_some_iff, Option.some.injEq] at h
    obtain ⟨a, ha, rfl⟩ := h
    refine ⟨_, _, rfl, ?_, .retNonLocal _ _, .retNonLocal _ _ _ a⟩
    unfold operands
    rw [byteAt_ok ha]
    rfl
  rw [if_neg e] at h
  clear e
  by_cases e : op = Op.returnSelf
  · subst e
    rw [if_pos rfl] at h
    cases h
    exact one_byte rfl rfl (.retSelf _)
  rw [if_neg e] at h
  clear e
  by_cases e : op = Op.returnField0
  · subst e
    rw [if_pos rfl] at h
    cases h
    exact one_byte rfl rfl (.retField0 _)
  rw [if_neg e] at h
  clear e
  by_cases e : op = Op.returnField1
  · subst e
    rw [if_pos rfl] at h
    cases h
    exact one_byte rfl rfl (.retField1 _)
  rw [if_neg e] at h
  clear e
  by_cases e : op = Op.returnField2
  · subst e
    rw [if_pos rfl] at h
    cases h
    exact one_byte rfl rfl (.retField2 _)
  rw [if_neg e] at h
  clear e
  by_cases e : op = Op.inc
  · subst e
    rw [if_pos rfl] at h
    cases h
    exact one_byte rfl rfl (.inc _)
  rw [if_neg e] at h
  clear e
  by_cases e : op = Op.dec
  · subst e
    rw [if_pos rfl] at h
    cases h
    exact one_byte rfl rfl (.dec _)
  rw [if_neg e] at h
  clear e
  by_cases e : op = Op.incField
  · subst e
    rw [if_pos rfl] at h
    simp only [Option.bind_eq_bind, Option.bind_eq_some_iff, Option.some.injEq] at h
    obtain ⟨a, ha, b, hb, rfl⟩ := h
    obtain ⟨fs, f, h1, h2⟩ := hf a b _ rfl (.inr (.inr (.inl rfl)))
    refine ⟨_, _, rfl, ?_, .incField _ _ _, .field _ _ _ a b fs f _ (.inr (.inr (.inl rfl))) h1 h2⟩
    unfold operands
    rw [byteAt_ok ha, byteAt_ok hb]
    show (fieldName N a >>= _) = _
    rw [fieldName_ok h1 h2]
    rfl
  rw [if_neg e] at h
  clear e
  by_cases e : op = Op.incFieldPush
  · subst e
    rw [if_pos rfl] at h
    simp only [Option.bind_eq_bind, Option.bind_eq_some_iff, Option.some.injEq] at h
    obtain ⟨a, ha, b, hb, rfl⟩ := h
    obtain ⟨fs, f, h1, h2⟩ := hf a b _ rfl (.inr (.inr (.inr rfl)))
    refine ⟨_, _, rfl, ?_, .incFieldPush _ _ _, .field _ _ _ a b fs f _ (.inr (.inr (.inr rfl))) h1 h2⟩
    unfold operands
    rw [byteAt_ok ha, byteAt_ok hb]
    show (fieldName N a >>= _) = _
    rw [fieldName_ok h1 h2]
    rfl
  rw [if_neg e] at h
  clear e
  by_cases e : op = Op.jump
  · subst e
    rw [if_pos rfl] at h
    simp only [Option.bind_eq_bind, Option.bind_eq_some_iff, Option.some.injEq] at h
    obtain ⟨a, ha, rfl⟩ := h
    exact a_jump rfl (by decide) nofun hj (.jump _ (hs _ (List.mem_of_getElem? ha))) ⟨fun h => absurd h (by decide), fun h => by obtain ⟨_, h⟩ := h; cases h⟩
  rw [if_neg e] at h
  clear e
  by_cases e : op = Op.jumpOnTrueTopNil
  · subst e
    rw [if_pos rfl] at h
    simp only [Option.bind_eq_bind, Option.bind_eq_some_iff, Option.some.injEq] at h
    obtain ⟨a, ha, rfl⟩ := h
    exact a_jump rfl (by decide) nofun hj (.jumpTop .onTrue _ (hs _ (List.mem_of_getElem? ha))) ⟨fun h => absurd h (by decide), fun h => by obtain ⟨_, h⟩ := h; cases h⟩
  rw [if_neg e] at h
  clear e
  by_cases e : op = Op.jumpOnFalseTopNil
  · subst e
    rw [if_pos rfl] at h
    simp only [Option.bind_eq_bind, Option.bind_eq_some_iff, Option.some.injEq] at h
    obtain ⟨a, ha, rfl⟩ := h
    exact a_jump rfl (by decide) nofun hj (.jumpTop .onFalse _ (hs _ (List.mem_of_getElem? ha))) ⟨fun h => absurd h (by decide), fun h => by obtain ⟨_, h⟩ := h; cases h⟩
  rw [if_neg e] at h
  clear e
  by_cases e : op = Op.jumpOnTruePop
  · subst e
    rw [if_pos rfl] at h
    simp only [Option.bind_eq_bind, Option.bind_eq_some_iff, Option.some.injEq] at h
    obtain ⟨a, ha, rfl⟩ := h
    exact a_jump rfl (by decide) nofun hj (.jumpPop .onTrue _ (hs _ (List.mem_of_getElem? ha))) ⟨fun h => absurd h (by decide), fun h => by obtain ⟨_, h⟩ := h; cases h⟩
  rw [if_neg e] at h
  clear e
  by_cases e : op = Op.jumpOnFalsePop
  · subst e
    rw [if_pos rfl] at h
    simp only [Option.bind_eq_bind, Option.bind_eq_some_iff, Option.some.injEq] at h
    obtain ⟨a, ha, rfl⟩ := h
    exact a_jump rfl (by decide) nofun hj (.jumpPop .onFalse _ (hs _ (List.mem_of_getElem? ha))) ⟨fun h => absurd h (by decide), fun h => by obtain ⟨_, h⟩ := h; cases h⟩
  rw [if_neg e] at h
  clear e
  by_cases e : op = Op.jumpOnNotNilTopTop
  · subst e
    rw [if_pos rfl] at h
    simp only [Option.bind_eq_bind, Option.bind_eq_some_iff, Option.some.injEq] at h
    obtain ⟨a, ha, rfl⟩ := h
    exact a_jump rfl (by decide) nofun hj (.jumpTop .onNotNil _ (hs _ (List.mem_of_getElem? ha))) ⟨fun h => absurd h (by decide), fun h => by obtain ⟨_, h⟩ := h; cases h⟩
  rw [if_neg e] at h
  clear e
  by_cases e : op = Op.jumpOnNilTopTop
  · subst e
    rw [if_pos rfl] at h
    simp only [Option.bind_eq_bind, Option.bind_eq_some_iff, Option.some.injEq] at h
    obtain ⟨a, ha, rfl⟩ := h
    exact a_jump rfl (by decide) nofun hj (.jumpTop .onNil _ (hs _ (List.mem_of_getElem? ha))) ⟨fun h => absurd h (by decide), fun h => by obtain ⟨_, h⟩ := h; cases h⟩
  rw [if_neg e] at h
  clear e
  by_cases e : op = Op.jumpOnNotNilPop
  · subst e
    rw [if_pos rfl] at h
    simp only [Option.bind_eq_bind, Option.bind_eq_some_iff, Option.some.injEq] at h
    obtain ⟨a, ha, rfl⟩ := h
    exact a_jump rfl (by decide) nofun hj (.jumpPop .onNotNil _ (hs _ (List.mem_of_getElem? ha))) ⟨fun h => absurd h (by decide), fun h => by obtain ⟨_, h⟩ := h; cases h⟩
  rw [if_neg e] at h
  clear e
  by_cases e : op = Op.jumpOnNilPop
  · subst e
    rw [if_pos rfl] at h
    simp only [Option.bind_eq_bind, Option.bind_eq_some_iff, Option.some.injEq] at h
    obtain ⟨a, ha, rfl⟩ := h
    exact a_jump rfl (by decide) nofun hj (.jumpPop .onNil _ (hs _ (List.mem_of_getElem? ha))) ⟨fun h => absurd h (by decide), fun h => by obtain ⟨_, h⟩ := h; cases h⟩
  rw [if_neg e] at h
  clear e
  by_cases e : op = Op.jumpBackward
  · subst e
    rw [if_pos rfl] at h
    simp only [Option.bind_eq_bind, Option.bind_eq_some_iff, Option.some.injEq] at h
    obtain ⟨a, ha, rfl⟩ := h
    exact a_jump rfl (by decide) nofun hj (.jumpBack _ (hs _ (List.mem_of_getElem? ha))) ⟨fun _ => ⟨_, rfl⟩, fun _ => by decide⟩
  rw [if_neg e] at h
  clear e
  by_cases e : op = Op.jump2
  · subst e
    rw [if_pos rfl] at h
    simp only [Option.bind_eq_bind, Option.bind_eq_some_iff, Option.some.injEq] at h
    obtain ⟨a, ha, b, hb, rfl⟩ := h
    exact a_jump rfl (by decide) nofun hj (.jump2 _) ⟨fun h => absurd h (by decide), fun h => by obtain ⟨_, h⟩ := h; cases h⟩
  rw [if_neg e] at h
  clear e
  by_cases e : op = Op.jump2OnTrueTopNil
  · subst e
    rw [if_pos rfl] at h
    simp only [Option.bind_eq_bind, Option.bind_eq_some_iff, Option.some.injEq] at h
    obtain ⟨a, ha, b, hb, rfl⟩ := h
    exact a_jump rfl (by decide) nofun hj (.jumpTop2 .onTrue _) ⟨fun h => absurd h (by decide), fun h => by obtain ⟨_, h⟩ := h; cases h⟩
  rw [if_neg e] at h
  clear e
  by_cases e : op = Op.jump2OnFalseTopNil
  · subst e
    rw [if_pos rfl] at h
    simp only [Option.bind_eq_bind, Option.bind_eq_some_iff, Option.some.injEq] at h
    obtain ⟨a, ha, b, hb, rfl⟩ := h
    exact a_jump rfl (by decide) nofun hj (.jumpTop2 .onFalse _) ⟨fun h => absurd h (by decide), fun h => by obtain ⟨_, h⟩ := h; cases h⟩
  rw [if_neg e] at h
  clear e
  by_cases e : op = Op.jump2OnTruePop
  · subst e
    rw [if_pos rfl] at h
    simp only [Option.bind_eq_bind, Option.bind_eq_some_iff, Option.some.injEq] at h
    obtain ⟨a, ha, b, hb, rfl⟩ := h
    exact a_jump rfl (by decide) nofun hj (.jumpPop2 .onTrue _) ⟨fun h => absurd h (by decide), fun h => by obtain ⟨_, h⟩ := h; cases h⟩
  rw [if_neg e] at h
  clear e
  by_cases e : op = Op.jump2OnFalsePop
  · subst e
    rw [if_pos rfl] at h
    simp only [Option.bind_eq_bind, Option.bind_eq_some_iff, Option.some.injEq] at h
    obtain ⟨a, ha, b, hb, rfl⟩ := h
    exact a_jump rfl (by decide) nofun hj (.jumpPop2 .onFalse _) ⟨fun h => absurd h (by decide), fun h => by obtain ⟨_, h⟩ := h; cases h⟩
  rw [if_neg e] at h
  clear e
  by_cases e : op = Op.jump2OnNotNilTopTop
  · subst e
    rw [if_pos rfl] at h
    simp only [Option.bind_eq_bind, Option.bind_eq_some_iff, Option.some.injEq] at h
    obtain ⟨a, ha, b, hb, rfl⟩ := h
    exact a_jump rfl (by decide) nofun hj (.jumpTop2 .onNotNil _) ⟨fun h => absurd h (by decide), fun h => by obtain ⟨_, h⟩ := h; cases h⟩
  rw [if_neg e] at h
  clear e
  by_cases e : op = Op.jump2OnNilTopTop
  · subst e
    rw [if_pos rfl] at h
    simp only [Option.bind_eq_bind, Option.bind_eq_some_iff, Option.some.injEq] at h
    obtain ⟨a, ha, b, hb, rfl⟩ := h
    exact a_jump rfl (by decide) nofun hj (.jumpTop2 .onNil _) ⟨fun h => absurd h (by decide), fun h => by obtain ⟨_, h⟩ := h; cases h⟩
  rw [if_neg e] at h
  clear e
  by_cases e : op = Op.jump2OnNotNilPop
  · subst e
    rw [if_pos rfl] at h
    simp only [Option.bind_eq_bind, Option.bind_eq_some_iff, Option.some.injEq] at h
    obtain ⟨a, ha, b, hb, rfl⟩ := h
    exact a_jump rfl (by decide) nofun hj (.jumpPop2 .onNotNil _) ⟨fun h => absurd h (by decide), fun h => by obtain ⟨_, h⟩ := h; cases h⟩
  rw [if_neg e] at h
  clear e
  by_cases e : op = Op.jump2OnNilPop
  · subst e
    rw [if_pos rfl] at h
    simp only [Option.bind_eq_bind, Option.bind_eq_some_iff, Option.some.injEq] at h
    obtain ⟨a, ha, b, hb, rfl⟩ := h
    exact a_jump rfl (by decide) nofun hj (.jumpPop2 .onNil _) ⟨fun h => absurd h (by decide), fun h => by obtain ⟨_, h⟩ := h; cases h⟩
  rw [if_neg e] at h
  clear e
  by_cases e : op = Op.jump2Backward
  · subst e
    rw [if_pos rfl] at h
    simp only [Option.bind_eq_bind, Option.bind_eq_some_iff, Option.some.injEq] at h
    obtain ⟨a, ha, b, hb, rfl⟩ := h
    exact a_jump rfl (by decide) nofun hj (.jumpBack2 _) ⟨fun _ => ⟨_, rfl⟩, fun _ => by decide⟩
  rw [if_neg e] at h
  clear e
  by_cases e : op = Op.pushLocal
  · subst e
    rw [if_pos rfl] at h
    simp only [Option.bind_eq_bind, Option.bind_eq_some_iff, Option.some.injEq] at h
    obtain ⟨a, ha, b, hb, rfl⟩ := h
    refine ⟨_, _, rfl, ?_, .pushLocal _ _ _, .pushVar _ _ _ a b⟩
    unfold operands
    rw [byteAt_ok ha, byteAt_ok hb]
    rfl
  rw [if_neg e] at h
  clear e
  by_cases e : op = Op.pushArgument
  · subst e
    rw [if_pos rfl] at h
    simp only [Option.bind_eq_bind, Option.bind_eq_some_iff, Option.some.injEq] at h
    obtain ⟨a, ha, b, hb, rfl⟩ := h
    refine ⟨_, _, rfl, ?_, .pushArgument _ _ _, .pushArg _ _ _ a b⟩
    unfold operands
    rw [byteAt_ok ha, byteAt_ok hb]
    rfl
  rw [if_neg e] at h
  clear e
  by_cases e : op = Op.popLocal
  · subst e
    rw [if_pos rfl] at h
    simp only [Option.bind_eq_bind, Option.bind_eq_some_iff, Option.some.injEq] at h
    obtain ⟨a, ha, b, hb, rfl⟩ := h
    refine ⟨_, _, rfl, ?_, .popLocal _ _ _, .popVar _ _ _ a b⟩
    unfold operands
    rw [byteAt_ok ha, byteAt_ok hb]
    rfl
  rw [if_neg e] at h
  clear e
  by_cases e : op = Op.popArgument
  · subst e
    rw [if_pos rfl] at h
    simp only [Option.bind_eq_bind, Option.bind_eq_some_iff, Option.some.injEq] at h
    obtain ⟨a, ha, b, hb, rfl⟩ := h
    refine ⟨_, _, rfl, ?_, .popArgument _ _ _, .popArg _ _ _ a b⟩
    unfold operands
    rw [byteAt_ok ha, byteAt_ok hb]
    rfl
  rw [if_neg e] at h
  clear e
  cases h
end

theorem lineHead_eq (p : Nat) (w : Text) : lineHead p w = Spec.label p ++ w ++ "  ".toList := by
  have h1 : p < 10 → (dec p).length = 1 := by
    intro h
    have a := (Nat.length_toDigits_le_iff (b := 10) (n := p) (k := 1) (by decide) (by decide)).mpr (by omega)
    have b : 0 < (Nat.toDigits 10 p).length := Nat.length_toDigits_pos
    unfold dec; omega
  have h2 : 10 ≤ p → p < 100 → (dec p).length = 2 := by
    intro h h'
    have a := (Nat.length_toDigits_le_iff (b := 10) (n := p) (k := 2) (by decide) (by decide)).mpr (by omega)
    have b : ¬ (Nat.toDigits 10 p).length ≤ 1 := fun h => by
      have := (Nat.length_toDigits_le_iff (b := 10) (n := p) (k := 1) (by decide) (by decide)).mp h
      omega
    unfold dec; omega
  have h3 : 100 ≤ p → 3 ≤ (dec p).length := by
    intro h
    have b : ¬ (Nat.toDigits 10 p).length ≤ 2 := fun h => by
      have := (Nat.length_toDigits_le_iff (b := 10) (n := p) (k := 2) (by decide) (by decide)).mp h
      omega
    unfold dec; omega
  unfold lineHead Spec.label
  by_cases a : p < 10
  · rw [if_pos a, if_pos (by omega), h1 a]
    simp
  · rw [if_neg a]
    by_cases b : p < 100
    · rw [if_pos b, h2 (by omega) b]
      simp
    · rw [if_neg b]
      have := h3 (by omega)
      rw [show 3 - (dec p).length = 0 by omega]
      simp

theorem lengthOf_ok {op n : Nat} (h : bytecodeLength op = some n) : lengthOf op = .ok n := by
  unfold lengthOf; rw [h]

theorem drop_cons {bytes : List Nat} {p op : Nat} (h : bytes[p]? = some op) : ∃ rest, bytes.drop p = op :: rest ∧ rest[0]? = bytes[p + 1]? ∧ rest[1]? = bytes[p + 2]? := by
  obtain ⟨hl, he⟩ := List.getElem?_eq_some_iff.mp h
  refine ⟨bytes.drop (p + 1), by rw [List.drop_eq_getElem_cons hl, he], ?_, ?_⟩
  · rw [List.getElem?_drop]
  · rw [List.getElem?_drop]

/-- What is needed for the lines of code. -/
structure Ready (N : Names) (exact : Bool) (inner : Lit Meth → Text → Except Fail Text) (lits : List (Lit Meth)) (bytes : List Nat) (indent : Text) : Prop where
  small : ∀ b ∈ bytes, b ≤ 255
  fields : ∃ fs, N.fields = some fs ∧ Spec.FieldsOK fs lits bytes
  blocks : ∀ m, BC.Spec.Creates lits bytes true m → ∃ t, inner (.meth m) (indent ++ "\t".toList) = .ok t ∧ Spec.Listing N exact m (indent ++ "\t".toList) t
  noCtx : ∀ m, BC.Spec.Creates lits bytes false m → exact = false

theorem lines_ok {N : Names} {exact : Bool} {inner : Lit Meth → Text → Except Fail Text} {lits : List (Lit Meth)} {bytes : List Nat} {indent : Text}
    (hr : Ready N exact inner lits bytes indent) {seg : List Nat} (hf : Flat (fun _ => True) lits seg) : ∀ (pre : List Nat), bytes = pre ++ seg → BC.Spec.Boundary bytes pre.length →
      ∀ k, seg.length ≤ k → ∃ t, dumpFrom N inner lits bytes indent k pre.length = .ok t ∧ Spec.Lines N exact lits bytes indent pre.length t := by
  induction hf with
  | nil =>
    intro pre hb _ k _
    rw [List.append_nil] at hb
    subst hb
    refine ⟨[], ?_, .done _ _ _⟩
    cases k with
    | zero => rfl
    | succ k => rw [dumpFrom, if_neg (by omega)]
  | cons d b rest hd hl _ hj _ ih =>
    intro pre hb hB k hk
    have hdec : decode lits (bytes.drop pre.length) = some d := by
      rw [hb, List.drop_left]
      exact hd rest
    have h0 : b ≠ [] := by
      rintro rfl
      have := hd []
      cases this
    obtain ⟨op, b', rfl⟩ := List.exists_cons_of_ne_nil h0
    have hop : bytes[pre.length]? = some op := by
      rw [hb, List.getElem?_append_right (by omega)]
      simp
    have hlen : bytecodeLength op = some d.len := C44_lengths_agree lits op b' d (by simpa using hd [])
    obtain ⟨r, e, e1, e2⟩ := drop_cons hop
    have hdo : decodeOp lits op bytes[pre.length + 1]? bytes[pre.length + 2]? = some d := by
      rw [← e1, ← e2, ← hdec, e]
      rfl
    cases k with
    | zero => simp at hk
    | succ k =>
      obtain ⟨w, t, hn, hrun, hw, ht⟩ := line_ok (N := N) (exact := exact) (inner := inner) (indent := indent) hdo hr.small
        (fun hn => by
          rcases hj with ⟨i, n, rfl⟩ | hj
          · exact absurd rfl (hn i n)
          · obtain ⟨o, a, c, he, hd'⟩ := hj.dist
            cases he
            refine ⟨a, c, ?_, ?_, hd'⟩
            · rw [hb, List.getElem?_append_right (by omega), show pre.length + 1 - pre.length = 1 by omega]; rfl
            · rw [hb, List.getElem?_append_right (by omega), show pre.length + 2 - pre.length = 2 by omega]; rfl)
        (fun i l kk he hk' => by
          subst he
          obtain ⟨fs, h1, h2⟩ := hr.fields
          have := h2 _ i l kk hB hdec hk'
          exact ⟨fs, fs[i], h1, List.getElem?_eq_getElem this⟩)
        (fun m he => by subst he; exact hr.blocks m ⟨_, _, hB, hdec⟩)
        (fun m he => by subst he; exact hr.noCtx m ⟨_, _, hB, hdec⟩)
      have hB' : BC.Spec.Boundary bytes (pre ++ op :: b').length := by
        rw [List.length_append, hl]
        exact .next _ op _ hB hop hlen
      obtain ⟨more, h1, h2⟩ := ih (pre ++ op :: b') (by rw [hb, List.append_assoc]) hB' k (by
        simp only [List.length_append, List.length_cons] at hk
        omega)
      rw [List.length_append, hl] at h1 h2
      refine ⟨indent ++ Spec.label pre.length ++ w.toList ++ "  ".toList ++ t ++ more, ?_, .line _ _ _ _ d w t more hdec hw ht h2⟩
      have hlt : pre.length < bytes.length := by
        rw [hb]; simp
      rw [dumpFrom, if_pos hlt]
      have hline : dumpBytecode N inner lits bytes indent pre.length = .ok (indent ++ lineHead pre.length w.toList ++ t) := by
        unfold dumpBytecode bytecodeAsStr
        rw [byteAt_ok hop]
        show ((match names[op]? with | some n => Except.ok n.toList | none => Except.error Fail.assertion) >>= _) = _
        rw [hn]
        show (operands N inner lits bytes indent pre.length op >>= _) = _
        rw [hrun]
        rfl
      rw [hline, byteAt_ok hop]
      show (lengthOf op >>= _) = _
      rw [lengthOf_ok hlen]
      show (dumpFrom N inner lits bytes indent k (pre.length + d.len) >>= _) = _
      rw [h1, lineHead_eq]
      show Except.ok _ = Except.ok _
      simp only [List.append_assoc]

/-- What is needed for the listing of a method. -/
inductive Listable (N : Names) (exact : Bool) : Meth → Prop where
  | bc (id : Nat) (lits : List (Lit Meth)) (bytes : List Nat) (loops : List (Nat × Nat)) (args locals : List Nat) (stack : Nat) (code : SC Meth)
      (flat : Flat (fun _ => True) lits bytes) (small : ∀ b ∈ bytes, b ≤ 255) (fields : ∃ fs, N.fields = some fs ∧ Spec.FieldsOK fs lits bytes)
      (blocks : ∀ m, BC.Spec.Creates lits bytes true m → Listable N exact m) (noCtx : ∀ m, BC.Spec.Creates lits bytes false m → exact = false) :
      Listable N exact (.bc id lits bytes loops args locals stack code)

theorem decodeOp_block_lit {lits : List (Lit Meth)} {op : Nat} {a b : Option Nat} {c : Bool} {m : Meth} {len : Nat} (h : decodeOp lits op a b = some (.ins (.pushBlock c m) len)) :
    ∃ i, a = some i ∧ lits[i]? = some (.meth m) ∧ op = if c then Op.pushBlock else Op.pushBlockNoCtx := by
  unfold decodeOp at h
  by_cases e : op = Op.dup
  · rw [if_pos e] at h
    cases h
  rw [if_neg e] at h
  by_cases e : op = Op.pushField
  · rw [if_pos e] at h
    simp only [Option.bind_eq_bind, Option.bind_eq_some_iff, Option.some.injEq] at h
    obtain ⟨_, _, _, _, h⟩ := h
    cases h
  rw [if_neg e] at h
  by_cases e : op = Op.pushField0
  · rw [if_pos e] at h
    cases h
  rw [if_neg e] at h
  by_cases e : op = Op.pushField1
  · rw [if_pos e] at h
    cases h
  rw [if_neg e] at h
  by_cases e : op = Op.pushBlock
  · rw [if_pos e] at h
    simp only [Option.bind_eq_bind, Option.bind_eq_some_iff, Option.some.injEq] at h
    obtain ⟨i, hi, m, hm, h⟩ := h
    cases h
    exact ⟨i, hi, constMeth_inv hm, e⟩
  rw [if_neg e] at h
  by_cases e : op = Op.pushBlockNoCtx
  · rw [if_pos e] at h
    simp only [Option.bind_eq_bind, Option.bind_eq_some_iff, Option.some.injEq] at h
    obtain ⟨i, hi, m, hm, h⟩ := h
    cases h
    exact ⟨i, hi, constMeth_inv hm, e⟩
  rw [if_neg e] at h
  by_cases e : op = Op.pushConstant
  · rw [if_pos e] at h
    simp only [Option.bind_eq_bind, Option.bind_eq_some_iff, Option.some.injEq] at h
    obtain ⟨_, _, _, _, h⟩ := h
    cases h
  rw [if_neg e] at h
  by_cases e : op = Op.pushConstant0
  · rw [if_pos e] at h
    simp only [Option.bind_eq_bind, Option.bind_eq_some_iff, Option.some.injEq] at h
    obtain ⟨_, _, h⟩ := h
    cases h
  rw [if_neg e] at h
  by_cases e : op = Op.pushConstant1
  · rw [if_pos e] at h
    simp only [Option.bind_eq_bind, Option.bind_eq_some_iff, Option.some.injEq] at h
    obtain ⟨_, _, h⟩ := h
    cases h
  rw [if_neg e] at h
  by_cases e : op = Op.pushConstant2
  · rw [if_pos e] at h
    simp only [Option.bind_eq_bind, Option.bind_eq_some_iff, Option.some.injEq] at h
    obtain ⟨_, _, h⟩ := h
    cases h
  rw [if_neg e] at h
  by_cases e : op = Op.push0
  · rw [if_pos e] at h
    cases h
  rw [if_neg e] at h
  by_cases e : op = Op.push1
  · rw [if_pos e] at h
    cases h
  rw [if_neg e] at h
  by_cases e : op = Op.pushNil
  · rw [if_pos e] at h
    cases h
  rw [if_neg e] at h
  by_cases e : op = Op.pushGlobal
  · rw [if_pos e] at h
    simp only [Option.bind_eq_bind, Option.bind_eq_some_iff, Option.some.injEq] at h
    obtain ⟨_, _, _, _, h⟩ := h
    cases h
  rw [if_neg e] at h
  by_cases e : op = Op.pop
  · rw [if_pos e] at h
    cases h
  rw [if_neg e] at h
  by_cases e : op = Op.popField
  · rw [if_pos e] at h
    simp only [Option.bind_eq_bind, Option.bind_eq_some_iff, Option.some.injEq] at h
    obtain ⟨_, _, _, _, h⟩ := h
    cases h
  rw [if_neg e] at h
  by_cases e : op = Op.popField0
  · rw [if_pos e] at h
    cases h
  rw [if_neg e] at h
  by_cases e : op = Op.popField1
  · rw [if_pos e] at h
    cases h
  rw [if_neg e] at h
  by_cases e : op = Op.send1
  · rw [if_pos e] at h
    simp only [Option.bind_eq_bind, Option.bind_eq_some_iff, Option.some.injEq] at h
    obtain ⟨_, _, _, _, h⟩ := h
    cases h
  rw [if_neg e] at h
  by_cases e : op = Op.send2
  · rw [if_pos e] at h
    simp only [Option.bind_eq_bind, Option.bind_eq_some_iff, Option.some.injEq] at h
    obtain ⟨_, _, _, _, h⟩ := h
    cases h
  rw [if_neg e] at h
  by_cases e : op = Op.send3
  · rw [if_pos e] at h
    simp only [Option.bind_eq_bind, Option.bind_eq_some_iff, Option.some.injEq] at h
    obtain ⟨_, _, _, _, h⟩ := h
    cases h
  rw [if_neg e] at h
  by_cases e : op = Op.sendN
  · rw [if_pos e] at h
    simp only [Option.bind_eq_bind, Option.bind_eq_some_iff, Option.some.injEq] at h
    obtain ⟨_, _, _, _, h⟩ := h
    cases h
  rw [if_neg e] at h
  by_cases e : op = Op.superSend
  · rw [if_pos e] at h
    simp only [Option.bind_eq_bind, Option.bind_eq_some_iff, Option.some.injEq] at h
    obtain ⟨_, _, _, _, h⟩ := h
    cases h
  rw [if_neg e] at h
  by_cases e : op = Op.returnLocal
  · rw [if_pos e] at h
    cases h
  rw [if_neg e] at h
  by_cases e : op = Op.returnNonLocal
  · rw [if_pos e] at h
    simp only [Option.bind_eq_bind, Option.bind_eq_some_iff, Option.some.injEq] at h
    obtain ⟨_, _, h⟩ := h
    cases h
  rw [if_neg e] at h
  by_cases e : op = Op.returnSelf
  · rw [if_pos e] at h
    cases h
  rw [if_neg e] at h
  by_cases e : op = Op.returnField0
  · rw [if_pos e] at h
    cases h
  rw [if_neg e] at h
  by_cases e : op = Op.returnField1
  · rw [if_pos e] at h
    cases h
  rw [if_neg e] at h
  by_cases e : op = Op.returnField2
  · rw [if_pos e] at h
    cases h
  rw [if_neg e] at h
  by_cases e : op = Op.inc
  · rw [if_pos e] at h
    cases h
  rw [if_neg e] at h
  by_cases e : op = Op.dec
  · rw [if_pos e] at h
    cases h
  rw [if_neg e] at h
  by_cases e : op = Op.incField
  · rw [if_pos e] at h
    simp only [Option.bind_eq_bind, Option.bind_eq_some_iff, Option.some.injEq] at h
    obtain ⟨_, _, _, _, h⟩ := h
    cases h
  rw [if_neg e] at h
  by_cases e : op = Op.incFieldPush
  · rw [if_pos e] at h
    simp only [Option.bind_eq_bind, Option.bind_eq_some_iff, Option.some.injEq] at h
    obtain ⟨_, _, _, _, h⟩ := h
    cases h
  rw [if_neg e] at h
  by_cases e : op = Op.jump
  · rw [if_pos e] at h
    simp only [Option.bind_eq_bind, Option.bind_eq_some_iff, Option.some.injEq] at h
    obtain ⟨_, _, h⟩ := h
    cases h
  rw [if_neg e] at h
  by_cases e : op = Op.jumpOnTrueTopNil
  · rw [if_pos e] at h
    simp only [Option.bind_eq_bind, Option.bind_eq_some_iff, Option.some.injEq] at h
    obtain ⟨_, _, h⟩ := h
    cases h
  rw [if_neg e] at h
  by_cases e : op = Op.jumpOnFalseTopNil
  · rw [if_pos e] at h
    simp only [Option.bind_eq_bind, Option.bind_eq_some_iff, Option.some.injEq] at h
    obtain ⟨_, _, h⟩ := h
    cases h
  rw [if_neg e] at h
  by_cases e : op = Op.jumpOnTruePop
  · rw [if_pos e] at h
    simp only [Option.bind_eq_bind, Option.bind_eq_some_iff, Option.some.injEq] at h
    obtain ⟨_, _, h⟩ := h
    cases h
  rw [if_neg e] at h
  by_cases e : op = Op.jumpOnFalsePop
  · rw [if_pos e] at h
    simp only [Option.bind_eq_bind, Option.bind_eq_some_iff, Option.some.injEq] at h
    obtain ⟨_, _, h⟩ := h
    cases h
  rw [if_neg e] at h
  by_cases e : op = Op.jumpOnNotNilTopTop
  · rw [if_pos e] at h
    simp only [Option.bind_eq_bind, Option.bind_eq_some_iff, Option.some.injEq] at h
    obtain ⟨_, _, h⟩ := h
    cases h
  rw [if_neg e] at h
  by_cases e : op = Op.jumpOnNilTopTop
  · rw [if_pos e] at h
    simp only [Option.bind_eq_bind, Option.bind_eq_some_iff, Option.some.injEq] at h
    obtain ⟨_, _, h⟩ := h
    cases h
  rw [if_neg e] at h
  by_cases e : op = Op.jumpOnNotNilPop
  · rw [if_pos e] at h
    simp only [Option.bind_eq_bind, Option.bind_eq_some_iff, Option.some.injEq] at h
    obtain ⟨_, _, h⟩ := h
    cases h
  rw [if_neg e] at h
  by_cases e : op = Op.jumpOnNilPop
  · rw [if_pos e] at h
    simp only [Option.bind_eq_bind, Option.bind_eq_some_iff, Option.some.injEq] at h
    obtain ⟨_, _, h⟩ := h
    cases h
  rw [if_neg e] at h
  by_cases e : op = Op.jumpBackward
  · rw [if_pos e] at h
    simp only [Option.bind_eq_bind, Option.bind_eq_some_iff, Option.some.injEq] at h
    obtain ⟨_, _, h⟩ := h
    cases h
  rw [if_neg e] at h
  by_cases e : op = Op.jump2
  · rw [if_pos e] at h
    simp only [Option.bind_eq_bind, Option.bind_eq_some_iff, Option.some.injEq] at h
    obtain ⟨_, _, _, _, h⟩ := h
    cases h
  rw [if_neg e] at h
  by_cases e : op = Op.jump2OnTrueTopNil
  · rw [if_pos e] at h
    simp only [Option.bind_eq_bind, Option.bind_eq_some_iff, Option.some.injEq] at h
    obtain ⟨_, _, _, _, h⟩ := h
    cases h
  rw [if_neg e] at h
  by_cases e : op = Op.jump2OnFalseTopNil
  · rw [if_pos e] at h
    simp only [Option.bind_eq_bind, Option.bind_eq_some_iff, Option.some.injEq] at h
    obtain ⟨_, _, _, _, h⟩ := h
    cases h
  rw [if_neg e] at h
  by_cases e : op = Op.jump2OnTruePop
  · rw [if_pos e] at h
    simp only [Option.bind_eq_bind, Option.bind_eq_some_iff, Option.some.injEq] at h
    obtain ⟨_, _, _, _, h⟩ := h
    cases h
  rw [if_neg e] at h
  by_cases e : op = Op.jump2OnFalsePop
  · rw [if_pos e] at h
    simp only [Option.bind_eq_bind, Option.bind_eq_some_iff, Option.some.injEq] at h
    obtain ⟨_, _, _, _, h⟩ := h
    cases h
  rw [if_neg e] at h
  by_cases e : op = Op.jump2OnNotNilTopTop
  · rw [if_pos e] at h
    simp only [Option.bind_eq_bind, Option.bind_eq_some_iff, Option.some.injEq] at h
    obtain ⟨_, _, _, _, h⟩ := h
    cases h
  rw [if_neg e] at h
  by_cases e : op = Op.jump2OnNilTopTop
  · rw [if_pos e] at h
    simp only [Option.bind_eq_bind, Option.bind_eq_some_iff, Option.some.injEq] at h
    obtain ⟨_, _, _, _, h⟩ := h
    cases h
  rw [if_neg e] at h
  by_cases e : op = Op.jump2OnNotNilPop
  · rw [if_pos e] at h
    simp only [Option.bind_eq_bind, Option.bind_eq_some_iff, Option.some.injEq] at h
    obtain ⟨_, _, _, _, h⟩ := h
    cases h
  rw [if_neg e] at h
  by_cases e : op = Op.jump2OnNilPop
  · rw [if_pos e] at h
    simp only [Option.bind_eq_bind, Option.bind_eq_some_iff, Option.some.injEq] at h
    obtain ⟨_, _, _, _, h⟩ := h
    cases h
  rw [if_neg e] at h
  by_cases e : op = Op.jump2Backward
  · rw [if_pos e] at h
    simp only [Option.bind_eq_bind, Option.bind_eq_some_iff, Option.some.injEq] at h
    obtain ⟨_, _, _, _, h⟩ := h
    cases h
  rw [if_neg e] at h
  by_cases e : op = Op.pushLocal
  · rw [if_pos e] at h
    simp only [Option.bind_eq_bind, Option.bind_eq_some_iff, Option.some.injEq] at h
    obtain ⟨_, _, _, _, h⟩ := h
    cases h
  rw [if_neg e] at h
  by_cases e : op = Op.pushArgument
  · rw [if_pos e] at h
    simp only [Option.bind_eq_bind, Option.bind_eq_some_iff, Option.some.injEq] at h
    obtain ⟨_, _, _, _, h⟩ := h
    cases h
  rw [if_neg e] at h
  by_cases e : op = Op.popLocal
  · rw [if_pos e] at h
    simp only [Option.bind_eq_bind, Option.bind_eq_some_iff, Option.some.injEq] at h
    obtain ⟨_, _, _, _, h⟩ := h
    cases h
  rw [if_neg e] at h
  by_cases e : op = Op.popArgument
  · rw [if_pos e] at h
    simp only [Option.bind_eq_bind, Option.bind_eq_some_iff, Option.some.injEq] at h
    obtain ⟨_, _, _, _, h⟩ := h
    cases h
  rw [if_neg e] at h
  cases h

theorem decode_block_lit {lits : List (Lit Meth)} {bs : List Nat} {c : Bool} {m : Meth} {len : Nat} (h : decode lits bs = some (.ins (.pushBlock c m) len)) : .meth m ∈ lits := by
  cases bs with
  | nil => cases h
  | cons op rest =>
    obtain ⟨i, _, h, _⟩ := decodeOp_block_lit h
    exact List.mem_of_getElem? h

theorem creates_lit {lits : List (Lit Meth)} {bytes : List Nat} {c : Bool} {m : Meth} (h : BC.Spec.Creates lits bytes c m) : .meth m ∈ lits := by
  obtain ⟨p, len, _, h⟩ := h
  exact decode_block_lit h

theorem listing_ok {N : Names} {exact : Bool} {m : Meth} (h : Listable N exact m) : ∀ n, sizeOf m ≤ n → ∀ indent,
    ∃ t, dumpMethod N n (.meth m) indent = .ok t ∧ Spec.Listing N exact m indent t := by
  induction h with
  | bc id lits bytes loops args locals stack code flat small fields _ noCtx ih =>
    intro n hn indent
    cases n with
    | zero => simp at hn
    | succ n =>
      obtain ⟨t, h1, h2⟩ := lines_ok (N := N) (exact := exact) (inner := dumpMethod N n) (indent := indent) ⟨small, fields, fun m hm => ih m hm n (by
        have h1 := List.sizeOf_lt_of_mem (creates_lit hm)
        simp at hn h1
        omega) _, noCtx⟩ flat [] rfl .zero bytes.length (by omega)
      refine ⟨_, ?_, .mk id lits bytes loops args locals stack code indent t h2⟩
      rw [dumpMethod, show dumpFrom N (dumpMethod N n) lits bytes indent bytes.length 0 = .ok t from h1]
      show Except.ok _ = Except.ok _
      simp only [counts, List.append_assoc]

theorem ok_bind {α β : Type} {x : Except Fail α} {f : α → Except Fail β} {b : β} (h : (x >>= f) = .ok b) : ∃ a, x = .ok a ∧ f a = .ok b := by
  cases x with
  | error e => cases h
  | ok a => exact ⟨a, rfl, h⟩

theorem dumpFrom_at {N : Names} {inner : Lit Meth → Text → Except Fail Text} {lits : List (Lit Meth)} {bytes : List Nat} {indent t : Text}
    (h : dumpFrom N inner lits bytes indent bytes.length 0 = .ok t) {p : Nat} (hp : BC.Spec.Boundary bytes p) :
    ∃ k t, bytes.length - p ≤ k ∧ dumpFrom N inner lits bytes indent k p = .ok t := by
  induction hp with
  | zero => exact ⟨_, _, Nat.le_refl _, h⟩
  | next p op n _ ho hn ih =>
    obtain ⟨k, t, hk, hd⟩ := ih
    have hlt : p < bytes.length := (List.getElem?_eq_some_iff.mp ho).1
    cases k with
    | zero => omega
    | succ k =>
      rw [dumpFrom, if_pos hlt] at hd
      obtain ⟨_, _, hd⟩ := ok_bind hd
      rw [byteAt_ok ho] at hd
      obtain ⟨_, h1, hd⟩ := ok_bind hd
      cases h1
      obtain ⟨_, h1, hd⟩ := ok_bind hd
      rw [lengthOf_ok hn] at h1
      cases h1
      obtain ⟨t', h1, _⟩ := ok_bind hd
      have : 0 < n := by
        have := List.mem_of_getElem? hn
        revert this
        exact (by decide : ∀ n ∈ lengths, 0 < n) n
      exact ⟨k, t', by omega, h1⟩

/-- A block with a context is printed. -/
theorem dumpFrom_block {N : Names} {inner : Lit Meth → Text → Except Fail Text} {lits : List (Lit Meth)} {bytes : List Nat} {indent t : Text}
    (h : dumpFrom N inner lits bytes indent bytes.length 0 = .ok t) {m : Meth} (hm : BC.Spec.Creates lits bytes true m) : ∃ t, inner (.meth m) (indent ++ "\t".toList) = .ok t := by
  obtain ⟨p, len, hp, hd⟩ := hm
  obtain ⟨k, t', hk, hf⟩ := dumpFrom_at h hp
  cases ho : bytes[p]? with
  | none =>
    have : bytes.drop p = [] := List.drop_eq_nil_of_le (List.getElem?_eq_none_iff.mp ho)
    rw [this] at hd
    cases hd
  | some op =>
    have hlt : p < bytes.length := (List.getElem?_eq_some_iff.mp ho).1
    obtain ⟨r, e, e1, e2⟩ := drop_cons ho
    rw [e] at hd
    obtain ⟨i, hi, hl, hop⟩ := decodeOp_block_lit (lits := lits) (show decodeOp lits op r[0]? r[1]? = _ from hd)
    rw [if_pos rfl] at hop
    subst hop
    rw [e1] at hi
    cases k with
    | zero => omega
    | succ k =>
      rw [dumpFrom, if_pos hlt] at hf
      obtain ⟨_, hf, _⟩ := ok_bind hf
      unfold dumpBytecode at hf
      rw [byteAt_ok ho] at hf
      obtain ⟨_, h1, hf⟩ := ok_bind hf
      cases h1
      obtain ⟨_, _, hf⟩ := ok_bind hf
      obtain ⟨_, hf, _⟩ := ok_bind hf
      unfold operands at hf
      rw [byteAt_ok hi, constant_ok hi hl] at hf
      replace hf : (inner (.meth m) (indent ++ "\t".toList) >>= fun text => Except.ok ("block: (index: ".toList ++ dec i ++ ") ".toList ++ text)) = Except.ok _ := hf
      obtain ⟨t, hf, _⟩ := ok_bind hf
      exact ⟨t, hf⟩

theorem dumpMethod_bc {N : Names} {n id : Nat} {lits : List (Lit Meth)} {bytes : List Nat} {loops : List (Nat × Nat)} {args locals : List Nat} {stack : Nat} {code : SC Meth}
    {indent t : Text} (h : dumpMethod N n (.meth (.bc id lits bytes loops args locals stack code)) indent = .ok t) :
    ∃ k t, dumpFrom N (dumpMethod N k) lits bytes indent bytes.length 0 = .ok t := by
  cases n with
  | zero => cases h
  | succ n =>
    rw [dumpMethod] at h
    obtain ⟨t, h, _⟩ := ok_bind h
    exact ⟨n, t, h⟩

/-- Where a method is printed, no block that would have to be shown is trivial. -/
theorem shown_code {N : Names} {lits : List (Lit Meth)} {bytes : List Nat} {m : Meth} (hm : Spec.Shown lits bytes m) : ∀ (n : Nat) (indent t : Text),
    dumpFrom N (dumpMethod N n) lits bytes indent bytes.length 0 = .ok t → ∀ id tr, m ≠ .triv id tr := by
  induction hm with
  | here lits bytes m h =>
    intro n indent t hd id tr e
    subst e
    obtain ⟨t, ht⟩ := dumpFrom_block hd h
    cases n <;> cases ht
  | inner lits bytes m id lits' bytes' loops args locals stack code h _ ih =>
    intro n indent t hd
    obtain ⟨t, ht⟩ := dumpFrom_block hd h
    obtain ⟨k, t, ht⟩ := dumpMethod_bc ht
    exact ih k _ t ht

end PySOM.Disasm

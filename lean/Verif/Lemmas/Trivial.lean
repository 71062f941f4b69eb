import Verif.Model.Trivial
import Verif.Lemmas.Body
/-!
# Which bodies are recognised as trivial
-/
set_option autoImplicit false
namespace PySOM.BC
open PySOM

section
variable {M X : Type}

/-- `g1` is `g` with one more instruction. -/
def OneMore (g g1 : G M X) : Prop := ∃ n, bytecodeLength g1.l3 = some n ∧ g1.bytes.length = g.bytes.length + n

theorem addLit_bytes (g : G M X) (l : Lit M) : (addLiteralIfAbsent g l).2.bytes = g.bytes := by
  unfold addLiteralIfAbsent; split <;> rfl

theorem pushConstant_one (g : G M X) (v : Val) : OneMore g (emitPushConstant g v) := by
  unfold emitPushConstant
  have h := addLit_bytes g (.val v)
  generalize addLiteralIfAbsent g (.val v) = p at h ⊢
  obtain ⟨i, gg⟩ := p
  dsimp only at h ⊢
  repeat' split
  all_goals first
    | exact ⟨1, rfl, by simp [emit1, addBytecode, h]⟩
    | exact ⟨2, rfl, by simp [emit2, addArg, addBytecode, h]⟩

theorem pushGlobal_one (g : G M X) (n : Sel) : OneMore g (emitPushGlobal g n) := by
  unfold emitPushGlobal
  have h := addLit_bytes g (.val (.sym n))
  generalize addLiteralIfAbsent g (.val (.sym n)) = p at h ⊢
  obtain ⟨i, gg⟩ := p
  dsimp only at h ⊢
  repeat' split
  all_goals first
    | exact pushConstant_one _ _
    | exact ⟨2, rfl, by simp [emit2, addArg, addBytecode, h]⟩

theorem pushField_one (g : G M X) (i l : Nat) : OneMore g (emitPushField g i l) := by
  unfold emitPushField
  repeat' split
  all_goals first
    | exact ⟨1, rfl, by simp [emit1, addBytecode]⟩
    | exact ⟨3, rfl, by simp [emit3, addArg, addBytecode]⟩

theorem trivial_of_ne {isBlock : Bool} {g : G M X} (h1 : pushConstBytecodes.contains g.l2 = false) (h2 : g.l2 ≠ Op.pushGlobal)
    (h3 : pushFieldBytecodes.contains g.l2 = false) (h : g.l3 = Op.returnLocal) : assembleTrivial isBlock g = .ok none := by
  unfold assembleTrivial
  rw [if_neg (by rw [h1]; simp), if_neg (by simp [h2]), if_neg (by rw [h3]; simp), if_neg (by rw [h]; decide), if_neg (by rw [h]; decide)]

/-- The expressions whose value a trivial method answers. -/
def Ex.simple : Ex M → Bool
  | .lit (.val _) => true
  | .glob _ => true
  | .fld _ _ => true
  | _ => false

theorem lenOf_some {op n : Nat} (h : bytecodeLength op = some n) : lenOf op = .ok n := by simp [lenOf, h]

theorem trivial_length {isBlock : Bool} {g g1 : G M X} (ho : OneMore g g1) (hb : g.bytes ≠ []) : assembleTrivial isBlock (emit1 g1 Op.returnLocal 0) = .ok none := by
  obtain ⟨n, hn, hl⟩ := ho
  have hpos : 0 < g.bytes.length := List.length_pos_iff.mpr hb
  have e2 : (emit1 g1 Op.returnLocal 0).l2 = g1.l3 := rfl
  have hlen : (emit1 g1 Op.returnLocal 0).bytes.length ≠ n + 1 := by simp [emit1, addBytecode, hl]; omega
  unfold assembleTrivial
  split
  · simp only [assembleLiteralReturn, e2, lenOf_some hn, bind, Except.bind]; rw [if_pos hlen]
  · split
    · simp only [assembleGlobalReturn, e2, lenOf_some hn, bind, Except.bind]; rw [if_pos hlen]
    · split
      · simp only [assembleFieldGetter, e2, lenOf_some hn, bind, Except.bind]; rw [if_pos hlen]
      · rw [if_neg (by show ¬ Op.returnLocal = Op.returnSelf; decide), if_neg (by show ¬ returnFieldBytecodes.contains Op.returnLocal = true; decide)]

theorem litArr_l3 {es : LitTs} {g g' : G M X} (h : cLit (.arr es) g = .ok g') : g'.l3 ∈ sendOps := by
  simp only [cLit] at h
  obtain ⟨⟨k, ga⟩, _, h⟩ := except_bind_ok h
  obtain ⟨gb, hb, h⟩ := except_bind_ok h
  have := cLits_l3 es _ _ _ (send_l3 _ _) hb
  unfold updateLiteral at h
  split at h
  · cases h
  · split at h
    · cases h; exact this
    · cases h

/-- Code that ends with answering a value on the stack. -/
theorem trivial_local {inl : Inline M X} {isBlock : Bool} {e : Ex M} {g g1 : G M X} (h : cEx inl e g = .ok g1) :
    assembleTrivial isBlock (emit1 g1 Op.returnLocal 0) = .ok none ∨ (g.bytes = [] ∧ e.simple = true) := by
  have hl := cEx_l3 h
  have key : (∀ op, op ∈ (Ex.lastOps e) → pushConstBytecodes.contains op = false ∧ op ≠ Op.pushGlobal ∧ pushFieldBytecodes.contains op = false) →
      assembleTrivial isBlock (emit1 g1 Op.returnLocal 0) = .ok none := fun hh =>
    trivial_of_ne (hh _ hl).1 (hh _ hl).2.1 (hh _ hl).2.2 rfl
  by_cases hb : g.bytes = []
  case pos =>
    cases e with
    | lit l =>
      cases l with
      | val v => exact .inr ⟨hb, rfl⟩
      | arr es =>
        have hs := litArr_l3 (by simpa only [cEx] using h)
        have hh : ∀ op, op ∈ sendOps → pushConstBytecodes.contains op = false ∧ op ≠ Op.pushGlobal ∧ pushFieldBytecodes.contains op = false := by decide
        exact .inl (trivial_of_ne (hh _ hs).1 (hh _ hs).2.1 (hh _ hs).2.2 rfl)
    | glob n => exact .inr ⟨hb, rfl⟩
    | fld n i => exact .inr ⟨hb, rfl⟩
    | _ => exact .inl (key (by simp only [Ex.lastOps]; decide))
  case neg =>
    refine .inl ?_
    cases e with
    | lit l =>
      cases l with
      | val v => simp only [cEx, cLit] at h; cases h; exact trivial_length (pushConstant_one _ _) hb
      | arr es =>
        have hs := litArr_l3 (by simpa only [cEx] using h)
        have hh : ∀ op, op ∈ sendOps → pushConstBytecodes.contains op = false ∧ op ≠ Op.pushGlobal ∧ pushFieldBytecodes.contains op = false := by decide
        exact (trivial_of_ne (hh _ hs).1 (hh _ hs).2.1 (hh _ hs).2.2 rfl)
    | glob n => simp only [cEx] at h; cases h; exact trivial_length (pushGlobal_one _ _) hb
    | fld n i =>
      simp only [cEx] at h
      cases h
      exact trivial_length (pushField_one _ _ _) (by rw [addLit_bytes]; exact hb)
    | _ => exact key (by simp only [Ex.lastOps]; decide)

/-- Code that ends with answering a field. -/
theorem trivial_field {isBlock : Bool} {g : G M X} (idx : Nat) {g' : G M X} (h : emitReturnField g idx = .ok g') (hb : g.bytes ≠ []) :
    assembleTrivial isBlock g' = .ok none := by
  have hpos : 0 < g.bytes.length := List.length_pos_iff.mpr hb
  have key : ∀ op, returnFieldBytecodes.contains op = true → assembleTrivial isBlock (emit1 g op 0) = .ok none := by
    intro op ho
    have hop : op = Op.returnField0 ∨ op = Op.returnField1 ∨ op = Op.returnField2 := by
      simpa [returnFieldBytecodes] using ho
    unfold assembleTrivial
    have e3 : (emit1 g op 0).l3 = op := rfl
    have hlen : (emit1 g op 0).bytes.length ≠ 1 := by simp [emit1, addBytecode]; omega
    rw [e3]
    have hl : lenOf op = .ok 1 := by rcases hop with rfl | rfl | rfl <;> rfl
    have n1 : op ≠ Op.returnLocal := by rcases hop with rfl | rfl | rfl <;> decide
    have n2 : op ≠ Op.returnSelf := by rcases hop with rfl | rfl | rfl <;> decide
    rw [if_neg (by simp [n1]), if_neg (by simp [n1]), if_neg (by simp [n1]), if_neg n2, if_pos ho]
    simp only [assembleFieldGetterFromReturn, hl, bind, Except.bind]
    rw [if_pos hlen]
  unfold emitReturnField at h
  repeat' split at h
  all_goals first
    | (cases h; exact key _ (by decide))
    | cases h

/-- A return of a local value, optimised or not. -/
theorem trivial_return {inl : Inline M X} {isBlock : Bool} {e : Ex M} {g g1 g' : G M X} (h : cEx inl e g = .ok g1) (hr : emitReturnLocal g1 = .ok g')
    (hne : g.bytes ≠ []) : assembleTrivial isBlock g' = .ok none := by
  unfold emitReturnLocal at hr
  obtain ⟨⟨b, g2⟩, h2, hr⟩ := except_bind_ok hr
  cases hr
  have hl := cEx_l3 h
  have rep : ∀ k, (∃ n i, e = .fld n i) → replaceByReturnField g1 k = .ok (b, g2) → assembleTrivial isBlock (if b then g2 else emit1 g2 Op.returnLocal 0) = .ok none := by
    intro k ⟨n, i, he⟩ hk
    unfold replaceByReturnField at hk
    obtain ⟨g3, h3, hk⟩ := except_bind_ok hk
    obtain ⟨g4, h4, hk⟩ := except_bind_ok hk
    cases hk
    refine trivial_field k h4 ?_
    subst he
    simp only [cEx] at h
    cases h
    unfold removeLast1 at h3
    obtain ⟨m, hm, h3⟩ := except_bind_ok h3
    obtain ⟨o, ho, h3⟩ := except_bind_ok h3
    cases h3
    obtain ⟨m', hm', hlen⟩ := pushField_one (addLiteralIfAbsent g (.val (.sym n))).2 i g.lvl
    rw [lenOf_some hm'] at hm
    cases hm
    unfold subAssert at ho
    split at ho
    · cases ho
      show (emitPushField (addLiteralIfAbsent g (.val (.sym n))).2 i g.lvl).bytes.take _ ≠ []
      rw [hlen, Nat.add_sub_cancel, addLit_bytes]
      intro h0
      have := congrArg List.length h0
      rw [List.length_take, hlen, addLit_bytes] at this
      have hpos : 0 < g.bytes.length := List.length_pos_iff.mpr hne
      simp only [List.length_nil] at this
      omega
    · cases ho
  have plain : b = false → g2 = g1 → assembleTrivial isBlock (if b then g2 else emit1 g2 Op.returnLocal 0) = .ok none := by
    rintro rfl rfl
    exact (trivial_local h).resolve_right (fun hh => hne hh.1)
  unfold optimizeReturnField at h2
  split at h2
  · cases h2; exact plain rfl rfl
  · split at h2
    · rename_i h3; exact rep 0 (lastOps_field hl (by rw [h3]; decide)) h2
    · split at h2
      · rename_i h3; exact rep 1 (lastOps_field hl (by rw [h3]; decide)) h2
      · split at h2
        · rename_i h3
          split at h2
          · split at h2
            · cases h2; exact plain rfl rfl
            · split at h2
              · cases h2; exact plain rfl rfl
              · exact rep _ (lastOps_field hl (by rw [h3]; decide)) h2
          · cases h2
        · cases h2; exact plain rfl rfl

/-! ## Setters -/

theorem genPop_l2 {g g' : G M X} {t : Tgt} (h : genPop g t = .ok g') : g'.l3 = Op.incFieldPush ∨ (g'.l2 = g.l3 ∧ g'.l1 = g.l2) := by
  cases t with
  | var n a i l => simp only [genPop] at h; cases h; exact .inr ⟨rfl, rfl⟩
  | fld n i =>
    simp only [genPop, emitPopField] at h
    obtain ⟨⟨b, g1⟩, h1, h⟩ := except_bind_ok h
    have hh := optimizeIncField_l3 h1
    cases h
    cases b with
    | true => exact .inl (hh.1 rfl)
    | false =>
      rw [hh.2 rfl]
      simp only [Bool.false_eq_true, if_false]
      unfold emitPopFieldWithIndex
      repeat' split
      all_goals exact .inr ⟨rfl, rfl⟩

theorem genPops_before {ts : List Tgt} : ∀ {t : Tgt} {g g' : G M X}, g.l3 ∈ Op.dup :: Op.incFieldPush :: popXBytecodes → genPops g (t :: ts) = .ok g' →
    g'.l3 = Op.incFieldPush ∨ g'.l2 ∈ Op.dup :: Op.incFieldPush :: popXBytecodes := by
  induction ts with
  | nil =>
    intro t g g' h0 h
    rw [genPops] at h
    obtain ⟨g1, h1, h⟩ := except_bind_ok h
    simp only [genPops] at h
    cases h
    rcases genPop_l2 h1 with h2 | ⟨h2, _⟩
    · exact .inl h2
    · exact .inr (h2 ▸ h0)
  | cons t' ts ih =>
    intro t g g' h0 h
    rw [genPops] at h
    obtain ⟨g1, h1, h⟩ := except_bind_ok h
    exact ih (List.mem_cons_of_mem _ (genPop_l3 h1)) h

theorem popField_popX {op : Nat} (h : popFieldBytecodes.contains op = true) : op ∈ Op.incFieldPush :: popXBytecodes ∧ op ≠ Op.incFieldPush ∧ op ≠ Op.incField := by
  simp only [popFieldBytecodes, List.contains_iff_mem, List.mem_cons, List.not_mem_nil, or_false] at h
  rcases h with rfl | rfl | rfl <;> decide

/-- What is in the buffer before a setter returns. -/
theorem setter_form {inl : Inline M X} {e : Ex M} {g g1 g2 : G M X} {b : Bool} (h : cEx inl e g = .ok g1) (ho : optimizeDupPopPop g1 = .ok (b, g2))
    (h3 : popFieldBytecodes.contains g2.l3 = true) (h2 : g2.l2 = Op.pushArgument) :
    (∃ n i j l, e = .asg (.fld n i) [] (.var true j l)) ∧ g1.l3 = g2.l3 ∧ g2.bytes.length + 1 = g1.bytes.length ∧ b = true := by
  have hl3 := cEx_l3 h
  have plain : g2 = g1 → False := by
    rintro rfl
    obtain ⟨t, ts, e', rfl⟩ := lastOps_asg hl3 (popField_popX h3).1
    simp only [cEx] at h
    obtain ⟨ge, hge, hp⟩ := except_bind_ok h
    have hd := (emitDups_l ts.length (emit1 ge Op.dup 1) rfl).1
    rcases genPops_before (by show (emitDups (emit1 ge Op.dup 1) ts.length).l3 ∈ _; rw [hd]; exact List.mem_cons_self) hp with h4 | h4
    · exact (popField_popX h3).2.1 h4
    · rw [h2] at h4; exact absurd h4 (by decide)
  unfold optimizeDupPopPop at ho
  split at ho
  · cases ho; exact (plain rfl).elim
  · split at ho
    · obtain ⟨g3, hg3, ho⟩ := except_bind_ok ho
      cases ho
      unfold optimizeIncFieldPush at hg3
      obtain ⟨k, _, hg3⟩ := except_bind_ok hg3
      split at hg3
      · cases hg3; exact absurd rfl (popField_popX h3).2.2
      · cases hg3
    · rename_i hni
      split at ho
      · cases ho; exact (plain rfl).elim
      · split at ho
        · cases ho; exact (plain rfl).elim
        · rename_i hpx hdup
          have hdup : g1.l2 = Op.dup := Decidable.of_not_not hdup
          obtain ⟨g3, hg3, ho⟩ := except_bind_ok ho
          cases ho
          unfold removeLastAt1 at hg3
          obtain ⟨n, hn, hg3⟩ := except_bind_ok hg3
          obtain ⟨m, hm, hg3⟩ := except_bind_ok hg3
          obtain ⟨o, hoff, hg3⟩ := except_bind_ok hg3
          cases hg3
          have hm1 : m = 1 := by rw [hdup] at hm; cases hm; rfl
          subst hm1
          have h3' : popFieldBytecodes.contains g1.l3 = true := h3
          have h2' : g1.l1 = Op.pushArgument := h2
          obtain ⟨t, ts, e', rfl⟩ := lastOps_asg hl3 (popField_popX h3').1
          simp only [cEx] at h
          obtain ⟨ge, hge, hp⟩ := except_bind_ok h
          cases ts with
          | cons t' ts =>
            rcases genPops_l2 hp with h4 | h4
            · exact absurd h4 hni
            · exact absurd hdup h4
          | nil =>
            rw [genPops] at hp
            obtain ⟨gp, hgp, hp⟩ := except_bind_ok hp
            simp only [genPops] at hp
            cases hp
            rcases genPop_l2 hgp with h4 | ⟨_, h4⟩
            · exact absurd h4 hni
            · have h5 : ge.l3 = Op.pushArgument := by rw [h2'] at h4; exact h4.symm
              have hle := cEx_l3 hge
              rw [h5] at hle
              refine ⟨?_, rfl, ?_, rfl⟩
              · cases e' with
                | var a j l =>
                  cases a with
                  | false => simp only [cEx] at hge; cases hge; exact absurd h5 (by show ¬ Op.pushLocal = Op.pushArgument; decide)
                  | true =>
                    cases t with
                    | fld n i => exact ⟨n, i, j, l, rfl⟩
                    | var n a i l =>
                      simp only [genPop] at hgp
                      cases hgp
                      cases a
                      · exact absurd h3' (by show ¬ popFieldBytecodes.contains Op.popLocal = true; decide)
                      · exact absurd h3' (by show ¬ popFieldBytecodes.contains Op.popArgument = true; decide)
                | _ => simp only [Ex.lastOps] at hle; exact absurd hle (by decide)
              · unfold subAssert at hoff
                split at hoff
                · cases hoff
                  show (delBytes g1.bytes _ _).length + 1 = g1.bytes.length
                  simp only [delBytes, List.length_append, List.length_take, List.length_drop]
                  omega
                · cases hoff

theorem trivial_self_eq (g : G M X) : assembleTrivial false (emit1 g Op.returnSelf 0) = assembleFieldSetter (emit1 g Op.returnSelf 0) := by
  unfold assembleTrivial
  have e3 : (emit1 g Op.returnSelf 0).l3 = Op.returnSelf := rfl
  rw [e3, if_neg (by rintro ⟨h, _⟩; exact absurd h (by decide)), if_neg (by rintro ⟨h, _⟩; exact absurd h (by decide)),
    if_neg (by rintro ⟨h, _⟩; exact absurd h (by decide)), if_pos rfl, if_neg (by decide)]

theorem trivial_self_of {g : G M X} (h : popFieldBytecodes.contains g.l3 = false ∨ g.l2 ≠ Op.pushArgument) :
    assembleTrivial false (emit1 g Op.returnSelf 0) = .ok none := by
  rw [trivial_self_eq]
  unfold assembleFieldSetter
  show (if popFieldBytecodes.contains g.l3 = false then _ else if g.l2 ≠ Op.pushArgument then _ else _) = _
  by_cases h1 : popFieldBytecodes.contains g.l3 = false
  · rw [if_pos h1]
  · rw [if_neg h1, if_pos (h.resolve_left h1)]

theorem addNames_bytes : ∀ (ts : List Tgt) (g : G M X), (addNames g ts).bytes = g.bytes
  | [], _ => rfl
  | t :: ts, g => by rw [addNames, addNames_bytes ts, addLit_bytes]

/-- A method that ends with answering self after an assignment whose value is not used. -/
theorem trivial_setter {inl : Inline M X} {e : Ex M} {g g1 g2 : G M X} {b : Bool} (h : cEx inl e g = .ok g1) (ho : optimizeDupPopPop g1 = .ok (b, g2)) :
    assembleTrivial false (emit1 g2 Op.returnSelf 0) = .ok none ∨ (g.bytes = [] ∧ b = true ∧ ∃ n i j l, e = .asg (.fld n i) [] (.var true j l)) := by
  by_cases hc : popFieldBytecodes.contains g2.l3 = true ∧ g2.l2 = Op.pushArgument
  case neg =>
    refine .inl (trivial_self_of ?_)
    cases h3 : popFieldBytecodes.contains g2.l3 with
    | false => exact .inl rfl
    | true => exact .inr fun h2 => hc ⟨h3, h2⟩
  case pos =>
    obtain ⟨⟨n, i, j, l, rfl⟩, h13, hlen, hb⟩ := setter_form h ho hc.1 hc.2
    by_cases hne : g.bytes = []
    · exact .inr ⟨hne, hb, n, i, j, l, rfl⟩
    · refine .inl ?_
      have hpos : 0 < g.bytes.length := List.length_pos_iff.mpr hne
      simp only [cEx] at h
      simp only [bind, Except.bind, emitDups, genPops, List.length_nil, genPop] at h
      have hnf : NoFuse (emit1 (emitPushVar (addNames g [.fld n i]) true j l) Op.dup 1) (.fld n i) :=
        noFuse_of _ (.inr (.inr (.inl (by show Op.pushArgument ≠ Op.inc; decide))))
      cases hgp : emitPopField (emit1 (emitPushVar (addNames g [.fld n i]) true j l) Op.dup 1) i with
      | error e => rw [hgp] at h; cases h
      | ok gp =>
        rw [hgp] at h
        cases h
        obtain ⟨op, rest, hs⟩ := genPop_shape hnf hgp
        have hb1 : g1.bytes.length = g.bytes.length + 3 + 1 + (rest.length + 1) := by
          rw [hs.bytes]
          simp [emit1, addBytecode, emitPushVar, emit3, addArg, addNames_bytes]
          omega
        rw [trivial_self_eq]
        unfold assembleFieldSetter
        have e2 : (emit1 g2 Op.returnSelf 0).l2 = op := by show g2.l3 = op; rw [← h13, hs.l3]
        have e1 : (emit1 g2 Op.returnSelf 0).l1 = Op.pushArgument := hc.2
        have hlo : lenOf op = .ok (rest.length + 1) := lenOf_some hs.len
        have hla : lenOf Op.pushArgument = .ok 3 := rfl
        rw [e1, e2]
        split
        · rfl
        · split
          · rfl
          · simp only [hlo, hla, bind, Except.bind]
            rw [if_pos]
            simp only [emit1, addBytecode, List.length_append, List.length_cons, List.length_nil]
            omega

/-! ## Bodies -/

/-- `f := arg` -/
def Ex.setter : Ex M → Bool
  | .asg (.fld _ _) [] (.var true _ _) => true
  | _ => false

/-- The bodies that are recognised. -/
def Body.simple (isBlock : Bool) : Body M → Bool
  | .done => isBlock
  | .last e => if isBlock then e.simple else e.setter
  | .exit e => !isBlock && e.simple
  | .stmt e .done => !isBlock && e.setter
  | .stmt e .exitSelf => !isBlock && e.setter
  | _ => false

theorem dpp_ne {g1 g2 : G M X} {b : Bool} (hb : g1.bytes ≠ []) (h : optimizeDupPopPop g1 = .ok (b, g2)) : g2.bytes ≠ [] := by
  unfold optimizeDupPopPop at h
  split at h
  · cases h; exact hb
  · split at h
    · obtain ⟨g3, h3, h⟩ := except_bind_ok h
      cases h
      unfold optimizeIncFieldPush at h3
      obtain ⟨k, _, h3⟩ := except_bind_ok h3
      split at h3
      · cases h3
        intro h0
        have := congrArg List.length h0
        simp only [List.length_set, List.length_nil] at this
        exact hb (List.length_eq_zero_iff.mp this)
      · cases h3
    · split at h
      · cases h; exact hb
      · rename_i hpx
        split at h
        · cases h; exact hb
        · obtain ⟨g3, h3, h⟩ := except_bind_ok h
          cases h
          unfold removeLastAt1 at h3
          obtain ⟨n, hn, h3⟩ := except_bind_ok h3
          obtain ⟨m, hm, h3⟩ := except_bind_ok h3
          obtain ⟨o, ho, h3⟩ := except_bind_ok h3
          cases h3
          have hpx' : g1.l3 ∈ popXBytecodes := by simpa using hpx
          have hn1 : 1 ≤ n := by
            simp only [popXBytecodes, List.mem_cons, List.not_mem_nil, or_false] at hpx'
            rcases hpx' with hh | hh | hh | hh | hh <;> rw [hh] at hn <;> cases hn <;> decide
          unfold subAssert at ho
          split at ho
          · cases ho
            intro h0
            have := congrArg List.length h0
            simp only [delBytes, List.length_append, List.length_take, List.length_drop, List.length_nil] at this
            omega
          · cases ho

theorem setter_of {e : Ex M} (h : ∃ n i j l, e = .asg (.fld n i) [] (.var true j l)) : e.setter = true := by
  obtain ⟨n, i, j, l, rfl⟩ := h; rfl

/-- The last bytecode after a statement. -/
theorem emitPop_l3 {g1 g2 : G M X} (h : emitPop g1 = .ok g2) : g2.l3 ∈ Op.pop :: Op.incField :: popXBytecodes := by
  unfold emitPop at h
  obtain ⟨⟨b, gd⟩, hd, h⟩ := except_bind_ok h
  cases h
  cases b with
  | false => exact List.mem_cons_self
  | true =>
    unfold optimizeDupPopPop at hd
    split at hd
    · cases hd
    · split at hd
      · obtain ⟨g3, h3, hd⟩ := except_bind_ok hd
        cases hd
        unfold optimizeIncFieldPush at h3
        obtain ⟨k, _, h3⟩ := except_bind_ok h3
        split at h3
        · cases h3; show Op.incField ∈ _; decide
        · cases h3
      · split at hd
        · cases hd
        · rename_i hpx
          split at hd
          · cases hd
          · obtain ⟨g3, h3, hd⟩ := except_bind_ok hd
            cases hd
            unfold removeLastAt1 at h3
            obtain ⟨n, hn, h3⟩ := except_bind_ok h3
            obtain ⟨m, hm, h3⟩ := except_bind_ok h3
            obtain ⟨o, ho, h3⟩ := except_bind_ok h3
            cases h3
            exact List.mem_cons_of_mem _ (List.mem_cons_of_mem _ (by simpa using hpx))

theorem removeLastPop_l3 {g g' : G M X} (h : removeLastPop g = .ok g') (h3 : g.l3 ∈ Op.pop :: Op.incField :: popXBytecodes) :
    g'.l3 ∈ Op.pop :: Op.incField :: Op.incFieldPush :: popXBytecodes := by
  have hw : ∀ op, op ∈ Op.pop :: Op.incField :: popXBytecodes → op ∈ Op.pop :: Op.incField :: Op.incFieldPush :: popXBytecodes := by decide
  unfold removeLastPop at h
  split at h
  · cases h; exact hw _ h3
  · split at h
    · obtain ⟨n, _, h⟩ := except_bind_ok h
      obtain ⟨i, _, h⟩ := except_bind_ok h
      split at h
      · split at h
        · cases h; exact hw _ h3
        · cases h
      · cases h
    · split at h
      · obtain ⟨i, _, h⟩ := except_bind_ok h
        split at h
        · cases h; show Op.incFieldPush ∈ _; decide
        · cases h
      · cases h; exact hw _ h3

/-- Methods that answer self after a statement. -/
theorem trivial_stmt_self {I : Inliner M X} (hI : I.OK) {e : Ex M} {g g1 g2 g' : G M X} (hw : e.wf (I.good g.lvl)) (he : cEx I.run e g = .ok g1)
    (hp : emitPop g1 = .ok g2) (h : emitReturnSelf g2 = .ok g') : assembleTrivial false g' = .ok none ∨ (g.bytes = [] ∧ e.setter = true) := by
  rw [returnSelf_quiet (stmt_ok hI hw he hp).2.2.1 h]
  unfold emitPop at hp
  obtain ⟨⟨b, gd⟩, hd, hp⟩ := except_bind_ok hp
  cases hp
  cases b with
  | false => exact .inl (trivial_self_of (.inl (by show popFieldBytecodes.contains Op.pop = false; decide)))
  | true =>
    rcases trivial_setter he hd with h1 | ⟨h1, _, h2⟩
    · exact .inl h1
    · exact .inr ⟨h1, setter_of h2⟩

/-- Which bodies are recognised: a body that is not of the listed forms, or does not start the method, is not recognised, and nothing
fails. -/
theorem cBody_trivial {I : Inliner M X} (hI : I.OK) (isBlock : Bool) : ∀ (b : Body M) (seen : Bool) (g g' : G M X), b.wf (I.good g.lvl) → b.fits isBlock →
    (b = .done → seen = false ∧ g.bytes = [] ∧ g.l3 = Op.invalid ∧ g.l2 = Op.invalid) → DepthOK g → Quiet g → (b = .exitSelf → g.l3 ∉ popFieldBytecodes) →
    cBody I.run isBlock b seen g = .ok g' →
    assembleTrivial isBlock g' = .ok none ∨ (g.bytes = [] ∧ b.simple isBlock = true)
  | .done, seen, g, g', _, _, hdone, hd, hq, hx, h => by
    obtain ⟨rfl, hb, h3, h2⟩ := hdone rfl
    simp only [cBody] at h
    cases isBlock with
    | true => exact .inr ⟨hb, rfl⟩
    | false =>
      rw [if_neg (by decide)] at h
      rw [returnSelf_quiet hq h]
      exact .inl (trivial_self_of (.inl (by rw [h3]; decide)))
  | .last e, seen, g, g', hw, _, _, hd, hq, hx, h => by
    simp only [cBody] at h
    obtain ⟨g1, he, h⟩ := except_bind_ok h
    have hne := (cEx_ok hI e g g1 hw he).1.bytes_ne hd
    cases isBlock with
    | true =>
      rw [if_pos rfl, if_neg hne] at h
      by_cases hb : g.bytes = []
      · cases hs : e.simple with
        | true => exact .inr ⟨hb, hs⟩
        | false =>
          have hf : pushFieldBytecodes.contains g1.l3 = false := lastOps_field_iff e (cEx_l3 he) (by rintro n i rfl; cases hs)
          rw [returnLocal_plain h hf]
          exact .inl ((trivial_local he).resolve_right (fun hh => by rw [hs] at hh; cases hh.2))
      · exact .inl (trivial_return he h hb)
    | false =>
      rw [if_neg (by decide)] at h
      unfold emitReturnSelf at h
      obtain ⟨⟨b, gd⟩, hd', h⟩ := except_bind_ok h
      cases h
      rcases trivial_setter he hd' with h1 | ⟨h1, _, h2⟩
      · exact .inl h1
      · exact .inr ⟨h1, setter_of h2⟩
  | .exit e, seen, g, g', hw, _, _, hd, hq, hx, h => by
    simp only [cBody] at h
    obtain ⟨g1, he, h⟩ := except_bind_ok h
    cases isBlock with
    | true =>
      rw [if_pos rfl] at h
      cases h
      refine .inl ?_
      unfold assembleTrivial
      have e3 : (emitReturnNonLocal g1).l3 = Op.returnNonLocal := rfl
      rw [e3, if_neg (by rintro ⟨h, _⟩; exact absurd h (by decide)), if_neg (by rintro ⟨h, _⟩; exact absurd h (by decide)),
        if_neg (by rintro ⟨h, _⟩; exact absurd h (by decide)), if_neg (by decide), if_neg (by decide)]
    | false =>
      rw [if_neg (by decide)] at h
      by_cases hb : g.bytes = []
      · cases hs : e.simple with
        | true => exact .inr ⟨hb, by simp [Body.simple, hs]⟩
        | false =>
          have hf : pushFieldBytecodes.contains g1.l3 = false := lastOps_field_iff e (cEx_l3 he) (by rintro n i rfl; cases hs)
          rw [returnLocal_plain h hf]
          exact .inl ((trivial_local he).resolve_right (fun hh => by rw [hs] at hh; cases hh.2))
      · exact .inl (trivial_return he h hb)
  | .exitSelf, seen, g, g', _, hf, _, hd, hq, hx, h => by
    simp only [cBody] at h
    cases hf
    rw [returnSelf_quiet hq h]
    exact .inl (trivial_self_of (.inl (by simpa using hx rfl)))
  | .stmt e rest, seen, g, g', hw, hf, _, hd, hq, hx, h0 => by
    simp only [cBody] at h0
    obtain ⟨g1, he, h1⟩ := except_bind_ok h0
    obtain ⟨g2, hp, h⟩ := except_bind_ok h1
    clear h1 h0
    have hxe := (cEx_ok hI e g g1 hw.1 he).1
    have hne := hxe.bytes_ne hd
    obtain ⟨hs1, hs2, hs3, hs4⟩ := stmt_ok hI hw.1 he hp
    have hne2 : g2.bytes ≠ [] := by
      unfold emitPop at hp
      obtain ⟨⟨b, gd⟩, hd', hp⟩ := except_bind_ok hp
      cases hp
      cases b with
      | false => show gd.bytes ++ [Op.pop] ≠ []; simp
      | true => exact dpp_ne hne hd'
    cases rest with
    | done =>
      simp only [cBody] at h
      cases isBlock with
      | true =>
        rw [if_pos rfl, if_pos trivial] at h
        obtain ⟨g3, h3, h⟩ := except_bind_ok h
        obtain ⟨r1, _, _, _, r5⟩ := hs4 g3 h3
        rw [if_neg (by rw [r1]; exact hne)] at h
        rw [returnLocal_plain h r5]
        have hl := removeLastPop_l3 h3 (emitPop_l3 hp)
        have hh : ∀ op, op ∈ Op.pop :: Op.incField :: Op.incFieldPush :: popXBytecodes →
          pushConstBytecodes.contains op = false ∧ op ≠ Op.pushGlobal ∧ pushFieldBytecodes.contains op = false := by decide
        exact .inl (trivial_of_ne (hh _ hl).1 (hh _ hl).2.1 (hh _ hl).2.2 rfl)
      | false =>
        rw [if_neg (by decide)] at h
        rcases trivial_stmt_self hI hw.1 he hp h with h1 | ⟨h1, h2⟩
        · exact .inl h1
        · exact .inr ⟨h1, by simp [Body.simple, h2]⟩
    | exitSelf =>
      simp only [cBody] at h
      cases hf
      rcases trivial_stmt_self hI hw.1 he hp h with h1 | ⟨h1, h2⟩
      · exact .inl h1
      · exact .inr ⟨h1, by simp [Body.simple, h2]⟩
    | last e' =>
      exact .inl ((cBody_trivial hI isBlock (.last e') true g2 g' (hs1.lvl ▸ hw.2) hf nofun (hs1.depthOK hd) hs3 nofun h).resolve_right (fun hh => hne2 hh.1))
    | exit e' =>
      exact .inl ((cBody_trivial hI isBlock (.exit e') true g2 g' (hs1.lvl ▸ hw.2) hf nofun (hs1.depthOK hd) hs3 nofun h).resolve_right (fun hh => hne2 hh.1))
    | stmt e' r =>
      exact .inl ((cBody_trivial hI isBlock (.stmt e' r) true g2 g' (hs1.lvl ▸ hw.2) hf nofun (hs1.depthOK hd) hs3 nofun h).resolve_right (fun hh => hne2 hh.1))

end
end PySOM.BC

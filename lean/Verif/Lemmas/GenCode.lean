import Verif.Lemmas.Inline
/-!
# The generator produces an encoding of the structured code
-/
set_option autoImplicit false
namespace PySOM.BC
open PySOM

section
variable {M X : Type}

/-- What is required of the inlining of a block: it appends an encoding of the code it should append, one value remains on the stack. -/
structure Inliner.OK (I : Inliner M X) : Prop where
  run : ∀ (m : M) (g g' : G M X), g.inl = true → I.run m g = .ok g' → I.good g.lvl m →
    Ext g g' (I.code m g.lvl g.env) 0 1 ∧ g'.inl = true ∧ g'.env = I.env m g.lvl g.env
  typed : ∀ (m : M) (lvl : Nat) (x : X) (d : Nat), I.good lvl m → (I.code m lvl x).ty d = some (d + 1)

/-! ## The last bytecode of an expression -/

def sendOps : List Nat := [Op.send1, Op.send2, Op.send3, Op.sendN]

/-- What the last bytecode can be. -/
def Ex.lastOps : Ex M → List Nat
  | .lit _ => pushConstBytecodes ++ sendOps
  | .glob _ => Op.pushGlobal :: pushConstBytecodes
  | .var .. => [Op.pushLocal, Op.pushArgument]
  | .fld .. => pushFieldBytecodes
  | .blk .. => pushBlockBytecodes
  | .asg .. => Op.incFieldPush :: popXBytecodes
  | .inc _ => [Op.inc]
  | .dec _ => [Op.dec]
  | .send .. => Op.invalid :: sendOps
  | .superSend .. => [Op.superSend]

theorem pushConstant_l3 (g : G M X) (v : Val) : (emitPushConstant g v).l3 ∈ pushConstBytecodes := by
  unfold emitPushConstant
  generalize addLiteralIfAbsent g (.val v) = r
  obtain ⟨i, g1⟩ := r
  dsimp only
  repeat' split
  all_goals simp [pushConstBytecodes, emit1, emit2, addBytecode, addArg]

theorem pushGlobal_l3 (g : G M X) (n : Sel) : (emitPushGlobal g n).l3 ∈ Op.pushGlobal :: pushConstBytecodes := by
  unfold emitPushGlobal
  repeat' split
  all_goals first
    | exact List.mem_cons_of_mem _ (pushConstant_l3 g _)
    | exact List.mem_cons_self

theorem send_l3 (g : G M X) (s : Sel) : (emitSend g s).l3 ∈ sendOps := by
  unfold emitSend
  simp only [emit2, addArg, addBytecode]
  repeat' split
  all_goals simp [sendOps]

theorem pushField_l3 (g : G M X) (i l : Nat) : (emitPushField g i l).l3 ∈ pushFieldBytecodes := by
  unfold emitPushField
  repeat' split
  all_goals simp [pushFieldBytecodes, emit1, emit3, addBytecode, addArg]

theorem pushBlock_l3 (g : G M X) (m : M) (c : Bool) : (emitPushBlock g m c).l3 ∈ pushBlockBytecodes := by
  cases c <;> simp [emitPushBlock, pushBlockBytecodes, emit2, addBytecode, addArg]

theorem cLits_l3 (es : LitTs) : ∀ (i : Nat) (g g' : G M X), g.l3 ∈ sendOps → cLits es i g = .ok g' → g'.l3 ∈ sendOps := by
  cases es with
  | nil => intro i g g' hg h; simp only [cLits] at h; cases h; exact hg
  | cons e es =>
    intro i g g' hg h
    simp only [cLits, bind, Except.bind] at h
    split at h
    · cases h
    · exact cLits_l3 es _ _ _ (send_l3 _ _) h

theorem cLit_l3 (l : LitT) (g g' : G M X) (h : cLit l g = .ok g') : g'.l3 ∈ pushConstBytecodes ++ sendOps := by
  cases l with
  | val v =>
    simp only [cLit] at h
    cases h
    exact List.mem_append_left _ (pushConstant_l3 g v)
  | arr es =>
    simp only [cLit, bind, Except.bind] at h
    split at h
    · cases h
    · split at h
      · cases h
      · rename_i g1 hg1
        have := cLits_l3 es _ _ _ (send_l3 _ _) hg1
        unfold updateLiteral at h
        split at h
        · cases h
        · split at h
          · cases h; exact List.mem_append_right _ this
          · cases h

theorem except_bind_ok {α β ε : Type} {x : Except ε α} {f : α → Except ε β} {b : β} (h : (x >>= f) = .ok b) : ∃ a, x = .ok a ∧ f a = .ok b := by
  cases x with
  | error e => cases h
  | ok a => exact ⟨a, rfl, h⟩

theorem optimizeIncField_l3 {g g' : G M X} {b : Bool} {i l : Nat} (h : optimizeIncField g i l = .ok (b, g')) :
    (b = true → g'.l3 = Op.incFieldPush) ∧ (b = false → g' = g) := by
  unfold optimizeIncField at h
  split at h
  · cases h; exact ⟨nofun, fun _ => rfl⟩
  · split at h
    · cases h; exact ⟨nofun, fun _ => rfl⟩
    · split at h
      · cases h; exact ⟨nofun, fun _ => rfl⟩
      · split at h
        · cases h; exact ⟨nofun, fun _ => rfl⟩
        · obtain ⟨n, _, h⟩ := except_bind_ok h
          obtain ⟨⟨i', c⟩, _, h⟩ := except_bind_ok h
          dsimp only at h
          split at h
          · obtain ⟨h1, _, h⟩ := except_bind_ok h
            cases h
            exact ⟨fun _ => rfl, nofun⟩
          · cases h; exact ⟨nofun, fun _ => rfl⟩

theorem popFieldWithIndex_l3 (g : G M X) (i l : Nat) : (emitPopFieldWithIndex g i l).l3 ∈ popXBytecodes := by
  unfold emitPopFieldWithIndex
  repeat' split
  all_goals simp [popXBytecodes, emit1, emit3, addBytecode, addArg]

theorem genPop_l3 {g g' : G M X} {t : Tgt} (h : genPop g t = .ok g') : g'.l3 ∈ Op.incFieldPush :: popXBytecodes := by
  cases t with
  | var n a i l =>
    simp only [genPop] at h
    cases h
    cases a <;> simp [emitPopVar, emit3, addArg, addBytecode, popXBytecodes]
  | fld n i =>
    simp only [genPop, emitPopField] at h
    obtain ⟨⟨b, g1⟩, h1, h⟩ := except_bind_ok h
    have hh := optimizeIncField_l3 h1
    cases h
    cases b with
    | true => simp [hh.1 rfl]
    | false => exact List.mem_cons_of_mem _ (popFieldWithIndex_l3 _ _ _)

theorem genPops_l3 : ∀ (ts : List Tgt) (t : Tgt) (g g' : G M X), genPops g (t :: ts) = .ok g' → g'.l3 ∈ Op.incFieldPush :: popXBytecodes
  | [], t, g, g', h => by
    simp only [genPops] at h
    obtain ⟨g1, h1, h⟩ := except_bind_ok h
    cases h
    exact genPop_l3 h1
  | t' :: ts, t, g, g', h => by
    rw [genPops] at h
    obtain ⟨g1, h1, h⟩ := except_bind_ok h
    exact genPops_l3 ts t' g1 g' h

theorem tryInline_l3 {inl : Inline M X} {g g' : G M X} {sp : Special} (h : tryInline inl g sp = .ok (true, g')) : g'.l3 = Op.invalid := by
  cases sp with
  | thenBranch c =>
    simp only [tryInline, inlineThenBranch] at h
    split at h
    · cases h
    · obtain ⟨_, _, h⟩ := except_bind_ok h
      obtain ⟨_, _, h⟩ := except_bind_ok h
      obtain ⟨_, _, h⟩ := except_bind_ok h
      obtain ⟨_, _, h⟩ := except_bind_ok h
      cases h; rfl
  | thenElse c =>
    simp only [tryInline, inlineThenElse] at h
    split at h
    · cases h
    · obtain ⟨⟨_, _, _⟩, _, h⟩ := except_bind_ok h
      dsimp only at h
      obtain ⟨_, _, h⟩ := except_bind_ok h
      obtain ⟨_, _, h⟩ := except_bind_ok h
      obtain ⟨_, _, h⟩ := except_bind_ok h
      obtain ⟨_, _, h⟩ := except_bind_ok h
      cases h; rfl
  | «while» b =>
    simp only [tryInline, inlineWhile] at h
    split at h
    · cases h
    · obtain ⟨⟨_, _, _⟩, _, h⟩ := except_bind_ok h
      dsimp only at h
      obtain ⟨_, _, h⟩ := except_bind_ok h
      obtain ⟨_, _, h⟩ := except_bind_ok h
      obtain ⟨_, _, h⟩ := except_bind_ok h
      obtain ⟨_, _, h⟩ := except_bind_ok h
      obtain ⟨_, _, h⟩ := except_bind_ok h
      cases h; rfl
  | andOr b =>
    simp only [tryInline, inlineAndOr] at h
    split at h
    · cases h
    · obtain ⟨_, _, h⟩ := except_bind_ok h
      obtain ⟨_, _, h⟩ := except_bind_ok h
      obtain ⟨_, _, h⟩ := except_bind_ok h
      obtain ⟨_, _, h⟩ := except_bind_ok h
      obtain ⟨_, _, h⟩ := except_bind_ok h
      cases h; rfl

theorem cEx_l3 {inl : Inline M X} {e : Ex M} {g g' : G M X} (h : cEx inl e g = .ok g') : g'.l3 ∈ e.lastOps := by
  cases e with
  | lit l => simp only [cEx] at h; exact cLit_l3 l g g' h
  | glob n => simp only [cEx] at h; cases h; exact pushGlobal_l3 g n
  | var a i l => simp only [cEx] at h; cases h; cases a <;> simp [Ex.lastOps, emitPushVar, emit3, addArg, addBytecode]
  | fld n i => simp only [cEx] at h; cases h; exact pushField_l3 _ _ _
  | blk c m => simp only [cEx] at h; cases h; exact pushBlock_l3 _ _ _
  | asg t ts e =>
    simp only [cEx] at h
    obtain ⟨_, _, h⟩ := except_bind_ok h
    exact genPops_l3 _ _ _ _ h
  | inc e =>
    simp only [cEx] at h
    obtain ⟨_, _, h⟩ := except_bind_ok h
    cases h; simp [Ex.lastOps, emit1, addBytecode]
  | dec e =>
    simp only [cEx] at h
    obtain ⟨_, _, h⟩ := except_bind_ok h
    cases h; simp [Ex.lastOps, emit1, addBytecode]
  | send sel r as =>
    simp only [cEx] at h
    obtain ⟨_, _, h⟩ := except_bind_ok h
    obtain ⟨_, _, h⟩ := except_bind_ok h
    unfold sendOrInline at h
    split at h
    · cases h; exact List.mem_cons_of_mem _ (send_l3 _ _)
    · obtain ⟨⟨b, g1⟩, h1, h⟩ := except_bind_ok h
      cases h
      cases b with
      | true => simp [tryInline_l3 h1, Ex.lastOps]
      | false => exact List.mem_cons_of_mem _ (send_l3 _ _)
  | superSend sel r as =>
    simp only [cEx] at h
    obtain ⟨_, _, h⟩ := except_bind_ok h
    obtain ⟨_, _, h⟩ := except_bind_ok h
    cases h; simp [Ex.lastOps, emitSuperSend, emit2, addArg, addBytecode]

theorem lastOps_dup (e : Ex M) : Op.dup ∉ e.lastOps := by cases e <;> simp only [Ex.lastOps] <;> decide
theorem lastOps_block {e : Ex M} {op : Nat} (h : op ∈ e.lastOps) (hb : pushBlockBytecodes.contains op = true) : ∃ c m, e = .blk c m := by
  simp only [pushBlockBytecodes, List.contains_iff_mem, List.mem_cons, List.not_mem_nil, or_false] at hb
  cases e with
  | blk c m => exact ⟨c, m, rfl⟩
  | _ => simp only [Ex.lastOps] at h; rcases hb with rfl | rfl <;> exact absurd h (by decide)
theorem lastOps_inc {e : Ex M} (h : Op.inc ∈ e.lastOps) : ∃ e', e = .inc e' := by
  cases e with
  | inc e => exact ⟨e, rfl⟩
  | _ => simp only [Ex.lastOps] at h; exact absurd h (by decide)
theorem lastOps_field {e : Ex M} {op : Nat} (h : op ∈ e.lastOps) (hb : pushFieldBytecodes.contains op = true) : ∃ n i, e = .fld n i := by
  simp only [pushFieldBytecodes, List.contains_iff_mem, List.mem_cons, List.not_mem_nil, or_false] at hb
  cases e with
  | fld n i => exact ⟨n, i, rfl⟩
  | _ => simp only [Ex.lastOps] at h; rcases hb with rfl | rfl | rfl <;> exact absurd h (by decide)
theorem lastOps_asg {e : Ex M} {op : Nat} (h : op ∈ e.lastOps) (hb : op ∈ Op.incFieldPush :: popXBytecodes) : ∃ t ts e', e = .asg t ts e' := by
  simp only [popXBytecodes, List.mem_cons, List.not_mem_nil, or_false] at hb
  cases e with
  | asg t ts e => exact ⟨t, ts, e, rfl⟩
  | _ => simp only [Ex.lastOps] at h; rcases hb with rfl | rfl | rfl | rfl | rfl | rfl <;> exact absurd h (by decide)

/-! ## Assignments -/

/-- The shape of the state after a store instruction. -/
structure PopShape (g0 g1 : G M X) (t : Tgt) (op : Nat) (rest : List Nat) : Prop where
  isPop : popXBytecodes.contains op = true
  len : bytecodeLength op = some (rest.length + 1)
  bytes : g1.bytes = g0.bytes ++ op :: rest
  l3 : g1.l3 = op
  l2 : g1.l2 = g0.l3
  l1 : g1.l1 = g0.l2
  l0 : g1.l0 = g0.l1
  lits : g1.lits = g0.lits
  depth : g1.depth = g0.depth + -1
  maxDepth : g1.maxDepth = max g0.maxDepth (g0.depth + -1)
  lvl : g1.lvl = g0.lvl
  inl : g1.inl = g0.inl
  env : g1.env = g0.env
  loops : g1.loops = g0.loops
  is : ∀ lits, Is lits (.ins (t.popIns g0.lvl : Ins M) (rest.length + 1)) (op :: rest)

theorem popShape_field (g : G M X) (n : Sel) (i : Nat) : ∃ op rest, PopShape g (emitPopFieldWithIndex g i g.lvl) (.fld n i) op rest := by
  unfold emitPopFieldWithIndex
  split
  · rename_i h
    refine ⟨Op.popField0, [], by decide, by decide, rfl, rfl, rfl, rfl, rfl, rfl, rfl, rfl, rfl, rfl, rfl, rfl, ?_⟩
    simp only [Tgt.popIns, h.1, h.2]
    exact fun _ _ => rfl
  · split
    · rename_i h
      refine ⟨Op.popField1, [], by decide, by decide, rfl, rfl, rfl, rfl, rfl, rfl, rfl, rfl, rfl, rfl, rfl, rfl, ?_⟩
      simp only [Tgt.popIns, h.1, h.2]
      exact fun _ _ => rfl
    · exact ⟨Op.popField, [i, g.lvl], by decide, rfl, emit3_bytes .., rfl, rfl, rfl, rfl, rfl, rfl, rfl, rfl, rfl, rfl, rfl, fun _ _ => rfl⟩

theorem popShape_var (g : G M X) (n : Sel) (a : Bool) (i l : Nat) : ∃ op rest, PopShape g (emitPopVar g a i l) (.var n a i l) op rest := by
  cases a
  · exact ⟨Op.popLocal, [i, l], by decide, rfl, emit3_bytes .., rfl, rfl, rfl, rfl, rfl, rfl, rfl, rfl, rfl, rfl, rfl, fun _ _ => rfl⟩
  · exact ⟨Op.popArgument, [i, l], by decide, rfl, emit3_bytes .., rfl, rfl, rfl, rfl, rfl, rfl, rfl, rfl, rfl, rfl, rfl, fun _ _ => rfl⟩

/-- Where `optimize_inc_field` does nothing. -/
def NoFuse (g : G M X) (t : Tgt) : Prop := ∀ n i, t = .fld n i → optimizeIncField g i g.lvl = .ok (false, g)

theorem noFuse_of {g : G M X} (t : Tgt) (hn : g.inl = true ∨ g.l3 ≠ Op.dup ∨ g.l2 ≠ Op.inc ∨ pushFieldBytecodes.contains g.l1 = false) : NoFuse g t := by
  intro n i _
  unfold optimizeIncField
  by_cases h1 : g.inl = true
  · rw [if_pos h1]
  · rw [if_neg h1]
    by_cases h2 : g.l3 ≠ Op.dup
    · rw [if_pos h2]
    · rw [if_neg h2]
      by_cases h3 : g.l2 ≠ Op.inc
      · rw [if_pos h3]
      · rw [if_neg h3]
        by_cases h4 : pushFieldBytecodes.contains g.l1 = false
        · rw [if_pos h4]
        · exact absurd hn (by simp_all)

theorem genPop_shape {g g' : G M X} {t : Tgt} (hn : NoFuse g t) (h : genPop g t = .ok g') : ∃ op rest, PopShape g g' t op rest := by
  cases t with
  | var n a i l => simp only [genPop] at h; cases h; exact popShape_var g n a i l
  | fld n i =>
    simp only [genPop, emitPopField] at h
    rw [hn n i rfl] at h
    cases h
    exact popShape_field g n i

theorem PopShape.ext {g0 g1 : G M X} {t : Tgt} {op : Nat} {rest : List Nat} (h : PopShape g0 g1 t op rest) :
    Ext g0 g1 (.ins (t.popIns g0.lvl)) 1 (-1) :=
  Ext.emit (by rw [h.lits]; exact List.prefix_refl _) h.bytes h.depth h.maxDepth h.lvl (h.is _) (by cases t <;> exact ty_pop fun _ => rfl) h.loops

theorem PopShape.keep {g0 g1 : G M X} {t : Tgt} {op : Nat} {rest : List Nat} (h : PopShape g0 g1 t op rest) : Keep g0 g1 := ⟨h.inl, h.env⟩

theorem genPops_ext : ∀ (ts : List Tgt) (g g' : G M X), (∀ t ∈ ts.head?, NoFuse g t) → genPops g ts = .ok g' →
    Ext g g' (popsSC g.lvl ts) ts.length (-ts.length) ∧ Keep g g'
  | [], g, g', _, h => by
    simp only [genPops] at h
    cases h
    exact ⟨Ext.refl g, Keep.refl g⟩
  | t :: ts, g, g', hn, h => by
    rw [genPops] at h
    obtain ⟨g1, h1, h⟩ := except_bind_ok h
    obtain ⟨op, rest, hs⟩ := genPop_shape (hn t rfl) h1
    have hn1 : ∀ t ∈ ts.head?, NoFuse g1 t := by
      refine fun t _ => noFuse_of t (.inr (.inl ?_))
      rw [hs.l3]
      intro he
      have := hs.isPop
      rw [he] at this
      exact absurd this (by decide)
    obtain ⟨h2, k2⟩ := genPops_ext ts g1 g' hn1 h
    refine ⟨?_, hs.keep.trans k2⟩
    rw [hs.lvl] at h2
    have h3 := (hs.ext.weaken (show 1 ≤ ts.length + 1 by omega)).seq h2 (by omega)
    have e : ((-1 : Int) + -(ts.length : Int)) = -((ts.length + 1 : Nat) : Int) := by omega
    rw [e] at h3
    exact h3

theorem emitDups_ext : ∀ (n : Nat) (g : G M X), Ext g (emitDups g n) (dupsSC n) 1 n ∧ Keep g (emitDups g n)
  | 0, g => ⟨(Ext.refl g).weaken (Nat.zero_le 1), Keep.refl g⟩
  | n + 1, g => by
    obtain ⟨h, k⟩ := emitDups_ext n (emit1 g Op.dup 1)
    refine ⟨?_, (keep1 g _ _).trans k⟩
    have := (ext_dup g).seq h (by omega)
    have e : ((1 : Int) + (n : Int)) = ((n + 1 : Nat) : Int) := by omega
    rw [e] at this
    exact this

theorem emitDups_l : ∀ (n : Nat) (g : G M X), g.l3 = Op.dup → (emitDups g n).l3 = Op.dup ∧ (1 ≤ n → (emitDups g n).l2 = Op.dup)
  | 0, g, h => ⟨h, nofun⟩
  | n + 1, g, h => by
    have := emitDups_l n (emit1 g Op.dup 1) rfl
    refine ⟨this.1, fun _ => ?_⟩
    simp only [emitDups]
    cases n with
    | zero => exact h
    | succ n => exact this.2 (by omega)

theorem addNames_ext : ∀ (ts : List Tgt) (g : G M X), Ext g (addNames g ts) .nop 0 0 ∧ Keep g (addNames g ts)
  | [], g => ⟨Ext.refl g, Keep.refl g⟩
  | t :: ts, g => by
    obtain ⟨h, k⟩ := addNames_ext ts (addLiteralIfAbsent g (.val (.sym t.name))).2
    exact ⟨(addLit_ext g _).thenNop h, (keepLit g _).trans k⟩

theorem lenOf_ok {op n : Nat} (h : bytecodeLength op = some n) : lenOf op = .ok n := by simp [lenOf, h]

/-- After `push_field f; inc; dup`: the fusion happens exactly for the same field. -/
theorem optimizeIncField_field (g : G M X) (j i : Nat) (hf : g.inl = false) :
    optimizeIncField (emit1 (emit1 (emitPushField g j g.lvl) Op.inc 0) Op.dup 1) i g.lvl =
      if j = i then
        .ok (true, emitIncFieldPush (resetLast { emit1 (emit1 (emitPushField g j g.lvl) Op.inc 0) Op.dup 1 with bytes := g.bytes }) i g.lvl)
      else .ok (false, emit1 (emit1 (emitPushField g j g.lvl) Op.inc 0) Op.dup 1) := by
  unfold optimizeIncField
  have hf' : (emit1 (emit1 (emitPushField g j g.lvl) Op.inc 0) Op.dup 1).inl = false := by
    rw [← hf]; exact (keep_pushField g j g.lvl).1
  have h3 : (emit1 (emit1 (emitPushField g j g.lvl) Op.inc 0) Op.dup 1).l3 = Op.dup := rfl
  have h2 : (emit1 (emit1 (emitPushField g j g.lvl) Op.inc 0) Op.dup 1).l2 = Op.inc := rfl
  have h1 : (emit1 (emit1 (emitPushField g j g.lvl) Op.inc 0) Op.dup 1).l1 = (emitPushField g j g.lvl).l3 := rfl
  have hc : pushFieldBytecodes.contains (emitPushField g j g.lvl).l3 = true := List.contains_iff_mem.mpr (pushField_l3 g j g.lvl)
  rw [hf', h3, h2, h1, hc]
  simp only [Bool.false_eq_true, if_false, ne_eq, not_true, Bool.true_eq_false]
  have key : ∃ n, bytecodeLength (emitPushField g j g.lvl).l3 = some n ∧ (emitPushField g j g.lvl).bytes.length = g.bytes.length + n ∧
      (emitPushField g j g.lvl).bytes.take g.bytes.length = g.bytes ∧
      indexAndCtxOfLast (emit1 (emit1 (emitPushField g j g.lvl) Op.inc 0) Op.dup 1) (emitPushField g j g.lvl).l3 (1 + 1 + n) = .ok (j, g.lvl) := by
    unfold emitPushField
    split
    · rename_i h
      exact ⟨1, rfl, by simp [emit1, addBytecode], by simp [emit1, addBytecode], by rw [h.1, h.2]; rfl⟩
    · split
      · rename_i h
        exact ⟨1, rfl, by simp [emit1, addBytecode], by simp [emit1, addBytecode], by rw [h.1, h.2]; rfl⟩
      · refine ⟨3, rfl, by simp [emit3_bytes], by simp [emit3_bytes], ?_⟩
        have hb : (emit1 (emit1 (emit3 g Op.pushField j g.lvl 1) Op.inc 0) Op.dup 1).bytes = g.bytes ++ [Op.pushField, j, g.lvl, Op.inc, Op.dup] := by
          simp [emit1_bytes, emit3_bytes]
        have hl3 : (emit3 g Op.pushField j g.lvl 1).l3 = Op.pushField := rfl
        unfold indexAndCtxOfLast
        rw [hl3, if_neg (by decide), if_neg (by decide), hb]
        have hlen : (g.bytes ++ [Op.pushField, j, g.lvl, Op.inc, Op.dup]).length = g.bytes.length + 5 := by simp
        simp only [subAssert, hlen, bind, Except.bind]
        rw [if_pos (by omega)]
        have : g.bytes.length + 5 - (1 + 1 + 3) = g.bytes.length := by omega
        simp only [this]
        simp
  obtain ⟨n, hn1, hn2, hn3, hn4⟩ := key
  have hne : ¬ (g.inl = true) := by simp [hf]
  rw [lenOf_ok hn1]
  simp only [bind, Except.bind]
  rw [hn4]
  dsimp only
  by_cases hji : j = i
  · subst hji
    simp only [and_self, if_true]
    have hr : removeLast3 (emit1 (emit1 (emitPushField g j g.lvl) Op.inc 0) Op.dup 1) =
        .ok { emit1 (emit1 (emitPushField g j g.lvl) Op.inc 0) Op.dup 1 with bytes := g.bytes } := by
      unfold removeLast3
      rw [h3, h2, h1, lenOf_ok hn1]
      simp only [lenOf, show bytecodeLength Op.dup = some 1 by decide, show bytecodeLength Op.inc = some 1 by decide, bind, Except.bind, subAssert]
      have hbl : (emit1 (emit1 (emitPushField g j g.lvl) Op.inc 0) Op.dup 1).bytes = (emitPushField g j g.lvl).bytes ++ [Op.inc, Op.dup] := by
        simp [emit1_bytes]
      rw [hbl, List.length_append, hn2]
      rw [if_pos (by simp; omega)]
      have : g.bytes.length + n + [Op.inc, Op.dup].length - (1 + 1 + n) = g.bytes.length := by simp; omega
      simp only [this]
      rw [List.take_append_of_le_length (by omega), hn3]
      rfl
    rw [hr]
  · simp [hji]

end
end PySOM.BC

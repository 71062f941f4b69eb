import Verif.Lemmas.Splice
import Verif.Lemmas.GenCode
/-!
# Inlining single instructions
-/
set_option autoImplicit false
namespace PySOM.BC
open PySOM

section
variable {M X : Type}

/-- Code is added that encodes `sc`; nothing else changes. -/
structure Emits (g g' : G M X) (sc : SC M) : Prop where
  lits : g.lits <+: g'.lits
  bytes : ∃ seg, g'.bytes = g.bytes ++ seg ∧ Enc g'.lits sc seg
  dep : Dep sc g.depth g.maxDepth g'.depth g'.maxDepth
  lvl : g'.lvl = g.lvl
  keep : Keep g g'
  loops : g'.loops = g.loops

theorem Emits.of {g g' : G M X} {sc : SC M} {m : Nat} {k : Int} (e : Ext g g' sc m k) (hk : Keep g g') (ho : g'.loops = g.loops)
    (hm : ∀ d d', sc.ty d = some d' → m ≤ d) : Emits g g' sc := by
  refine ⟨e.lits, e.bytes, ⟨e.ok, e.mono, ?_⟩, e.lvl, hk, ho⟩
  intro h d d' ht hd
  obtain ⟨d1, t, _, l, x⟩ := e.dep h d (hm d d' ht) hd
  rw [t] at ht
  cases ht
  exact ⟨l, x⟩

theorem Emits.refl (g : G M X) : Emits g g .nop := .of (Ext.refl g) (Keep.refl g) rfl fun _ _ _ => Nat.zero_le _

/-- Three bytes with an effect that is at least the real one. -/
theorem Emits.three {g : G M X} {op x y : Nat} {i : Ins M} {k : Int} (hi : ∀ lits, Is lits (.ins i 3) [op, x, y])
    (hk : ∀ d d', i.ty d = some d' → (d' : Int) ≤ d + k) : Emits g (emit3 g op x y k) (.ins i) := by
  refine ⟨List.prefix_refl _, ⟨_, emit3_bytes .., .ins _ _ (hi _)⟩, ⟨?_, ?_, ?_⟩, rfl, ⟨rfl, rfl⟩, rfl⟩
  · intro h; show g.depth + k ≤ max g.maxDepth (g.depth + k); omega
  · show g.maxDepth ≤ max g.maxDepth (g.depth + k); omega
  · intro h d d' ht hd
    have := hk d d' ht
    have ht' : i.ty d = some d' := ht
    refine ⟨by show (d' : Int) ≤ g.depth + k; omega, ?_⟩
    show ((SC.ins i).maxd d : Int) ≤ max g.maxDepth (g.depth + k)
    simp only [SC.maxd, ht', Option.getD_some]
    omega

theorem Emits.one {g : G M X} {op : Nat} {i : Ins M} {k : Int} (hi : ∀ lits, Is lits (.ins i 1) [op])
    (hk : ∀ d d', i.ty d = some d' → (d' : Int) ≤ d + k) : Emits g (emit1 g op k) (.ins i) := by
  refine ⟨List.prefix_refl _, ⟨_, emit1_bytes .., .ins _ _ (hi _)⟩, ⟨?_, ?_, ?_⟩, rfl, ⟨rfl, rfl⟩, rfl⟩
  · intro h; show g.depth + k ≤ max g.maxDepth (g.depth + k); omega
  · show g.maxDepth ≤ max g.maxDepth (g.depth + k); omega
  · intro h d d' ht hd
    have := hk d d' ht
    have ht' : i.ty d = some d' := ht
    refine ⟨by show (d' : Int) ≤ g.depth + k; omega, ?_⟩
    show ((SC.ins i).maxd d : Int) ≤ max g.maxDepth (g.depth + k)
    simp only [SC.maxd, ht', Option.getD_some]
    omega

theorem emits_pushConstant (g : G M X) (v : Val) : Emits g (emitPushConstant g v) (.ins (.pushConst v)) := by
  refine .of (ext_pushConstant g v) (keep_pushConstant g v) ?_ fun _ _ _ => Nat.zero_le _
  have hs := (addLit_spec g (.val v)).2.2
  unfold emitPushConstant
  generalize addLiteralIfAbsent g (.val v) = r at hs
  obtain ⟨i, g1⟩ := r
  dsimp only at hs ⊢
  have : g1.loops = g.loops := by rw [hs]
  repeat' split
  all_goals first | rfl | exact this

theorem addLit_loops (g : G M X) (l : Lit M) : (addLiteralIfAbsent g l).2.loops = g.loops := by
  have hs := (addLit_spec g l).2.2
  rw [hs]

theorem emits_pushGlobal (g : G M X) (n : Sel) : Emits g (emitPushGlobal g n) (.ins (globIns n)) := by
  refine .of (ext_pushGlobal g n) (keep_pushGlobal g n) ?_ fun _ _ _ => Nat.zero_le _
  unfold emitPushGlobal
  split
  · exact (emits_pushConstant g _).loops
  split
  · exact (emits_pushConstant g _).loops
  split
  · exact (emits_pushConstant g _).loops
  · exact addLit_loops g (.val (.sym n))

theorem emits_pushBlock (g : G M X) (m : M) (c : Bool) : Emits g (emitPushBlock g m c) (.ins (.pushBlock c m)) :=
  .of (ext_pushBlock g m c) (keep_pushBlock g m c) (addLit_loops g _) fun _ _ _ => Nat.zero_le _

theorem ty_ge {i : Ins M} {n : Nat} {f : Nat → Nat} (h : ∀ d, i.ty d = if n ≤ d then some (f d) else none) : ∀ d d', (SC.ins i).ty d = some d' → n ≤ d := by
  intro d d' ht
  have ht : i.ty d = some d' := ht
  rw [h] at ht
  split at ht
  · assumption
  · cases ht

theorem emits_send (g : G M X) (s : Sel) : Emits g (emitSend g s) (.ins (.send s (Sym.numberOfSignatureArguments s))) :=
  .of (ext_send g s) (keep_send g s) (addLit_loops g _) (ty_ge (f := fun d => d - _ + 1) fun _ => rfl)

theorem emits_superSend (g : G M X) (s : Sel) : Emits g (emitSuperSend g s) (.ins (.superSend s (Sym.numberOfSignatureArguments s))) :=
  .of (ext_superSend g s) (keep_superSend g s) (addLit_loops g _) (ty_ge (f := fun d => d - _ + 1) fun _ => rfl)

theorem emits_pushField (g : G M X) (i : Nat) : Emits g (emitPushField g i g.lvl) (.ins (.pushFld i g.lvl)) := by
  refine .of (ext_pushField g i) (keep_pushField g i g.lvl) ?_ fun _ _ _ => Nat.zero_le _
  unfold emitPushField
  repeat' split
  all_goals rfl

theorem emits_popField (g : G M X) (i l : Nat) : Emits g (emitPopFieldWithIndex g i l) (.ins (.popFld i l)) := by
  refine .of (ext_popFieldWithIndex g i l) (keep_popFieldWithIndex g i l) ?_ (ty_ge (f := fun d => d - 1) fun _ => rfl)
  unfold emitPopFieldWithIndex
  repeat' split
  all_goals rfl

theorem emits_returnNonLocal (g : G M X) : Emits g (emitReturnNonLocal g) (.ins (.retNonLocal g.lvl)) :=
  .of (ext_returnNonLocal g) ⟨rfl, rfl⟩ rfl (ty_ge (f := fun d => d) fun _ => rfl)

end

/-! ## `getByte` and the literals -/

theorem getByte_ok {bs : List Nat} {i v : Nat} (h : getByte bs i = .ok v) : bs[i]? = some v := by
  unfold getByte at h
  split at h
  · cases h; assumption
  · cases h

theorem litVal_ok {lits : List (Lit Meth)} {j : Nat} {v : Val} (h : litVal lits j = .ok v) : constVal lits j = some v := by
  unfold litVal at h
  unfold constVal
  split at h <;> first | cases h; done | skip
  cases h
  rename_i h
  rw [h]

theorem litSym_ok {lits : List (Lit Meth)} {j : Nat} {v : Sel} (h : litSym lits j = .ok v) : constSym lits j = some v := by
  unfold litSym at h
  unfold constSym
  split at h <;> first | cases h; done | skip
  cases h
  rename_i h
  rw [h]

theorem litMeth_ok {lits : List (Lit Meth)} {j : Nat} {v : Meth} (h : litMeth lits j = .ok v) : constMeth lits j = some v := by
  unfold litMeth at h
  unfold constMeth
  split at h <;> first | cases h; done | skip
  cases h
  rename_i h
  rw [h]

theorem ite_elim {α : Type} {p : Prop} [Decidable p] {a b c : α} (h : (if p then a else b) = c) : (p ∧ a = c) ∨ (¬ p ∧ b = c) := by
  by_cases hp : p
  · exact .inl ⟨hp, by rwa [if_pos hp] at h⟩
  · exact .inr ⟨hp, by rwa [if_neg hp] at h⟩

/-- Inlining an instruction adds the code it should add. -/
theorem inlineIns_ok {sub : Meth → Except Err Meth} {lits : List (Lit Meth)} {bytes locals : List Nat} {op i : Nat} {g g' : G Meth (List Nat)} {j : Ins Meth}
    {len : Nat} (hd : decodeOp lits op bytes[i + 1]? bytes[i + 2]? = some (.ins j len)) (ho : InsOK g.lvl j) (hinl : g.inl = true)
    (h : inlineIns sub lits bytes locals op i g = some (.ok g')) : Emits g g' (inlIns sub g.lvl g.env locals j) := by
  unfold inlineIns at h
  replace h := ite_elim h
  rcases h with ⟨e, h⟩ | ⟨e, h⟩
  · subst e; cases hd
  replace h := ite_elim h
  rcases h with ⟨e, h⟩ | ⟨e, h⟩
  · subst e
    cases hd; cases h
    exact .one (fun _ _ => rfl) (by intro d d' h; simp only [Ins.ty] at h; split at h <;> cases h; omega)
  replace h := ite_elim h
  rcases h with ⟨e, h⟩ | ⟨e, h⟩
  · simp only [Option.some.injEq] at h
    obtain ⟨x, hx, h⟩ := except_bind_ok h
    obtain ⟨l, hl, h⟩ := except_bind_ok h
    rw [getByte_ok hx, getByte_ok hl] at hd
    split at h
    case isFalse => cases h
    rename_i hpos
    rcases e with rfl | rfl | rfl | rfl
    · cases hd
      rw [if_pos rfl] at h
      cases h
      have ho : l = g.lvl + 1 := ho
      subst ho
      exact emits_pushField g x
    · cases hd
      rw [if_neg (by decide), if_pos rfl] at h
      cases h
      exact emits_popField g x (l - 1)
    · cases hd
      rw [if_neg (by decide), if_neg (by decide)] at h
      cases h
      exact .three (fun _ _ => rfl) (by intro d d' h; simp only [Ins.ty] at h; cases h; omega)
    · cases hd
      rw [if_neg (by decide), if_neg (by decide)] at h
      cases h
      exact .three (fun _ _ => rfl) (by intro d d' h; simp only [Ins.ty] at h; split at h <;> cases h; omega)
  replace h := ite_elim h
  rcases h with ⟨e, h⟩ | ⟨e, h⟩
  · simp only [Option.some.injEq] at h
    obtain ⟨x, hx, h⟩ := except_bind_ok h
    obtain ⟨l, hl, h⟩ := except_bind_ok h
    rw [getByte_ok hx, getByte_ok hl] at hd
    split at h
    case isFalse => cases h
    cases h
    rcases e with rfl | rfl <;> cases hd
    · exact .three (fun _ _ => rfl) (by intro d d' h; simp only [Ins.ty] at h; cases h; omega)
    · exact .three (fun _ _ => rfl) (by intro d d' h; simp only [Ins.ty] at h; cases h; omega)
  replace h := ite_elim h
  rcases h with ⟨e, h⟩ | ⟨e, h⟩
  · simp only [Option.some.injEq] at h
    obtain ⟨x, hx, h⟩ := except_bind_ok h
    obtain ⟨l, hl, h⟩ := except_bind_ok h
    rw [getByte_ok hx, getByte_ok hl] at hd
    split at h
    · rename_i hl0
      subst hl0
      obtain ⟨v, hv, h⟩ := except_bind_ok h
      obtain ⟨y, hy, h⟩ := except_bind_ok h
      have hr : ((getLocal [locals] x 0).bind (inlinedIdx g.env)).toOption.getD x = y := by rw [hv]; simp only [Except.bind, hy]; rfl
      cases h
      rcases e with rfl | rfl <;> cases hd <;> simp only [inlIns, hr]
      · exact .three (fun _ _ => rfl) (by intro d d' h; simp only [Ins.ty] at h; cases h; simp)
      · exact .three (fun _ _ => rfl) (by intro d d' h; simp only [Ins.ty] at h; split at h <;> cases h; rw [if_neg (by decide)]; omega)
    · rename_i hl0
      obtain ⟨l, rfl⟩ : ∃ l', l = l' + 1 := ⟨l - 1, by omega⟩
      cases h
      rcases e with rfl | rfl <;> cases hd <;> simp only [inlIns, Nat.add_sub_cancel]
      · exact .three (fun _ _ => rfl) (by intro d d' h; simp only [Ins.ty] at h; cases h; simp)
      · exact .three (fun _ _ => rfl) (by intro d d' h; simp only [Ins.ty] at h; split at h <;> cases h; rw [if_neg (by decide)]; omega)
  replace h := ite_elim h
  rcases h with ⟨e, h⟩ | ⟨e, h⟩
  · subst e
    simp only [Option.some.injEq] at h
    obtain ⟨x, hx, h⟩ := except_bind_ok h
    obtain ⟨m, hm, h⟩ := except_bind_ok h
    obtain ⟨m', hm', h⟩ := except_bind_ok h
    have hd : (do let y ← (do let x ← bytes[i + 1]?; constMeth lits x); some (Dec.ins (Ins.pushBlock true y) 2)) = some (Dec.ins j len) := by
      rw [← hd]; cases bytes[i + 1]? <;> rfl
    rw [getByte_ok hx] at hd
    simp only [Option.bind_eq_bind, Option.bind_some, litMeth_ok hm] at hd
    cases hd
    cases h
    simp only [inlIns, hm']
    exact emits_pushBlock g m' true
  replace h := ite_elim h
  rcases h with ⟨e, h⟩ | ⟨e, h⟩
  · subst e
    simp only [Option.some.injEq] at h
    obtain ⟨x, hx, h⟩ := except_bind_ok h
    obtain ⟨m, hm, h⟩ := except_bind_ok h
    have hd : (do let y ← (do let x ← bytes[i + 1]?; constMeth lits x); some (Dec.ins (Ins.pushBlock false y) 2)) = some (Dec.ins j len) := by
      rw [← hd]; cases bytes[i + 1]? <;> rfl
    rw [getByte_ok hx] at hd
    simp only [Option.bind_eq_bind, Option.bind_some, litMeth_ok hm] at hd
    cases hd
    cases h
    exact emits_pushBlock g m false
  replace h := ite_elim h
  rcases h with ⟨e, h⟩ | ⟨e, h⟩
  · subst e
    simp only [Option.some.injEq] at h
    obtain ⟨x, hx, h⟩ := except_bind_ok h
    obtain ⟨v, hv, h⟩ := except_bind_ok h
    have hd : (do let y ← (do let x ← bytes[i + 1]?; constVal lits x); some (Dec.ins (Ins.pushConst y) 2)) = some (Dec.ins j len) := by
      rw [← hd]; cases bytes[i + 1]? <;> rfl
    rw [getByte_ok hx] at hd
    simp only [Option.bind_eq_bind, Option.bind_some, litVal_ok hv] at hd
    cases hd
    cases h
    exact emits_pushConstant g v
  replace h := ite_elim h
  rcases h with ⟨e, h⟩ | ⟨e, h⟩
  · simp only [Option.some.injEq] at h
    obtain ⟨v, hv, h⟩ := except_bind_ok h
    have hd : (do let y ← constVal lits (op - Op.pushConstant0); some (Dec.ins (Ins.pushConst y) 1)) = some (Dec.ins j len) := by
      rw [← hd]; rcases e with rfl | rfl | rfl <;> rfl
    simp only [Option.bind_eq_bind, litVal_ok hv, Option.bind_some] at hd
    cases hd
    cases h
    exact emits_pushConstant g v
  replace h := ite_elim h
  rcases h with ⟨e, h⟩ | ⟨e, h⟩
  · cases h
    rcases e with rfl | rfl | rfl <;> cases hd <;>
      exact .one (fun _ _ => rfl) (by intro d d' h; simp only [Ins.ty] at h; cases h; omega)
  replace h := ite_elim h
  rcases h with ⟨e, h⟩ | ⟨e, h⟩
  · subst e
    cases h; cases hd
    exact .one (fun _ _ => rfl) (by intro d d' h; simp only [Ins.ty] at h; split at h <;> cases h; omega)
  replace h := ite_elim h
  rcases h with ⟨e, h⟩ | ⟨e, h⟩
  · cases h
    rcases e with rfl | rfl <;> cases hd <;>
      exact .one (fun _ _ => rfl) (by intro d d' h; simp only [Ins.ty] at h; split at h <;> cases h; omega)
  replace h := ite_elim h
  rcases h with ⟨e, h⟩ | ⟨e, h⟩
  · subst e
    simp only [Option.some.injEq] at h
    obtain ⟨x, hx, h⟩ := except_bind_ok h
    obtain ⟨v, hv, h⟩ := except_bind_ok h
    have hd : (do let y ← (do let x ← bytes[i + 1]?; constSym lits x); some (Dec.ins (Ins.pushGlobal y) 2)) = some (Dec.ins j len) := by
      rw [← hd]; cases bytes[i + 1]? <;> rfl
    rw [getByte_ok hx] at hd
    simp only [Option.bind_eq_bind, Option.bind_some, litSym_ok hv] at hd
    cases hd
    cases h
    exact emits_pushGlobal g v
  replace h := ite_elim h
  rcases h with ⟨e, h⟩ | ⟨e, h⟩
  · simp only [Option.some.injEq] at h
    obtain ⟨x, hx, h⟩ := except_bind_ok h
    obtain ⟨v, hv, h⟩ := except_bind_ok h
    have hj : ∃ n, j = .send v n := by
      rcases e with rfl | rfl | rfl | rfl
      · have hd : (do let y ← (do let x ← bytes[i + 1]?; constSym lits x); some (Dec.ins (Ins.send y 1) 2)) = some (Dec.ins j len) := by
          rw [← hd]; cases bytes[i + 1]? <;> rfl
        rw [getByte_ok hx] at hd
        simp only [Option.bind_eq_bind, Option.bind_some, litSym_ok hv] at hd
        cases hd; exact ⟨_, rfl⟩
      · have hd : (do let y ← (do let x ← bytes[i + 1]?; constSym lits x); some (Dec.ins (Ins.send y 2) 2)) = some (Dec.ins j len) := by
          rw [← hd]; cases bytes[i + 1]? <;> rfl
        rw [getByte_ok hx] at hd
        simp only [Option.bind_eq_bind, Option.bind_some, litSym_ok hv] at hd
        cases hd; exact ⟨_, rfl⟩
      · have hd : (do let y ← (do let x ← bytes[i + 1]?; constSym lits x); some (Dec.ins (Ins.send y 3) 2)) = some (Dec.ins j len) := by
          rw [← hd]; cases bytes[i + 1]? <;> rfl
        rw [getByte_ok hx] at hd
        simp only [Option.bind_eq_bind, Option.bind_some, litSym_ok hv] at hd
        cases hd; exact ⟨_, rfl⟩
      · have hd : (do let y ← (do let x ← bytes[i + 1]?; constSym lits x); some (Dec.ins (Ins.send y (Sym.numberOfSignatureArguments y)) 2)) = some (Dec.ins j len) := by
          rw [← hd]; cases bytes[i + 1]? <;> rfl
        rw [getByte_ok hx] at hd
        simp only [Option.bind_eq_bind, Option.bind_some, litSym_ok hv] at hd
        cases hd; exact ⟨_, rfl⟩
    obtain ⟨n, rfl⟩ := hj
    have ho : n = Sym.numberOfSignatureArguments v := ho
    subst ho
    cases h
    exact emits_send g v
  replace h := ite_elim h
  rcases h with ⟨e, h⟩ | ⟨e, h⟩
  · subst e
    simp only [Option.some.injEq] at h
    obtain ⟨x, hx, h⟩ := except_bind_ok h
    obtain ⟨v, hv, h⟩ := except_bind_ok h
    have hd : (do let y ← (do let x ← bytes[i + 1]?; constSym lits x); some (Dec.ins (Ins.superSend y (Sym.numberOfSignatureArguments y)) 2)) = some (Dec.ins j len) := by
      rw [← hd]; cases bytes[i + 1]? <;> rfl
    rw [getByte_ok hx] at hd
    simp only [Option.bind_eq_bind, Option.bind_some, litSym_ok hv] at hd
    cases hd
    cases h
    exact emits_superSend g v
  replace h := ite_elim h
  rcases h with ⟨e, h⟩ | ⟨e, h⟩
  · subst e
    cases h; cases hd
    exact .refl _
  replace h := ite_elim h
  rcases h with ⟨e, h⟩ | ⟨e, h⟩
  · subst e
    simp only [Option.some.injEq] at h
    obtain ⟨x, hx, h⟩ := except_bind_ok h
    rw [getByte_ok hx] at hd
    cases hd
    have ho : x = g.lvl + 1 := ho
    subst ho
    by_cases h0 : g.lvl = 0
    · rw [if_pos (by omega)] at h
      unfold emitReturnLocal optimizeReturnField at h
      rw [if_pos hinl] at h
      cases h
      simp only [inlIns, if_pos h0]
      exact .one (fun _ _ => rfl) (by intro d d' h; simp only [Ins.ty] at h; split at h <;> cases h; omega)
    · rw [if_neg (by omega), if_pos rfl] at h
      cases h
      simp only [inlIns, if_neg h0]
      exact emits_returnNonLocal g
  replace h := ite_elim h
  rcases h with ⟨e, h⟩ | ⟨e, h⟩
  · cases h
    rcases e with rfl | rfl | rfl <;> cases hd <;>
      exact .one (fun _ _ => rfl) (by intro d d' h; simp only [Ins.ty] at h; cases h; omega)
  replace h := ite_elim h
  rcases h with ⟨e, h⟩ | ⟨e, h⟩
  · cases h
  · cases h

end PySOM.BC

import Verif.Lemmas.Program
/-!
# Compiled sources access the variables of the source
-/
set_option autoImplicit false
namespace PySOM.BC
open PySOM

theorem compileBlock_acc {n lvl id : Nat} {args env : List Nat} {b : Body Meth} {m : Meth} (wf : b.wf fun _ => True) (fits : b.fits true)
    (ok : BlksOK (lvl + 1) b.blks) (h : compileBlock n lvl id args env b = .ok m) {chain : List Scope}
    (hk : Known (b.acc (lvl + 1) (Scope.block args env :: chain))) : m.acc chain = b.acc (lvl + 1) (Scope.block args env :: chain) := by
  rcases compileBlock_cases wf fits ok h with ⟨t, ht, rfl⟩ | ⟨g, C, hg, _, rfl⟩
  · simp only [Meth.acc]
    have value : ∀ e : Ex Meth, e.triv (lvl + 1) = some t → t.acc chain = e.acc (lvl + 1) (Scope.block args env :: chain) := by
      intro e h
      cases e with
      | lit l => cases l <;> cases h; simp only [Triv.acc, Ex.acc]
      | glob n =>
        simp only [Ex.triv, Option.some.injEq] at h
        subst h
        repeat' split
        all_goals simp only [Triv.acc, Ex.acc]
      | fld s i => cases h; simp only [Triv.acc, Ex.acc, denotes, List.getElem?_cons_succ]
      | _ => cases h
    cases b with
    | done => cases ht; simp only [Triv.acc, Body.acc]
    | last e => exact value e ht
    | exit e => cases ht
    | stmt e r => cases r <;> cases ht
    | exitSelf => cases ht
  · have e : ∀ x, Scope.block args x = ⟨(Scope.block args env).args, x⟩ := by intro x; cases args <;> rfl
    rw [e env] at hk
    simp only [Meth.acc]
    rw [e g.env, e env]
    exact compile_acc wf ok (by simp) hg hk

theorem denotes_append {pre rest : List Scope} {a : Bool} {i l : Nat} (h : l < pre.length) : denotes (pre ++ rest) a i l = denotes pre a i l := by
  unfold denotes
  rw [List.getElem?_append_left h]

section
variable (known : Sel → Bool)

theorem Tgt.acc_inside {d lvl : Nat} {pre rest : List Scope} (hd : pre.length = d + 1) : ∀ t : Tgt, t.outside d = false →
    t.acc lvl (pre ++ rest) = t.acc lvl pre
  | .var _ a i l, h => by
    simp only [Tgt.outside, decide_eq_false_iff_not] at h
    simp only [Tgt.acc]
    rw [denotes_append (by omega)]
  | .fld _ _, h => by cases h

mutual
theorem Ex.sacc_inside (lvl : Nat) (rest : List Scope) : ∀ (d : Nat) (pre : List Scope) (e : Ex SBlock), pre.length = d + 1 → e.outside known d = false →
    e.sacc lvl (pre ++ rest) = e.sacc lvl pre
  | d, pre, .lit l, hd, h => by simp only [Ex.sacc]
  | d, pre, .glob s, hd, h => by simp only [Ex.sacc]
  | d, pre, .var a i l, hd, h => by
    simp only [Ex.outside, decide_eq_false_iff_not] at h
    simp only [Ex.sacc]
    rw [denotes_append (by omega)]
  | d, pre, .fld _ _, hd, h => by simp only [Ex.outside, reduceCtorEq] at h
  | d, pre, .blk _ s, hd, h => by
    simp only [Ex.outside] at h
    simp only [Ex.sacc]
    exact SBlock.sacc_inside lvl rest d pre s hd h
  | d, pre, .asg t ts e, hd, h => by
    simp only [Ex.outside, Bool.or_eq_false_iff, List.any_eq_false] at h
    simp only [Ex.sacc]
    rw [Ex.sacc_inside lvl rest d pre e hd h.1.1]
    congr 1
    refine List.map_congr_left fun t' ht => Tgt.acc_inside hd t' ?_
    rcases List.mem_cons.mp ht with rfl | ht
    · exact h.1.2
    · simpa using h.2 t' ht
  | d, pre, .inc e, hd, h => by
    simp only [Ex.outside] at h
    simp only [Ex.sacc]
    exact Ex.sacc_inside lvl rest d pre e hd h
  | d, pre, .dec e, hd, h => by
    simp only [Ex.outside] at h
    simp only [Ex.sacc]
    exact Ex.sacc_inside lvl rest d pre e hd h
  | d, pre, .send _ r as, hd, h => by
    simp only [Ex.outside, Bool.or_eq_false_iff] at h
    simp only [Ex.sacc]
    rw [Ex.sacc_inside lvl rest d pre r hd h.1, Exs.sacc_inside lvl rest d pre as hd h.2]
  | d, pre, .superSend _ r as, hd, h => by
    simp only [Ex.outside, Bool.or_eq_false_iff] at h
    simp only [Ex.sacc]
    rw [Ex.sacc_inside lvl rest d pre r hd h.1, Exs.sacc_inside lvl rest d pre as hd h.2]
theorem Exs.sacc_inside (lvl : Nat) (rest : List Scope) : ∀ (d : Nat) (pre : List Scope) (es : Exs SBlock), pre.length = d + 1 → es.outside known d = false →
    es.sacc lvl (pre ++ rest) = es.sacc lvl pre
  | d, pre, .nil, hd, h => by simp only [Exs.sacc]
  | d, pre, .cons e es, hd, h => by
    simp only [Exs.outside, Bool.or_eq_false_iff] at h
    simp only [Exs.sacc]
    rw [Ex.sacc_inside lvl rest d pre e hd h.1, Exs.sacc_inside lvl rest d pre es hd h.2]
theorem Body.sacc_inside (lvl : Nat) (rest : List Scope) : ∀ (d : Nat) (pre : List Scope) (b : Body SBlock), pre.length = d + 1 → b.outside known d = false →
    b.sacc lvl (pre ++ rest) = b.sacc lvl pre
  | d, pre, .done, hd, h => by simp only [Body.sacc]
  | d, pre, .exitSelf, hd, h => by simp only [Body.sacc]
  | d, pre, .exit _, hd, h => by simp only [Body.outside, reduceCtorEq] at h
  | d, pre, .last e, hd, h => by
    simp only [Body.outside] at h
    simp only [Body.sacc]
    exact Ex.sacc_inside lvl rest d pre e hd h
  | d, pre, .stmt e r, hd, h => by
    simp only [Body.outside, Bool.or_eq_false_iff] at h
    simp only [Body.sacc]
    rw [Ex.sacc_inside lvl rest d pre e hd h.1, Body.sacc_inside lvl rest d pre r hd h.2]
theorem SBlock.sacc_inside (lvl : Nat) (rest : List Scope) : ∀ (d : Nat) (pre : List Scope) (s : SBlock), pre.length = d + 1 → s.outside known d = false →
    s.sacc lvl (pre ++ rest) = s.sacc lvl pre
  | d, pre, .mk id args env b, hd, h => by
    simp only [SBlock.outside] at h
    simp only [SBlock.sacc]
    exact Body.sacc_inside (lvl + 1) rest (d + 1) (Scope.block args env :: pre) b (by simp [hd]) h
end

/-- A block that does not require a context accesses the same variables without one. -/
theorem SBlock.sacc_noContext {s : SBlock} (h : s.requiresContext known = false) (lvl : Nat) (chain : List Scope) : s.sacc lvl [] = s.sacc lvl chain := by
  cases s with
  | mk id args env b =>
    simp only [SBlock.sacc]
    exact (Body.sacc_inside known (lvl + 1) chain 0 [Scope.block args env] b rfl h).symm

variable (n : Nat)

mutual
theorem Ex.build_acc : ∀ (lvl : Nat) (chain : List Scope) (e : Ex SBlock) (e' : Ex Meth), e.Wf → e.sids.Nodup → e.build known n lvl = .ok e' →
    Known (e.sacc lvl chain) → e'.acc lvl chain = e.sacc lvl chain
  | lvl, chain, .lit l, _, hw, hi, h, _ => by simp only [Ex.build] at h; cases h; simp only [Ex.acc, Ex.sacc]
  | lvl, chain, .glob s, _, hw, hi, h, _ => by simp only [Ex.build] at h; cases h; simp only [Ex.acc, Ex.sacc]
  | lvl, chain, .var a i l, _, hw, hi, h, _ => by simp only [Ex.build] at h; cases h; simp only [Ex.acc, Ex.sacc]
  | lvl, chain, .fld s i, _, hw, hi, h, _ => by simp only [Ex.build] at h; cases h; simp only [Ex.acc, Ex.sacc]
  | lvl, chain, .blk c s, _, hw, hi, h, hk => by
    simp only [Ex.build] at h
    obtain ⟨m, h1, h⟩ := except_bind_ok h
    cases h
    simp only [Ex.Wf, Ex.sids, Ex.sacc] at hw hi hk ⊢
    cases hc : s.requiresContext known with
    | true => simp only [Ex.acc]; exact SBlock.compile_acc lvl chain s m hw hi h1 hk
    | false =>
      simp only [Ex.acc]
      rw [← SBlock.sacc_noContext known hc lvl chain] at hk ⊢
      exact SBlock.compile_acc lvl [] s m hw hi h1 hk
  | lvl, chain, .asg t ts e, _, hw, hi, h, hk => by
    simp only [Ex.build] at h
    obtain ⟨e1, h1, h⟩ := except_bind_ok h
    cases h
    simp only [Ex.Wf, Ex.sids, Ex.sacc, Ex.acc, known_append] at hw hi hk ⊢
    rw [Ex.build_acc lvl chain e e1 hw hi h1 hk.1]
  | lvl, chain, .inc e, _, hw, hi, h, hk => by
    simp only [Ex.build] at h
    obtain ⟨e1, h1, h⟩ := except_bind_ok h
    cases h
    simp only [Ex.Wf, Ex.sids, Ex.sacc, Ex.acc] at hw hi hk ⊢
    exact Ex.build_acc lvl chain e e1 hw hi h1 hk
  | lvl, chain, .dec e, _, hw, hi, h, hk => by
    simp only [Ex.build] at h
    obtain ⟨e1, h1, h⟩ := except_bind_ok h
    cases h
    simp only [Ex.Wf, Ex.sids, Ex.sacc, Ex.acc] at hw hi hk ⊢
    exact Ex.build_acc lvl chain e e1 hw hi h1 hk
  | lvl, chain, .send sel r as, _, hw, hi, h, hk => by
    simp only [Ex.build] at h
    obtain ⟨r1, h1, h⟩ := except_bind_ok h
    obtain ⟨as1, h2, h⟩ := except_bind_ok h
    cases h
    simp only [Ex.Wf, Ex.sids, Ex.sacc, Ex.acc, known_append] at hw hi hk ⊢
    rw [List.nodup_append] at hi
    rw [Ex.build_acc lvl chain r r1 hw.1 hi.1 h1 hk.1, Exs.build_acc lvl chain as as1 hw.2.1 hi.2.1 h2 hk.2]
  | lvl, chain, .superSend sel r as, _, hw, hi, h, hk => by
    simp only [Ex.build] at h
    obtain ⟨r1, h1, h⟩ := except_bind_ok h
    obtain ⟨as1, h2, h⟩ := except_bind_ok h
    cases h
    simp only [Ex.Wf, Ex.sids, Ex.sacc, Ex.acc, known_append] at hw hi hk ⊢
    rw [List.nodup_append] at hi
    rw [Ex.build_acc lvl chain r r1 hw.1 hi.1 h1 hk.1, Exs.build_acc lvl chain as as1 hw.2.1 hi.2.1 h2 hk.2]
theorem Exs.build_acc : ∀ (lvl : Nat) (chain : List Scope) (es : Exs SBlock) (es' : Exs Meth), es.Wf → es.sids.Nodup → es.build known n lvl = .ok es' →
    Known (es.sacc lvl chain) → es'.acc lvl chain = es.sacc lvl chain
  | lvl, chain, .nil, _, hw, hi, h, _ => by simp only [Exs.build] at h; cases h; simp only [Exs.acc, Exs.sacc]
  | lvl, chain, .cons e es, _, hw, hi, h, hk => by
    simp only [Exs.build] at h
    obtain ⟨e1, h1, h⟩ := except_bind_ok h
    obtain ⟨es1, h2, h⟩ := except_bind_ok h
    cases h
    simp only [Exs.Wf, Exs.sids, Exs.sacc, Exs.acc, known_append] at hw hi hk ⊢
    rw [List.nodup_append] at hi
    rw [Ex.build_acc lvl chain e e1 hw.1 hi.1 h1 hk.1, Exs.build_acc lvl chain es es1 hw.2 hi.2.1 h2 hk.2]
theorem Body.build_acc : ∀ (lvl : Nat) (chain : List Scope) (b : Body SBlock) (b' : Body Meth), b.Wf → b.sids.Nodup → b.build known n lvl = .ok b' →
    Known (b.sacc lvl chain) → b'.acc lvl chain = b.sacc lvl chain
  | lvl, chain, .done, _, hw, hi, h, _ => by simp only [Body.build] at h; cases h; simp only [Body.acc, Body.sacc]
  | lvl, chain, .exitSelf, _, hw, hi, h, _ => by simp only [Body.build] at h; cases h; simp only [Body.acc, Body.sacc]
  | lvl, chain, .last e, _, hw, hi, h, hk => by
    simp only [Body.build] at h
    obtain ⟨e1, h1, h⟩ := except_bind_ok h
    cases h
    simp only [Body.Wf, Body.sids, Body.sacc, Body.acc] at hw hi hk ⊢
    exact Ex.build_acc lvl chain e e1 hw hi h1 hk
  | lvl, chain, .exit e, _, hw, hi, h, hk => by
    simp only [Body.build] at h
    obtain ⟨e1, h1, h⟩ := except_bind_ok h
    cases h
    simp only [Body.Wf, Body.sids, Body.sacc, Body.acc] at hw hi hk ⊢
    exact Ex.build_acc lvl chain e e1 hw hi h1 hk
  | lvl, chain, .stmt e r, _, hw, hi, h, hk => by
    simp only [Body.build] at h
    obtain ⟨e1, h1, h⟩ := except_bind_ok h
    obtain ⟨r1, h2, h⟩ := except_bind_ok h
    cases h
    simp only [Body.Wf, Body.sids, Body.sacc, Body.acc, known_append] at hw hi hk ⊢
    rw [List.nodup_append] at hi
    rw [Ex.build_acc lvl chain e e1 hw.1 hi.1 h1 hk.1, Body.build_acc lvl chain r r1 hw.2 hi.2.1 h2 hk.2]
theorem SBlock.compile_acc : ∀ (lvl : Nat) (chain : List Scope) (s : SBlock) (m : Meth), s.Wf → s.sids.Nodup → s.compile known n lvl = .ok m →
    Known (s.sacc lvl chain) → m.acc chain = s.sacc lvl chain
  | lvl, chain, .mk id args env b, m, hw, hi, h, hk => by
    simp only [SBlock.compile] at h
    obtain ⟨b1, h1, h⟩ := except_bind_ok h
    simp only [SBlock.Wf, SBlock.sids, SBlock.sacc, List.nodup_cons] at hw hi hk ⊢
    have hb := Body.build_ok known n (lvl + 1) b b1 hw.1 hi.2 h1
    have hf := Body.build_fits known n true (lvl + 1) b b1 h1 hw.2
    have hok : BlksOK (lvl + 1) b1.blks := ⟨fun c m hm => (hb.blocks c m hm).good, fun m hm => (hb.closed m hm).sound _ (hb.blocks _ m hm).good.1⟩
    have ha := Body.build_acc (lvl + 1) (Scope.block args env :: chain) b b1 hw.1 hi.2 h1 hk
    rw [← ha] at hk ⊢
    exact compileBlock_acc hb.wf hf hok h hk
end
end

/-! ## Variables -/

/-- The variables of blocks. -/
def blkLocals (bs : List (Bool × Meth)) : List Nat := bs.flatMap fun p => p.2.locals

theorem blkLocals_append (a b : List (Bool × Meth)) : blkLocals (a ++ b) = blkLocals a ++ blkLocals b := by simp [blkLocals]

/-- Variables of some of the blocks have been added, in order. -/
def Grew (env env' : List Nat) (bs : List (Bool × Meth)) : Prop := ∃ t, env' = env ++ t ∧ t.Sublist (blkLocals bs)

theorem Grew.refl (env : List Nat) (bs : List (Bool × Meth)) : Grew env env bs := ⟨[], by simp, List.nil_sublist _⟩

theorem Grew.trans {a b c : List Nat} {x y : List (Bool × Meth)} (h1 : Grew a b x) (h2 : Grew b c y) : Grew a c (x ++ y) := by
  obtain ⟨t, rfl, ht⟩ := h1
  obtain ⟨u, rfl, hu⟩ := h2
  exact ⟨t ++ u, by simp, by rw [blkLocals_append]; exact ht.append hu⟩

theorem Grew.one (n lvl : Nat) (env : List Nat) (c : Bool) (m : Meth) : Grew env ((inliner n).env m lvl env) [(c, m)] :=
  ⟨m.locals, rfl, by simp [blkLocals]⟩

mutual
theorem genEx_grew (n lvl : Nat) : ∀ (e : Ex Meth) (st : Bool × List Nat), Grew st.2 (genEx (inliner n) lvl e st).2.2 e.blks
  | .lit l, st => by simp only [genEx]; exact .refl _ _
  | .glob s, st => by simp only [genEx]; exact .refl _ _
  | .var a i l, st => by simp only [genEx]; exact .refl _ _
  | .fld _ i, st => by simp only [genEx]; exact .refl _ _
  | .blk c m, st => by simp only [genEx]; exact .refl _ _
  | .asg t ts e, st => by
    simp only [genEx, genAsg, Ex.blks]
    have := genEx_grew n lvl e st
    split <;> exact this
  | .inc e, st => by simp only [genEx, Ex.blks]; exact genEx_grew n lvl e st
  | .dec e, st => by simp only [genEx, Ex.blks]; exact genEx_grew n lvl e st
  | .superSend sel r as, st => by simp only [genEx, Ex.blks]; exact (genEx_grew n lvl r st).trans (genExs_grew n lvl as _)
  | .send sel r as, st => by
    simp only [genEx, Ex.blks]
    have h1 := genEx_grew n lvl r st
    have h2 := genExs_grew n lvl as (genEx (inliner n) lvl r st).2
    cases hin : inlined? sel r as with
    | none => exact h1.trans h2
    | some x =>
      unfold inlined? at hin
      split at hin <;> cases hin <;> simp only [genSend, Exs.blks, Ex.blks, List.append_nil]
      · exact h1.trans (.one n lvl _ _ _)
      · exact h1.trans ((Grew.one n lvl _ _ _).trans (.one n lvl _ _ _))
      · exact (Grew.one n lvl _ _ _).trans (.one n lvl _ _ _)
      · exact h1.trans (.one n lvl _ _ _)
theorem genExs_grew (n lvl : Nat) : ∀ (es : Exs Meth) (st : Bool × List Nat), Grew st.2 (genExs (inliner n) lvl es st).2.2 es.blks
  | .nil, st => by simp only [genExs]; exact .refl _ _
  | .cons e es, st => by simp only [genExs, Exs.blks]; exact (genEx_grew n lvl e st).trans (genExs_grew n lvl es _)
end

theorem bodyEnv_grew (n lvl : Nat) : ∀ (b : Body Meth) (st : Bool × List Nat), Grew st.2 (bodyEnv (inliner n) lvl b st) b.blks
  | .done, _ => .refl _ _
  | .exitSelf, _ => .refl _ _
  | .last e, st => genEx_grew n lvl e st
  | .exit e, st => genEx_grew n lvl e st
  | .stmt e rest, st => (genEx_grew n lvl e st).trans (bodyEnv_grew n lvl rest _)

section
variable (known : Sel → Bool) (n : Nat)
mutual
theorem Ex.build_locals : ∀ (lvl : Nat) (e : Ex SBlock) (e' : Ex Meth), e.Wf → e.sids.Nodup → e.build known n lvl = .ok e' → (blkLocals e'.blks).Sublist e.slocals
  | lvl, .lit l, _, hw, hi, h => by simp only [Ex.build] at h; cases h; exact List.nil_sublist _
  | lvl, .glob s, _, hw, hi, h => by simp only [Ex.build] at h; cases h; exact List.nil_sublist _
  | lvl, .var a i l, _, hw, hi, h => by simp only [Ex.build] at h; cases h; exact List.nil_sublist _
  | lvl, .fld s i, _, hw, hi, h => by simp only [Ex.build] at h; cases h; exact List.nil_sublist _
  | lvl, .blk c s, _, hw, hi, h => by
    simp only [Ex.build] at h
    obtain ⟨m, h1, h⟩ := except_bind_ok h
    cases h
    simp only [Ex.Wf, Ex.sids, Ex.blks, Ex.slocals] at hw hi ⊢
    have := SBlock.compile_locals lvl s m hw hi h1
    simpa [blkLocals] using this
  | lvl, .asg t ts e, _, hw, hi, h => by
    simp only [Ex.build] at h
    obtain ⟨e1, h1, h⟩ := except_bind_ok h
    cases h
    simp only [Ex.Wf, Ex.sids, Ex.blks, Ex.slocals] at hw hi ⊢
    exact Ex.build_locals lvl e e1 hw hi h1
  | lvl, .inc e, _, hw, hi, h => by
    simp only [Ex.build] at h
    obtain ⟨e1, h1, h⟩ := except_bind_ok h
    cases h
    simp only [Ex.Wf, Ex.sids, Ex.blks, Ex.slocals] at hw hi ⊢
    exact Ex.build_locals lvl e e1 hw hi h1
  | lvl, .dec e, _, hw, hi, h => by
    simp only [Ex.build] at h
    obtain ⟨e1, h1, h⟩ := except_bind_ok h
    cases h
    simp only [Ex.Wf, Ex.sids, Ex.blks, Ex.slocals] at hw hi ⊢
    exact Ex.build_locals lvl e e1 hw hi h1
  | lvl, .send sel r as, _, hw, hi, h => by
    simp only [Ex.build] at h
    obtain ⟨r1, h1, h⟩ := except_bind_ok h
    obtain ⟨as1, h2, h⟩ := except_bind_ok h
    cases h
    simp only [Ex.Wf, Ex.sids, Ex.blks, Ex.slocals, blkLocals_append] at hw hi ⊢
    rw [List.nodup_append] at hi
    exact (Ex.build_locals lvl r r1 hw.1 hi.1 h1).append (Exs.build_locals lvl as as1 hw.2.1 hi.2.1 h2)
  | lvl, .superSend sel r as, _, hw, hi, h => by
    simp only [Ex.build] at h
    obtain ⟨r1, h1, h⟩ := except_bind_ok h
    obtain ⟨as1, h2, h⟩ := except_bind_ok h
    cases h
    simp only [Ex.Wf, Ex.sids, Ex.blks, Ex.slocals, blkLocals_append] at hw hi ⊢
    rw [List.nodup_append] at hi
    exact (Ex.build_locals lvl r r1 hw.1 hi.1 h1).append (Exs.build_locals lvl as as1 hw.2.1 hi.2.1 h2)
theorem Exs.build_locals : ∀ (lvl : Nat) (es : Exs SBlock) (es' : Exs Meth), es.Wf → es.sids.Nodup → es.build known n lvl = .ok es' →
    (blkLocals es'.blks).Sublist es.slocals
  | lvl, .nil, _, hw, hi, h => by simp only [Exs.build] at h; cases h; exact List.nil_sublist _
  | lvl, .cons e es, _, hw, hi, h => by
    simp only [Exs.build] at h
    obtain ⟨e1, h1, h⟩ := except_bind_ok h
    obtain ⟨es1, h2, h⟩ := except_bind_ok h
    cases h
    simp only [Exs.Wf, Exs.sids, Exs.blks, Exs.slocals, blkLocals_append] at hw hi ⊢
    rw [List.nodup_append] at hi
    exact (Ex.build_locals lvl e e1 hw.1 hi.1 h1).append (Exs.build_locals lvl es es1 hw.2 hi.2.1 h2)
theorem Body.build_locals : ∀ (lvl : Nat) (b : Body SBlock) (b' : Body Meth), b.Wf → b.sids.Nodup → b.build known n lvl = .ok b' →
    (blkLocals b'.blks).Sublist b.slocals
  | lvl, .done, _, hw, hi, h => by simp only [Body.build] at h; cases h; exact List.nil_sublist _
  | lvl, .exitSelf, _, hw, hi, h => by simp only [Body.build] at h; cases h; exact List.nil_sublist _
  | lvl, .last e, _, hw, hi, h => by
    simp only [Body.build] at h
    obtain ⟨e1, h1, h⟩ := except_bind_ok h
    cases h
    simp only [Body.Wf, Body.sids, Body.blks, Body.slocals] at hw hi ⊢
    exact Ex.build_locals lvl e e1 hw hi h1
  | lvl, .exit e, _, hw, hi, h => by
    simp only [Body.build] at h
    obtain ⟨e1, h1, h⟩ := except_bind_ok h
    cases h
    simp only [Body.Wf, Body.sids, Body.blks, Body.slocals] at hw hi ⊢
    exact Ex.build_locals lvl e e1 hw hi h1
  | lvl, .stmt e r, _, hw, hi, h => by
    simp only [Body.build] at h
    obtain ⟨e1, h1, h⟩ := except_bind_ok h
    obtain ⟨r1, h2, h⟩ := except_bind_ok h
    cases h
    simp only [Body.Wf, Body.sids, Body.blks, Body.slocals, blkLocals_append] at hw hi ⊢
    rw [List.nodup_append] at hi
    exact (Ex.build_locals lvl e e1 hw.1 hi.1 h1).append (Body.build_locals lvl r r1 hw.2 hi.2.1 h2)
theorem SBlock.compile_locals : ∀ (lvl : Nat) (s : SBlock) (m : Meth), s.Wf → s.sids.Nodup → s.compile known n lvl = .ok m → m.locals.Sublist s.slocals
  | lvl, .mk id args env b, m, hw, hi, h => by
    simp only [SBlock.compile] at h
    obtain ⟨b1, h1, h⟩ := except_bind_ok h
    simp only [SBlock.Wf, SBlock.sids, SBlock.slocals, List.nodup_cons] at hw hi ⊢
    have hb := Body.build_ok known n (lvl + 1) b b1 hw.1 hi.2 h1
    have hf := Body.build_fits known n true (lvl + 1) b b1 h1 hw.2
    have hok : BlksOK (lvl + 1) b1.blks := ⟨fun c m hm => (hb.blocks c m hm).good, fun m hm => (hb.closed m hm).sound _ (hb.blocks _ m hm).good.1⟩
    rcases compileBlock_cases hb.wf hf hok h with ⟨t, ht, rfl⟩ | ⟨g, C, hg, _, rfl⟩
    · exact List.nil_sublist _
    · simp only [Meth.locals]
      rw [compile_env (inliner_ok n) (b1.wf_of hb.wf hok.good) hg]
      obtain ⟨t, e, ht⟩ := bodyEnv_grew n (lvl + 1) b1 (false, env)
      rw [e]
      exact (List.Sublist.refl _).append (ht.trans (Body.build_locals (lvl + 1) b b1 hw.1 hi.2 h1))
end
end

end PySOM.BC

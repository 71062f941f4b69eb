import Verif.Lemmas.InlineLoop
/-!
# Inlining a block adds the code it should add
-/
set_option autoImplicit false
namespace PySOM.BC
open PySOM

theorem Inv.patchHere {tr : Ins Meth → SC Meth} {lits : List (Lit Meth)} {bytes : List Nat} {g0 : G Meth (List Nat)} {i : Nat} {s : InlSt} {φ : Nat → Nat}
    {src out : List Nat} {pend : List HeapQ.Entry} {ls : List (Nat × Nat)} (h : Inv tr lits bytes g0 i s φ src out pend ls)
    {n m : Nat} {J B P : List HeapQ.Entry} {g : G Meth (List Nat)} (hb : prepareBack i s.g.bytes.length n s.back s.patch = .ok (B, P))
    (hr : patchHere i m s.jumps s.g = .ok (J, g)) :
    ∃ out' pend', Inv tr lits bytes g0 i ⟨g, J, B, P⟩ φ src out' pend' ls := by
  obtain ⟨hB, hP⟩ := prepareBack_ok h.here n _ _ _ _ h.back h.patch hb
  obtain ⟨out', pend', r1, r2, r3, r4, r5, r6⟩ := patchHere_ok h.start m s.jumps J s.g g out pend h.heap h.jumps h.outs h.its h.here hr
  have hlen : g.bytes.length = s.g.bytes.length := by rw [r3, h.outs]; simp [r4]
  have e1 : g.lits = s.g.lits := by rw [r6]
  have e2 : g.depth = s.g.depth := by rw [r6]
  have e3 : g.maxDepth = s.g.maxDepth := by rw [r6]
  have e4 : g.lvl = s.g.lvl := by rw [r6]
  have e5 : g.inl = s.g.inl := by rw [r6]
  have e6 : g.env = s.g.env := by rw [r6]
  have e7 : g.loops = s.g.loops := by rw [r6]
  refine ⟨out', pend', ⟨h.len, r3, ?_, h.start, ?_, h.range, r1, r2, hB, hP, ?_, ?_, ?_, ?_, h.begins⟩⟩
  · dsimp only; rw [e1, e2, e3]; exact r5
  · dsimp only; rw [hlen]; exact h.here
  · dsimp only; rw [e1]; exact h.lits
  · dsimp only; rw [e4]; exact h.lvl
  · exact ⟨e5.trans h.keep.1, e6.trans h.keep.2⟩
  · dsimp only; rw [e7]; exact h.loops

theorem inlineLoop_ok {sub : Meth → Except Err Meth} {lits : List (Lit Meth)} {bytes locals : List Nat} {g0 : G Meth (List Nat)} (hinl : g0.inl = true) :
    ∀ (n : Nat) (i : Nat) (s s' : InlSt) (φ : Nat → Nat) (src out : List Nat) (pend : List HeapQ.Entry) (ls : List (Nat × Nat)) (rest : List Nat),
      Inv (inlIns sub g0.lvl g0.env locals) lits bytes g0 i s φ src out pend ls → bytes = src ++ rest → Flat (InsOK g0.lvl) lits rest →
      inlineLoop sub lits bytes locals n i s = .ok s' →
      ∃ φ' out' pend' ls', Inv (inlIns sub g0.lvl g0.env locals) lits bytes g0 bytes.length s' φ' bytes out' pend' ls' := by
  intro n
  induction n with
  | zero =>
    intro i s s' φ src out pend ls rest h hb hf hr
    simp only [inlineLoop] at hr
    by_cases hlt : i < bytes.length
    · rw [if_pos hlt] at hr; cases hr
    · rw [if_neg hlt] at hr
      cases hr
      have hn : rest = [] := by
        have := congrArg List.length hb
        simp only [List.length_append, h.len] at this
        exact List.length_eq_zero_iff.mp (by omega)
      subst hn
      rw [List.append_nil] at hb
      subst hb
      rw [h.len]
      exact ⟨φ, out, pend, ls, h⟩
  | succ n ih =>
    intro i s s' φ src out pend ls rest h hb hf hr
    simp only [inlineLoop] at hr
    by_cases hlt : i < bytes.length
    · rw [if_pos hlt] at hr
      obtain ⟨⟨B, P⟩, hprep, hr⟩ := except_bind_ok hr
      obtain ⟨⟨J, g⟩, hpatch, hr⟩ := except_bind_ok hr
      obtain ⟨op, hop, hr⟩ := except_bind_ok hr
      obtain ⟨len, hlen, hr⟩ := except_bind_ok hr
      obtain ⟨s1, hs1, hr⟩ := except_bind_ok hr
      obtain ⟨out1, pend1, h1⟩ := h.patchHere hprep hpatch
      cases hf with
      | nil => rw [List.append_nil] at hb; rw [hb, h.len] at hlt; omega
      | cons d b rest hd hl hp hj hrest =>
        cases b with
        | nil =>
          have := hd []
          simp [decode] at this
        | cons op' bt =>
          have hop' : op = op' := by
            have := getByte_ok hop
            rw [hb, ← h.len] at this
            simpa using this.symm
          subst hop'
          have hlen' : len = (op :: bt).length := by
            have := lenOf_decode (hd [])
            rw [this] at hlen
            cases hlen
            exact hl.symm
          subst hlen'
          obtain ⟨φ', seg, p, l, h2⟩ := inlineOp_ok h1 hinl hb hd hl hj hp hs1
          exact ih _ s1 s' _ _ _ _ _ rest h2 (by rw [hb]; simp) hrest hr
    · rw [if_neg hlt] at hr
      cases hr
      have hn : rest = [] := by
        have := congrArg List.length hb
        simp only [List.length_append, h.len] at this
        exact List.length_eq_zero_iff.mp (by omega)
      subst hn
      rw [List.append_nil] at hb
      subst hb
      rw [h.len]
      exact ⟨φ, out, pend, ls, h⟩

/-! ## Types -/

theorem subst_ty {tr : Ins Meth → SC Meth} : ∀ (c : SC Meth), (∀ i ∈ c.instrs, ∀ d d', i.ty d = some d' → (tr i).ty d = some d') →
    ∀ d d', c.ty d = some d' → (c.subst tr).ty d = some d'
  | .nop, _, d, d', h => h
  | .ins i, ht, d, d', h => ht i (List.mem_singleton.mpr rfl) d d' h
  | .seq a b, ht, d, d', h => by
    simp only [SC.ty, SC.subst] at h ⊢
    cases ha : a.ty d with
    | none => rw [ha] at h; cases h
    | some d1 =>
      rw [ha] at h
      rw [subst_ty a (fun i hi => ht i (List.mem_append_left _ hi)) d d1 ha]
      exact subst_ty b (fun i hi => ht i (List.mem_append_right _ hi)) d1 d' h
  | .thenB c b, ht, d, d', h => by
    simp only [SC.ty, SC.subst] at h ⊢
    split at h
    · rename_i hc
      rw [if_pos ⟨hc.1, subst_ty b ht _ _ hc.2⟩]
      exact h
    · cases h
  | .ifElse c a b, ht, d, d', h => by
    simp only [SC.ty, SC.subst] at h ⊢
    split at h
    · rename_i hc
      have ha := subst_ty a (fun i hi => ht i (List.mem_append_left _ hi)) _ _ h
      have hb := subst_ty b (fun i hi => ht i (List.mem_append_right _ hi)) _ _ (hc.2.symm.trans h)
      rw [if_pos ⟨hc.1, ha.trans hb.symm⟩]
      exact ha
    · cases h
  | .loop c a b, ht, d, d', h => by
    simp only [SC.ty, SC.subst] at h ⊢
    split at h
    · rename_i hc
      have ha := subst_ty a (fun i hi => ht i (List.mem_append_left _ hi)) _ _ hc.1
      have hb := subst_ty b (fun i hi => ht i (List.mem_append_right _ hi)) _ _ hc.2
      rw [if_pos ⟨ha, hb⟩]
      exact h
    · cases h

theorem subst_std {tr : Ins Meth → SC Meth} : ∀ (c : SC Meth), (∀ i ∈ c.instrs, ∀ d d', i.ty d = some d' → (tr i).ty d = some d') →
    (∀ i, (tr i).std) → c.std → (c.subst tr).std
  | .nop, _, _, h => h
  | .ins i, _, hs, _ => hs i
  | .seq a b, ht, hs, h =>
    ⟨subst_std a (fun i hi => ht i (List.mem_append_left _ hi)) hs h.1, subst_std b (fun i hi => ht i (List.mem_append_right _ hi)) hs h.2⟩
  | .thenB _ b, ht, hs, h => subst_std b ht hs h
  | .ifElse _ a b, ht, hs, h =>
    ⟨fun d => subst_ty a (fun i hi => ht i (List.mem_append_left _ hi)) _ _ (h.1 d),
     subst_std a (fun i hi => ht i (List.mem_append_left _ hi)) hs h.2.1, subst_std b (fun i hi => ht i (List.mem_append_right _ hi)) hs h.2.2⟩
  | .loop _ a b, ht, hs, h =>
    ⟨subst_std a (fun i hi => ht i (List.mem_append_left _ hi)) hs h.1, subst_std b (fun i hi => ht i (List.mem_append_right _ hi)) hs h.2⟩

theorem globIns_ty (n : Sel) (d : Nat) : (globIns (M := Meth) n).ty d = some (d + 1) := by
  unfold globIns; repeat' split
  all_goals rfl

theorem inlIns_ty (sub : Meth → Except Err Meth) (lvl : Nat) (env locals : List Nat) (i : Ins Meth) (d d' : Nat) (h : i.ty d = some d') :
    (inlIns sub lvl env locals i).ty d = some d' := by
  unfold inlIns
  split <;> try exact h
  · cases sub _ <;> (simp only [SC.ty, Ins.ty] at h ⊢; simpa using h)
  · simp only [SC.ty, globIns_ty]; exact h
  · simp only [Ins.ty] at h
    split at h
    · exact h
    · cases h
  · split <;> exact h

theorem inlIns_std (sub : Meth → Except Err Meth) (lvl : Nat) (env locals : List Nat) (i : Ins Meth) : (inlIns sub lvl env locals i).std := by
  unfold inlIns
  repeat' split
  all_goals trivial

theorem mergeLocals_ok {args locals env env' : List Nat} (h : mergeLocals args locals env = .ok env') :
    env' = env ++ locals ∧ args.length = 1 ∧ ∀ x ∈ locals, x ∉ env := by
  unfold mergeLocals at h
  split at h
  · cases h
  · rename_i ha
    split at h
    · cases h
    · rename_i hn
      cases h
      refine ⟨rfl, by omega, fun x hx hm => hn ?_⟩
      simp only [List.any_eq_true, List.contains_iff_mem]
      exact ⟨x, hx, hm⟩

theorem Emits.ext {g g' : G Meth (List Nat)} {sc : SC Meth} (e : Emits g g' sc) (ht : ∀ d, sc.ty d = some (d + 1)) : Ext g g' sc 0 1 := by
  refine ⟨e.lits, e.bytes, e.dep.ok, e.dep.mono, ?_, e.lvl, .same e.loops⟩
  intro h d _ hd
  obtain ⟨h1, h2⟩ := e.dep.dep h d _ (ht d) hd
  exact ⟨d + 1, ht d, by omega, h1, h2⟩

theorem inlCode_ty {n : Nat} {m : Meth} {lvl : Nat} {env : List Nat} (h : Good lvl m) (d : Nat) : (inlCode n m lvl env).ty d = some (d + 1) := by
  replace h := h.1
  cases h with
  | bc _ id lits bytes loops args locals stack code enc ty std size small ends ins ids inner closed =>
    simp only [inlCode]
    split
    · exact subst_ty code (fun i _ d d' h => inlIns_ty _ _ _ _ i d d' h) d _ (ty d)
    · simp [SC.ty, Ins.ty]
  | triv _ id t ok =>
    cases t with
    | lit l => cases l with
      | val v => rfl
      | meth m => exact ok.elim
    | glob n a => exact globIns_ty _ _
    | fldRead i l => rfl
    | fldWrite _ _ => exact ok.elim

/-- Inlining a block adds an encoding of the code of the block with every instruction changed as specified. -/
theorem inlineMeth_ok {n : Nat} {m : Meth} {g g' : G Meth (List Nat)} (hinl : g.inl = true) (hg : Good g.lvl m) (hr : inlineMeth n m g = .ok g') :
    Ext g g' (inlCode n m g.lvl g.env) 0 1 ∧ g'.inl = true ∧ g'.env = inlEnv m g.lvl g.env := by
  have hty := inlCode_ty (n := n) (env := g.env) hg
  obtain ⟨hg, loop⟩ := hg
  cases hg with
  | triv _ id t ok =>
    cases t with
    | lit l => cases l with
      | val v =>
        cases hr
        have e := emits_pushConstant g v
        exact ⟨e.ext hty, e.keep.1.trans hinl, by rw [e.keep.2]; simp [inlEnv, Meth.locals]⟩
      | meth m => exact ok.elim
    | glob n a =>
      cases hr
      have e := emits_pushGlobal g n
      exact ⟨e.ext hty, e.keep.1.trans hinl, by rw [e.keep.2]; simp [inlEnv, Meth.locals]⟩
    | fldRead idx ctx =>
      simp only [inlineMeth] at hr
      split at hr
      · cases hr
      · cases hr
        have hl : ctx - 1 = g.lvl := by have : ctx = g.lvl + 1 := ok; omega
        have e := emits_pushField g idx
        rw [← hl] at e
        exact ⟨e.ext hty, e.keep.1.trans hinl, by rw [e.keep.2]; simp [inlEnv, Meth.locals]⟩
    | fldWrite _ _ => exact ok.elim
  | bc _ id lits bytes loops args locals stack code enc ty std size small ends ins ids inner closed =>
    unfold inlineMeth at hr
    obtain ⟨env, henv, hr⟩ := except_bind_ok hr
    obtain ⟨s, hs, hr⟩ := except_bind_ok hr
    split at hr
    · rename_i hJ
      cases hr
      obtain ⟨rfl, hargs, _⟩ := mergeLocals_ok henv
      simp only [inlCode, if_pos hargs] at hty ⊢
      have h0 : Inv (inlIns (adapt n 1 [locals] (g.env ++ locals)) g.lvl (g.env ++ locals) locals) lits bytes { g with env := g.env ++ locals } 0
          ⟨{ g with env := g.env ++ locals }, [], backHeap loops, []⟩ (fun _ => g.bytes.length) [] [] [] [] :=
        { len := rfl, outs := by simp, its := .nil _ _ _, start := rfl, here := rfl, range := fun _ _ => ⟨Nat.le_refl _, Nat.le_refl _⟩, heap := isHeap_nil,
          jumps := List.Perm.nil, back := backHeap_inv loop, patch := ⟨isHeap_nil, by simp⟩, lits := List.prefix_refl _, lvl := rfl, keep := ⟨rfl, rfl⟩,
          loops := by simp, begins := by simp }
      obtain ⟨φ, out, pend, ls, h⟩ := inlineLoop_ok (g0 := { g with env := g.env ++ locals }) hinl _ 0 _ s _ [] [] [] [] bytes h0 (by simp) (enc.flat ins) hs
      have hp : pend = [] := by
        have := h.jumps
        rw [hJ] at this
        exact this.nil_eq.symm
      subst hp
      have hstd : (code.subst (inlIns (adapt n 1 [locals] (g.env ++ locals)) g.lvl (g.env ++ locals) locals)).std :=
        subst_std code (fun i _ d d' h => inlIns_ty _ _ _ _ i d d' h) (inlIns_std _ _ _ _) std
      have hits := h.its
      rw [← List.append_nil bytes] at hits
      obtain ⟨o1, o2, ls2, D1, X1, ho, henc, hφ, hrest, hdep⟩ := Its.enc enc 0 [] out ls _ _ _ _ hits hstd
      have hlast : o2 = [] ∧ D1 = s.g.depth ∧ X1 = s.g.maxDepth := by
        generalize hsrc : ([] : List Nat) = src at hrest
        generalize ([] : List HeapQ.Entry) = pe at hrest
        cases hrest with
        | nil => exact ⟨rfl, rfl, rfl⟩
        | cons =>
          rename_i hd _ _ _ _
          obtain ⟨rfl, _⟩ := List.append_eq_nil_iff.mp hsrc.symm
          have := hd []
          simp [decode] at this
      obtain ⟨rfl, rfl, rfl⟩ := hlast
      rw [List.append_nil] at ho
      subst ho
      refine ⟨⟨h.lits, ⟨out, h.outs, henc⟩, hdep.ok, hdep.mono, ?_, h.lvl, ⟨ls, h.loops, ?_⟩⟩, h.keep.1.trans hinl, h.keep.2⟩
      · intro hle d _ hd
        obtain ⟨h1, h2⟩ := hdep.dep hle d _ (hty d) hd
        exact ⟨d + 1, hty d, by omega, h1, h2⟩
      · have := h.its.loopAt (pre := g.bytes) h.start.symm g.bytes.length h.begins
        rw [h.outs]
        exact this
    · cases hr

theorem inliner_ok (n : Nat) : (inliner n).OK where
  run := fun _ _ _ hi hr hg => inlineMeth_ok hi hg hr
  typed := fun _ _ _ d hg => inlCode_ty hg d

end PySOM.BC

import Verif.Spec.Access
import Verif.Lemmas.Compiled
/-!
# Inlining keeps the variables that accesses denote
-/
set_option autoImplicit false
namespace PySOM.BC
open PySOM

theorem known_append {a b : List Access} : Known (a ++ b) ↔ Known a ∧ Known b := by
  unfold Known
  simp only [List.mem_append]
  exact ⟨fun h => ⟨fun x hx => h x (.inl hx), fun x hx => h x (.inr hx)⟩, fun h x hx => hx.elim (h.1 x) (h.2 x)⟩

theorem known_one {a : Access} : Known [a] ↔ a.known := by simp [Known]

theorem denotes_lt {pre post post' : List Scope} {a : Bool} {i l : Nat} (h : l < pre.length) : denotes (pre ++ post) a i l = denotes (pre ++ post') a i l := by
  unfold denotes
  rw [List.getElem?_append_left h, List.getElem?_append_left h]

theorem denotes_ge {pre post : List Scope} {a : Bool} {i l : Nat} (h : pre.length ≤ l) : denotes (pre ++ post) a i l = denotes post a i (l - pre.length) := by
  unfold denotes
  rw [List.getElem?_append_right h]

theorem denotes_zero {s : Scope} {post : List Scope} {i : Nat} : denotes (s :: post) false i 0 = s.locals[i]? := rfl

/-! ## More variables do not matter -/

/-- Everything that denotes something denotes the same in `b`. -/
def Wider (a b : List Scope) : Prop := ∀ x i l v, denotes a x i l = some v → denotes b x i l = some v

theorem Wider.cons {a b : List Scope} (h : Wider a b) (s : Scope) : Wider (s :: a) (s :: b) := by
  intro x i l v hv
  cases l with
  | zero => exact hv
  | succ l => exact h x i l v hv

theorem Wider.nil (b : List Scope) : Wider [] b := by
  intro x i l v hv
  simp [denotes] at hv

theorem Wider.locals (args : List (Option Nat)) (xs ys : List Nat) (rest : List Scope) : Wider (⟨args, xs⟩ :: rest) (⟨args, xs ++ ys⟩ :: rest) := by
  intro x i l v hv
  cases l with
  | zero =>
    cases x with
    | true => exact hv
    | false =>
      simp only [denotes_zero] at hv ⊢
      rw [List.getElem?_append_left (List.getElem?_eq_some_iff.mp hv).1]
      exact hv
  | succ l => exact hv

theorem Wider.eq {a b : List Scope} (h : Wider a b) {x : Bool} {i l : Nat} (hk : (denotes a x i l).isSome) : denotes b x i l = denotes a x i l := by
  obtain ⟨v, hv⟩ := Option.isSome_iff_exists.mp hk
  rw [hv]; exact h x i l v hv

theorem Triv.acc_wider {a b : List Scope} (h : Wider a b) (t : Triv Meth) (hk : Known (t.acc a)) : t.acc b = t.acc a := by
  cases t with
  | fldRead i l =>
    simp only [Triv.acc, known_one, Access.known] at hk ⊢
    rw [(h.cons _).eq hk]
  | _ => rfl

mutual
theorem Meth.acc_wider {a b : List Scope} (h : Wider a b) : ∀ (m : Meth), Known (m.acc a) → m.acc b = m.acc a
  | .bc _ _ _ _ args locals _ code, hk => by
    simp only [Meth.acc] at hk ⊢
    exact SC.acc_wider (h.cons _) code hk
  | .triv _ t, hk => by
    simp only [Meth.acc] at hk ⊢
    exact t.acc_wider h hk
theorem SC.acc_wider {a b : List Scope} (h : Wider a b) : ∀ (c : SC Meth), Known (c.acc a) → c.acc b = c.acc a
  | .nop, _ => by simp only [SC.acc]
  | .ins i, hk => by
    simp only [SC.acc] at hk ⊢
    exact Ins.acc_wider h i hk
  | .seq x y, hk => by
    simp only [SC.acc, known_append] at hk ⊢
    rw [SC.acc_wider h x hk.1, SC.acc_wider h y hk.2]
  | .thenB _ y, hk => by
    simp only [SC.acc] at hk ⊢
    exact SC.acc_wider h y hk
  | .ifElse _ x y, hk => by
    simp only [SC.acc, known_append] at hk ⊢
    rw [SC.acc_wider h x hk.1, SC.acc_wider h y hk.2]
  | .loop _ x y, hk => by
    simp only [SC.acc, known_append] at hk ⊢
    rw [SC.acc_wider h x hk.1, SC.acc_wider h y hk.2]
theorem Ins.acc_wider {a b : List Scope} (h : Wider a b) : ∀ (i : Ins Meth), Known (i.acc a) → i.acc b = i.acc a
  | .pushVar x i l, hk => by simp only [Ins.acc, known_one, Access.known] at hk ⊢; rw [h.eq hk]
  | .popVar x i l, hk => by simp only [Ins.acc, known_one, Access.known] at hk ⊢; rw [h.eq hk]
  | .pushFld i l, hk => by simp only [Ins.acc, known_one, Access.known] at hk ⊢; rw [h.eq hk]
  | .popFld i l, hk => by simp only [Ins.acc, known_one, Access.known] at hk ⊢; rw [h.eq hk]
  | .incFld i l, hk => by
    simp only [Ins.acc] at hk ⊢
    have : (denotes a true 0 l).isSome := hk (.readFld i _) (by simp)
    rw [h.eq this]
  | .incFldPush i l, hk => by
    simp only [Ins.acc] at hk ⊢
    have : (denotes a true 0 l).isSome := hk (.readFld i _) (by simp)
    rw [h.eq this]
  | .retFld i, hk => by simp only [Ins.acc, known_one, Access.known] at hk ⊢; rw [h.eq hk]
  | .pushBlock true m, hk => by simp only [Ins.acc] at hk ⊢; exact Meth.acc_wider h m hk
  | .pushBlock false m, _ => by simp only [Ins.acc]
  | .dup, _ => by simp only [Ins.acc]
  | .pop, _ => by simp only [Ins.acc]
  | .pushConst _, _ => by simp only [Ins.acc]
  | .pushGlobal _, _ => by simp only [Ins.acc]
  | .send _ _, _ => by simp only [Ins.acc]
  | .superSend _ _, _ => by simp only [Ins.acc]
  | .retLocal, _ => by simp only [Ins.acc]
  | .retNonLocal _, _ => by simp only [Ins.acc]
  | .retSelf, _ => by simp only [Ins.acc]
  | .inc, _ => by simp only [Ins.acc]
  | .dec, _ => by simp only [Ins.acc]
end

/-! ## A scope is merged into the next one -/

/-- The scope `B`, that of a block without arguments, is merged into the scope `C` around it, which becomes `C'`. -/
structure Merged (B C C' : Scope) : Prop where
  noArgs : ∀ i : Nat, B.args[i]?.join = none
  args : C'.args = C.args
  old : C.locals <+: C'.locals
  new : ∀ v ∈ B.locals, v ∈ C'.locals

variable {B C C' : Scope} {pre rest : List Scope}

theorem Merged.lt {a : Bool} {i l : Nat} (h : l < pre.length) : denotes (pre ++ C' :: rest) a i l = denotes (pre ++ B :: C :: rest) a i l := denotes_lt h

theorem Merged.arg (hm : Merged B C C') (i : Nat) : denotes (pre ++ B :: C :: rest) true i pre.length = none := by
  rw [denotes_ge (Nat.le_refl _), Nat.sub_self]
  exact hm.noArgs i

theorem Merged.gt (hm : Merged B C C') {a : Bool} {i l : Nat} (h : pre.length < l) (hk : (denotes (pre ++ B :: C :: rest) a i l).isSome) :
    denotes (pre ++ C' :: rest) a i (l - 1) = denotes (pre ++ B :: C :: rest) a i l := by
  obtain ⟨k, rfl⟩ : ∃ k, l = pre.length + 1 + k := ⟨l - pre.length - 1, by omega⟩
  rw [denotes_ge (by omega)] at hk ⊢
  rw [denotes_ge (by omega)]
  rw [show pre.length + 1 + k - pre.length = k + 1 by omega] at hk ⊢
  rw [show pre.length + 1 + k - 1 - pre.length = k by omega]
  cases k with
  | zero =>
    cases a with
    | true =>
      show C'.args[i]?.join = C.args[i]?.join
      rw [hm.args]
    | false =>
      show C'.locals[i]? = C.locals[i]?
      have hk : C.locals[i]?.isSome := hk
      obtain ⟨v, hv⟩ := Option.isSome_iff_exists.mp hk
      obtain ⟨t, ht⟩ := hm.old
      rw [← ht, List.getElem?_append_left (List.getElem?_eq_some_iff.mp hv).1]
  | succ k => rfl

theorem lastIdx_some {xs : List Nat} {v : Nat} : ∀ {n i : Nat}, lastIdx xs v n = some i → xs[i]? = some v
  | 0, i, h => by simp [lastIdx] at h
  | n + 1, i, h => by
    simp only [lastIdx] at h
    split at h
    · cases h; assumption
    · exact lastIdx_some h

theorem lastIdx_none {xs : List Nat} {v : Nat} : ∀ {n i : Nat}, lastIdx xs v n = none → i < n → xs[i]? ≠ some v
  | n + 1, i, h, hi => by
    simp only [lastIdx] at h
    split at h
    · cases h
    · rename_i hx
      by_cases e : i = n
      · rw [e]; exact hx
      · exact lastIdx_none h (by omega)

theorem inlinedIdx_mem {xs : List Nat} {v : Nat} (h : v ∈ xs) : ∃ i, inlinedIdx xs v = .ok i ∧ xs[i]? = some v := by
  unfold inlinedIdx
  cases hl : lastIdx xs v xs.length with
  | some i => exact ⟨i, rfl, lastIdx_some hl⟩
  | none =>
    obtain ⟨i, hi, e⟩ := List.getElem_of_mem h
    exact absurd (by rw [List.getElem?_eq_getElem hi, e]) (lastIdx_none hl hi)

/-- The index that inlining computes for a variable of the block. -/
theorem Merged.loc (hm : Merged B C C') {chain : List (List Nat)} (hc : chain[pre.length]? = some B.locals) {i : Nat}
    (hk : (denotes (pre ++ B :: C :: rest) false i pre.length).isSome) :
    denotes (pre ++ C' :: rest) false (((getLocal chain i pre.length).bind (inlinedIdx C'.locals)).toOption.getD i) pre.length =
      denotes (pre ++ B :: C :: rest) false i pre.length := by
  rw [denotes_ge (Nat.le_refl _), Nat.sub_self, denotes_zero] at hk ⊢
  rw [denotes_ge (Nat.le_refl _), Nat.sub_self, denotes_zero]
  obtain ⟨v, hv⟩ := Option.isSome_iff_exists.mp hk
  obtain ⟨j, h1, h2⟩ := inlinedIdx_mem (hm.new v (List.mem_of_getElem? hv))
  have : (getLocal chain i pre.length).bind (inlinedIdx C'.locals) = .ok j := by
    unfold getLocal
    rw [hc]
    simp only [hv, Except.bind, h1]
  rw [this, hv]
  exact h2

theorem subst_acc {tr : Ins Meth → SC Meth} {ch ch' : List Scope} : ∀ (c : SC Meth), (∀ i ∈ c.instrs, Known (i.acc ch) → (tr i).acc ch' = i.acc ch) →
    Known (c.acc ch) → (c.subst tr).acc ch' = c.acc ch
  | .nop, _, _ => by simp only [SC.subst, SC.acc]
  | .ins i, h, hk => by
    simp only [SC.subst, SC.acc] at hk ⊢
    exact h i (List.mem_singleton.mpr rfl) hk
  | .seq a b, h, hk => by
    simp only [SC.subst, SC.acc, known_append] at hk ⊢
    rw [subst_acc a (fun i hi => h i (List.mem_append_left _ hi)) hk.1, subst_acc b (fun i hi => h i (List.mem_append_right _ hi)) hk.2]
  | .thenB _ b, h, hk => by
    simp only [SC.subst, SC.acc] at hk ⊢
    exact subst_acc b h hk
  | .ifElse _ a b, h, hk => by
    simp only [SC.subst, SC.acc, known_append] at hk ⊢
    rw [subst_acc a (fun i hi => h i (List.mem_append_left _ hi)) hk.1, subst_acc b (fun i hi => h i (List.mem_append_right _ hi)) hk.2]
  | .loop _ a b, h, hk => by
    simp only [SC.subst, SC.acc, known_append] at hk ⊢
    rw [subst_acc a (fun i hi => h i (List.mem_append_left _ hi)) hk.1, subst_acc b (fun i hi => h i (List.mem_append_right _ hi)) hk.2]

/-- A level of an argument or a field after the merge. -/
theorem Merged.level (hm : Merged B C C') {i l : Nat} (hk : (denotes (pre ++ B :: C :: rest) true i l).isSome) :
    denotes (pre ++ C' :: rest) true i (if l > pre.length then l - 1 else l) = denotes (pre ++ B :: C :: rest) true i l := by
  split
  · rename_i h; exact hm.gt h hk
  · by_cases h : l = pre.length
    · subst h; rw [hm.arg] at hk; cases hk
    · exact Merged.lt (by omega)

theorem adaptIns_acc (hm : Merged B C C') {sub : Meth → Except Err Meth} {chain : List (List Nat)} (hc : chain[pre.length]? = some B.locals) {i : Ins Meth}
    (hk : Known (i.acc (pre ++ B :: C :: rest)))
    (hs : ∀ m, i = .pushBlock true m → Known (m.acc (pre ++ B :: C :: rest)) → ∃ m', sub m = .ok m' ∧ m'.acc (pre ++ C' :: rest) = m.acc (pre ++ B :: C :: rest))
    (hr : ∀ j, i ≠ .retFld j) :
    (SC.ins (adaptIns sub pre.length chain C'.locals i)).acc (pre ++ C' :: rest) = i.acc (pre ++ B :: C :: rest) := by
  cases i with
  | pushVar a i l =>
    simp only [Ins.acc, known_one, Access.known] at hk
    cases a with
    | true => simp only [adaptIns, SC.acc, Ins.acc]; rw [hm.level hk]
    | false =>
      simp only [adaptIns]
      split
      · rename_i e; subst e
        simp only [SC.acc, Ins.acc]; rw [hm.loc hc hk]
      · simp only [SC.acc, Ins.acc]
        split
        · rename_i h; rw [hm.gt h hk]
        · rw [Merged.lt (B := B) (C := C) (by omega)]
  | popVar a i l =>
    simp only [Ins.acc, known_one, Access.known] at hk
    cases a with
    | true => simp only [adaptIns, SC.acc, Ins.acc]; rw [hm.level hk]
    | false =>
      simp only [adaptIns]
      split
      · rename_i e; subst e
        simp only [SC.acc, Ins.acc]; rw [hm.loc hc hk]
      · simp only [SC.acc, Ins.acc]
        split
        · rename_i h; rw [hm.gt h hk]
        · rw [Merged.lt (B := B) (C := C) (by omega)]
  | pushFld i l => simp only [Ins.acc, known_one, Access.known] at hk; simp only [adaptIns, SC.acc, Ins.acc]; rw [hm.level hk]
  | popFld i l => simp only [Ins.acc, known_one, Access.known] at hk; simp only [adaptIns, SC.acc, Ins.acc]; rw [hm.level hk]
  | incFld i l =>
    have hk : (denotes (pre ++ B :: C :: rest) true 0 l).isSome := hk (.readFld i _) (by simp [Ins.acc])
    simp only [adaptIns, SC.acc, Ins.acc]; rw [hm.level hk]
  | incFldPush i l =>
    have hk : (denotes (pre ++ B :: C :: rest) true 0 l).isSome := hk (.readFld i _) (by simp [Ins.acc])
    simp only [adaptIns, SC.acc, Ins.acc]; rw [hm.level hk]
  | pushBlock c m =>
    cases c with
    | true =>
      simp only [Ins.acc] at hk
      obtain ⟨m', h1, h2⟩ := hs m rfl hk
      simp only [adaptIns, h1, SC.acc, Ins.acc]
      exact h2
    | false => simp only [adaptIns, SC.acc, Ins.acc]
  | retFld j => exact absurd rfl (hr j)
  | _ => simp only [adaptIns, SC.acc, Ins.acc]

/-- Adapted blocks access the same variables. -/
theorem adapt_acc (hm : Merged B C C') : ∀ (n lvl : Nat) (inner : List Scope) (m m' : Meth), Sound lvl m →
    adapt n (inner.length + 1) (inner.map (·.locals) ++ [B.locals]) C'.locals m = .ok m' → Known (m.acc (inner ++ B :: C :: rest)) →
    m'.acc (inner ++ C' :: rest) = m.acc (inner ++ B :: C :: rest)
  | 0, _, _, _, _, _, h, _ => by simp only [adapt] at h; cases h
  | n + 1, lvl, inner, m, m', hs, h, hk => by
    cases hs with
    | triv _ id t ok => simp only [adapt] at h; cases h
    | bc _ id lits bytes loops args locals stack code enc ty std size small ends ins ids inn closed =>
      simp only [adapt] at h
      obtain ⟨⟨bs', l'⟩, hloop, h⟩ := except_bind_ok h
      cases h
      obtain ⟨_, hsub⟩ := adaptLoop_ok enc ids hloop
      simp only [Meth.acc] at hk ⊢
      have hl : (Scope.block args locals).locals = locals := by cases args <;> rfl
      refine subst_acc code (fun i hi hki => ?_) hk
      refine adaptIns_acc (pre := Scope.block args locals :: inner) hm ?_ hki ?_ ?_
      · simp
      · rintro m rfl hkm
        obtain ⟨m1, hm1⟩ := hsub m hi
        refine ⟨m1, hm1, adapt_acc hm n _ (Scope.block args locals :: inner) m m1 (inn m hi) ?_ hkm⟩
        simp only [List.length_cons, List.map_cons, List.cons_append, hl]
        exact hm1
      · rintro j rfl
        exact absurd (ins _ hi) (by simp [InsOK, InsAt])

/-! ## Inlined code -/

theorem inlIns_acc (hm : Merged B C C') {n lvl : Nat} {i : Ins Meth} (hf : Fine (lvl + 1) i) (hk : Known (i.acc (B :: C :: rest)))
    (hp : impossible ∉ (inlIns (adapt n 1 [B.locals] C'.locals) lvl C'.locals B.locals i).instrs) :
    (inlIns (adapt n 1 [B.locals] C'.locals) lvl C'.locals B.locals i).acc (C' :: rest) = i.acc (B :: C :: rest) := by
  have level : ∀ {i l : Nat}, (denotes (B :: C :: rest) true i l).isSome → denotes (C' :: rest) true i (l - 1) = denotes (B :: C :: rest) true i l := by
    intro i l h
    cases l with
    | zero =>
      have : denotes (B :: C :: rest) true i 0 = none := hm.noArgs i
      rw [this] at h; cases h
    | succ l => exact hm.gt (pre := []) (Nat.succ_pos l) h
  cases i with
  | pushVar a i l =>
    simp only [Ins.acc, known_one, Access.known] at hk
    cases a with
    | true => simp only [inlIns, SC.acc, Ins.acc]; rw [level hk]
    | false =>
      cases l with
      | zero => simp only [inlIns, SC.acc, Ins.acc]; exact congrArg (fun x => [Access.read x]) (hm.loc (pre := []) (rest := rest) (chain := [B.locals]) rfl hk)
      | succ l => simp only [inlIns, SC.acc, Ins.acc]; exact congrArg (fun x => [Access.read x]) (hm.gt (pre := []) (rest := rest) (Nat.succ_pos l) hk)
  | popVar a i l =>
    simp only [Ins.acc, known_one, Access.known] at hk
    cases a with
    | true => simp only [inlIns, SC.acc, Ins.acc]; rw [level hk]
    | false =>
      cases l with
      | zero => simp only [inlIns, SC.acc, Ins.acc]; exact congrArg (fun x => [Access.write x]) (hm.loc (pre := []) (rest := rest) (chain := [B.locals]) rfl hk)
      | succ l => simp only [inlIns, SC.acc, Ins.acc]; exact congrArg (fun x => [Access.write x]) (hm.gt (pre := []) (rest := rest) (Nat.succ_pos l) hk)
  | pushFld i l => simp only [Ins.acc, known_one, Access.known] at hk; simp only [inlIns, SC.acc, Ins.acc]; rw [level hk]
  | popFld i l => simp only [Ins.acc, known_one, Access.known] at hk; simp only [inlIns, SC.acc, Ins.acc]; rw [level hk]
  | incFld i l =>
    have hk : (denotes (B :: C :: rest) true 0 l).isSome := hk (.readFld i _) (by simp [Ins.acc])
    simp only [inlIns, SC.acc, Ins.acc]; rw [level hk]
  | incFldPush i l =>
    have hk : (denotes (B :: C :: rest) true 0 l).isSome := hk (.readFld i _) (by simp [Ins.acc])
    simp only [inlIns, SC.acc, Ins.acc]; rw [level hk]
  | pushBlock c m =>
    cases c with
    | true =>
      simp only [Ins.acc] at hk
      simp only [inlIns] at hp ⊢
      cases hs : adapt n 1 [B.locals] C'.locals m with
      | error e => rw [hs] at hp; exact absurd (List.mem_singleton.mpr rfl) hp
      | ok m' =>
        simp only [SC.acc, Ins.acc]
        exact adapt_acc hm n _ [] m m' (hf.inner m rfl) hs hk
    | false => simp only [inlIns, SC.acc, Ins.acc]
  | retFld j => exact absurd hf.ok (by simp [InsAt])
  | retNonLocal l => simp only [inlIns]; split <;> simp only [SC.acc, Ins.acc]
  | pushGlobal s =>
    simp only [inlIns, SC.acc, Ins.acc, globIns]
    repeat' split
    all_goals simp only [Ins.acc]
  | _ => simp only [inlIns, SC.acc, Ins.acc]

theorem globIns_acc (s : Sel) (ch : List Scope) : (globIns s : Ins Meth).acc ch = [] := by
  unfold globIns
  repeat' split
  all_goals simp only [Ins.acc]

theorem subst_instrs {tr : Ins Meth → SC Meth} {i j : Ins Meth} : ∀ (c : SC Meth), i ∈ c.instrs → j ∈ (tr i).instrs → j ∈ (c.subst tr).instrs
  | .nop, h, _ => by cases h
  | .ins k, h, hj => by rw [List.mem_singleton.mp h] at hj; exact hj
  | .seq a b, h, hj =>
    List.mem_append.mpr ((List.mem_append.mp h).imp (fun h => subst_instrs a h hj) (fun h => subst_instrs b h hj))
  | .thenB _ b, h, hj => subst_instrs b h hj
  | .ifElse _ a b, h, hj =>
    List.mem_append.mpr ((List.mem_append.mp h).imp (fun h => subst_instrs a h hj) (fun h => subst_instrs b h hj))
  | .loop _ a b, h, hj =>
    List.mem_append.mpr ((List.mem_append.mp h).imp (fun h => subst_instrs a h hj) (fun h => subst_instrs b h hj))

theorem locals_wider {args : List (Option Nat)} {xs ys : List Nat} (h : xs <+: ys) (rest : List Scope) : Wider (⟨args, xs⟩ :: rest) (⟨args, ys⟩ :: rest) := by
  obtain ⟨t, rfl⟩ := h
  exact Wider.locals args xs t rest

/-- Inlined blocks access the variables the block accesses. -/
theorem inlCode_acc {n lvl : Nat} {m : Meth} {args : List (Option Nat)} {env cur fin : List Nat} (h : Sound lvl m) (h1 : env <+: cur) (h2 : cur ++ m.locals <+: fin)
    (hp : impossible ∉ (inlCode n m lvl cur).instrs) (hk : Known (m.acc (⟨args, env⟩ :: rest))) :
    (inlCode n m lvl cur).acc (⟨args, fin⟩ :: rest) = m.acc (⟨args, env⟩ :: rest) := by
  cases h with
  | bc _ id lits bytes loops as locals stack code enc ty std size small ends ins ids inner closed =>
    simp only [inlCode, Meth.acc] at hp hk ⊢
    split at hp
    · rename_i ha
      rw [if_pos ha]
      have hl : (Scope.block as locals).locals = locals := by cases as <;> rfl
      have hm : Merged (Scope.block as locals) ⟨args, env⟩ ⟨args, cur ++ locals⟩ := by
        refine ⟨?_, rfl, ?_, ?_⟩
        · intro i
          match as, ha with
          | [a], _ => cases i <;> rfl
        · obtain ⟨t, rfl⟩ := h1
          exact ⟨t ++ locals, by simp⟩
        · rw [hl]; intro v hv; exact List.mem_append_right _ hv
      have := subst_acc (tr := inlIns (adapt n 1 [locals] (cur ++ locals)) lvl (cur ++ locals) locals) (ch := Scope.block as locals :: ⟨args, env⟩ :: rest)
        (ch' := ⟨args, cur ++ locals⟩ :: rest) code (fun i hi hki => by
          have := inlIns_acc (n := n) (lvl := lvl) (rest := rest) hm (i := i) ⟨ins i hi, fun m e => inner m (e ▸ hi), fun m e => closed m (e ▸ hi)⟩ hki
          rw [hl] at this
          exact this fun h => hp (subst_instrs code hi h)) hk
      rw [← this]
      exact SC.acc_wider (locals_wider (show cur ++ locals <+: fin from h2) rest) _ (by rw [this]; exact hk)
    · exact absurd (List.mem_singleton.mpr rfl) hp
  | triv _ id t ok =>
    cases t with
    | lit l => cases l with
      | val v => simp only [inlCode, SC.acc, Ins.acc, Meth.acc, Triv.acc]
      | meth m => cases ok
    | glob s l => simp only [inlCode, SC.acc, Meth.acc, Triv.acc]; exact globIns_acc _ _
    | fldRead i l =>
      cases ok
      simp only [inlCode, SC.acc, Ins.acc, Meth.acc, Triv.acc, known_one, Access.known] at hk ⊢
      have hk : (denotes (⟨args, env⟩ :: rest) true 0 lvl).isSome := hk
      show [Access.readFld i (denotes (⟨args, fin⟩ :: rest) true 0 lvl)] = [Access.readFld i (denotes (⟨args, env⟩ :: rest) true 0 lvl)]
      rw [(locals_wider (h1.trans ((List.prefix_append _ _).trans h2)) rest).eq hk]
    | fldWrite i a => cases ok

/-- The same for blocks in the source. -/
theorem inlBlk_acc {n lvl : Nat} {c : Bool} {m : Meth} {args : List (Option Nat)} {env cur fin : List Nat} (h : Sound lvl m) (h1 : env <+: cur)
    (h2 : cur ++ m.locals <+: fin) (hp : impossible ∉ (inlCode n m lvl cur).instrs) (hk : Known ((Ex.blk c m).acc lvl (⟨args, env⟩ :: rest))) :
    (inlCode n m lvl cur).acc (⟨args, fin⟩ :: rest) = (Ex.blk c m).acc lvl (⟨args, env⟩ :: rest) := by
  cases c with
  | true =>
    simp only [Ex.acc] at hk ⊢
    exact inlCode_acc h h1 h2 hp hk
  | false =>
    simp only [Ex.acc] at hk ⊢
    have := m.acc_wider (Wider.nil (⟨args, env⟩ :: rest)) hk
    rw [← this] at hk ⊢
    exact inlCode_acc h h1 h2 hp hk

/-! ## Generated code -/

mutual
theorem genEx_grows (n lvl : Nat) : ∀ (e : Ex Meth) (st : Bool × List Nat), st.2 <+: (genEx (inliner n) lvl e st).2.2
  | .lit l, st => by simp only [genEx]; exact List.prefix_refl _
  | .glob s, st => by simp only [genEx]; exact List.prefix_refl _
  | .var a i l, st => by simp only [genEx]; exact List.prefix_refl _
  | .fld _ i, st => by simp only [genEx]; exact List.prefix_refl _
  | .blk c m, st => by simp only [genEx]; exact List.prefix_refl _
  | .asg t ts e, st => by
    simp only [genEx, genAsg]
    have := genEx_grows n lvl e st
    split <;> exact this
  | .inc e, st => by simp only [genEx]; exact genEx_grows n lvl e st
  | .dec e, st => by simp only [genEx]; exact genEx_grows n lvl e st
  | .superSend sel r as, st => by simp only [genEx]; exact (genEx_grows n lvl r st).trans (genExs_grows n lvl as _)
  | .send sel r as, st => by
    simp only [genEx]
    have h1 := genEx_grows n lvl r st
    have h2 := genExs_grows n lvl as (genEx (inliner n) lvl r st).2
    have g : ∀ (m : Meth) (x : List Nat), x <+: (inliner n).env m lvl x := fun m x => List.prefix_append _ _
    cases inlined? sel r as with
    | none => exact h1.trans h2
    | some x =>
      cases x <;> simp only [genSend]
      · exact h1.trans (g _ _)
      · exact h1.trans ((g _ _).trans (g _ _))
      · exact h1.trans ((g _ _).trans (g _ _))
      · exact h1.trans (g _ _)
theorem genExs_grows (n lvl : Nat) : ∀ (es : Exs Meth) (st : Bool × List Nat), st.2 <+: (genExs (inliner n) lvl es st).2.2
  | .nil, st => by simp only [genExs]; exact List.prefix_refl _
  | .cons e es, st => by simp only [genExs]; exact (genEx_grows n lvl e st).trans (genExs_grows n lvl es _)
end

mutual
theorem lit_acc (ch : List Scope) : ∀ l : LitT, (litSC l : SC Meth).acc ch = []
  | .val v => by simp only [litSC, SC.acc, Ins.acc]
  | .arr es => by simp only [litSC, SC.acc, Ins.acc, lits_acc ch es, List.append_nil]
theorem lits_acc (ch : List Scope) : ∀ (es : LitTs) (i : Nat), (litsSC es i : SC Meth).acc ch = []
  | .nil, _ => by simp only [litsSC, SC.acc]
  | .cons e es, i => by simp only [litsSC, SC.acc, Ins.acc, lit_acc ch e, lits_acc ch es, List.append_nil]
end

theorem popIns_acc (lvl : Nat) (ch : List Scope) (t : Tgt) : (t.popIns lvl : Ins Meth).acc ch = [t.acc lvl ch] := by
  cases t <;> simp only [Tgt.popIns, Ins.acc, Tgt.acc]

theorem dups_acc (ch : List Scope) : ∀ k, (dupsSC k : SC Meth).acc ch = []
  | 0 => by simp only [dupsSC, SC.acc]
  | k + 1 => by simp only [dupsSC, SC.acc, Ins.acc, dups_acc ch k, List.append_nil]

theorem pops_acc (lvl : Nat) (ch : List Scope) : ∀ ts : List Tgt, (popsSC lvl ts : SC Meth).acc ch = ts.map (Tgt.acc lvl ch)
  | [] => by simp only [popsSC, SC.acc, List.map_nil]
  | t :: ts => by simp only [popsSC, SC.acc, popIns_acc, pops_acc lvl ch ts, List.map_cons, List.singleton_append]

theorem Tgt.acc_wider {a b : List Scope} (h : Wider a b) {lvl : Nat} (t : Tgt) (hk : (t.acc lvl a).known) : t.acc lvl b = t.acc lvl a := by
  cases t <;> simp only [Tgt.acc, Access.known] at hk ⊢ <;> rw [h.eq hk]

theorem tgts_wider {a b : List Scope} (h : Wider a b) {lvl : Nat} : ∀ (ts : List Tgt), Known (ts.map (Tgt.acc lvl a)) → ts.map (Tgt.acc lvl b) = ts.map (Tgt.acc lvl a)
  | [], _ => rfl
  | t :: ts, hk => by
    rw [List.map_cons, List.map_cons, Tgt.acc_wider h t (hk _ (by simp)), tgts_wider h ts fun x hx => hk x (by simp [List.map_cons] at hx ⊢; exact .inr hx)]

/-- `f := f + 1` -/
theorem fusable_acc {lvl : Nat} {t : Tgt} {ts : List Tgt} {e : Ex Meth} {i : Nat} (h : fusable t ts e = some i) (ch : List Scope) :
    (Ex.asg t ts e).acc lvl ch = [.readFld i (denotes ch true 0 lvl), .writeFld i (denotes ch true 0 lvl)] := by
  unfold fusable at h
  split at h
  · split at h
    · cases h
      rename_i e
      cases e
      simp only [Ex.acc, List.map_cons, List.map_nil, Tgt.acc, List.singleton_append]
    · cases h
  · cases h

variable {args : List (Option Nat)} {env fin : List Nat}

theorem genAsg_acc {lvl : Nat} {t : Tgt} {ts : List Tgt} {e : Ex Meth} {ce : Gen Meth (List Nat)} (hw : env <+: fin)
    (h : impossible ∉ ce.1.instrs → ce.1.acc (⟨args, fin⟩ :: rest) = e.acc lvl (⟨args, env⟩ :: rest))
    (hp : impossible ∉ (genAsg lvl t ts e ce).1.instrs) (hk : Known ((Ex.asg t ts e).acc lvl (⟨args, env⟩ :: rest))) :
    (genAsg lvl t ts e ce).1.acc (⟨args, fin⟩ :: rest) = (Ex.asg t ts e).acc lvl (⟨args, env⟩ :: rest) := by
  have hwd := locals_wider (args := args) hw rest
  unfold genAsg at hp ⊢
  split
  · rename_i i hf _
    rw [fusable_acc hf] at hk ⊢
    have : (denotes (⟨args, env⟩ :: rest) true 0 lvl).isSome := hk (.readFld i _) (by simp)
    simp only [SC.acc, Ins.acc]
    rw [hwd.eq this]
  · rename_i hne
    split at hp
    · rename_i i hf hi; exact absurd hi (hne i hf)
    · simp only [SC.acc, dups_acc, pops_acc, Ex.acc, known_append, List.nil_append] at hk ⊢
      rw [h fun hi => hp (List.mem_append_left _ hi), tgts_wider hwd _ hk.2]

mutual
theorem genEx_acc (n lvl : Nat) : ∀ (e : Ex Meth) (st : Bool × List Nat), BlksOK lvl e.blks → env <+: st.2 → (genEx (inliner n) lvl e st).2.2 <+: fin →
    impossible ∉ (genEx (inliner n) lvl e st).1.instrs → Known (e.acc lvl (⟨args, env⟩ :: rest)) →
    (genEx (inliner n) lvl e st).1.acc (⟨args, fin⟩ :: rest) = e.acc lvl (⟨args, env⟩ :: rest)
  | .lit l, st, _, _, _, _, _ => by simp only [genEx, Ex.acc, lit_acc]
  | .glob s, st, _, _, _, _, _ => by simp only [genEx, Ex.acc, SC.acc, globIns_acc]
  | .var a i l, st, _, h1, h2, _, hk => by
    simp only [genEx, Ex.acc, SC.acc, Ins.acc, known_one, Access.known] at h2 hk ⊢
    rw [(locals_wider (h1.trans h2) rest).eq hk]
  | .fld _ i, st, _, h1, h2, _, hk => by
    simp only [genEx, Ex.acc, SC.acc, Ins.acc, known_one, Access.known] at h2 hk ⊢
    rw [(locals_wider (h1.trans h2) rest).eq hk]
  | .blk true m, st, _, h1, h2, _, hk => by
    simp only [genEx, Ex.acc, SC.acc, Ins.acc] at h2 hk ⊢
    exact m.acc_wider (locals_wider (h1.trans h2) rest) hk
  | .blk false m, st, _, h1, h2, _, hk => by simp only [genEx, Ex.acc, SC.acc, Ins.acc]
  | .asg t ts e, st, hb, h1, h2, hp, hk => by
    have hk' := hk
    simp only [genEx, Ex.blks] at hb h2 hp ⊢
    simp only [Ex.acc, known_append] at hk'
    have h2' : (genEx (inliner n) lvl e st).2.2 <+: fin := by
      unfold genAsg at h2
      split at h2 <;> exact h2
    exact genAsg_acc (h1.trans ((genEx_grows n lvl e st).trans h2')) (fun hp => genEx_acc n lvl e st hb h1 h2' hp hk'.1) hp hk
  | .inc e, st, hb, h1, h2, hp, hk => by
    simp only [genEx, Ex.blks, Ex.acc, SC.acc, Ins.acc, List.append_nil] at hb h2 hp hk ⊢
    exact genEx_acc n lvl e st hb h1 h2 (fun hi => hp (List.mem_append_left _ hi)) hk
  | .dec e, st, hb, h1, h2, hp, hk => by
    simp only [genEx, Ex.blks, Ex.acc, SC.acc, Ins.acc, List.append_nil] at hb h2 hp hk ⊢
    exact genEx_acc n lvl e st hb h1 h2 (fun hi => hp (List.mem_append_left _ hi)) hk
  | .superSend sel r as, st, hb, h1, h2, hp, hk => by
    simp only [genEx, Ex.blks, Ex.acc, SC.acc, Ins.acc, List.append_nil, known_append] at hb h2 hp hk ⊢
    rw [genEx_acc n lvl r st hb.left h1 ((genExs_grows n lvl as _).trans h2) (fun hi => hp (List.mem_append_left _ hi)) hk.1,
      genExs_acc n lvl as _ hb.right (h1.trans (genEx_grows n lvl r st)) h2 (fun hi => hp (List.mem_append_right _ (List.mem_append_left _ hi))) hk.2]
  | .send sel r as, st, hb, h1, h2, hp, hk => by
    simp only [genEx, Ex.blks, Ex.acc, known_append] at hb h2 hp hk ⊢
    have hg := genEx_grows n lvl r st
    have ihr := fun h2 hp => genEx_acc n lvl r st hb.left h1 h2 hp hk.1
    cases hin : inlined? sel r as with
    | none =>
      rw [hin] at h2 hp
      simp only [genSend, SC.acc, Ins.acc, List.append_nil] at h2 hp ⊢
      rw [ihr ((genExs_grows n lvl as _).trans h2) (fun hi => hp (List.mem_append_left _ hi)),
        genExs_acc n lvl as _ hb.right (h1.trans hg) h2 (fun hi => hp (List.mem_append_right _ (List.mem_append_left _ hi))) hk.2]
    | some x =>
      rw [hin] at h2 hp
      unfold inlined? at hin
      split at hin <;> cases hin
      · simp only [Exs.blks, Exs.acc, List.append_nil] at hb hk ⊢
        have h2 : (genEx (inliner n) lvl _ st).2.2 ++ _ <+: fin := h2
        simp only [genSend, SC.acc] at hp ⊢
        rw [ihr ((List.prefix_append _ _).trans h2) (fun hi => hp (List.mem_append_left _ hi))]
        congr 1
        exact inlBlk_acc (hb.right.good _ _ (List.mem_singleton.mpr rfl)).1 (h1.trans hg) h2 (fun hi => hp (List.mem_append_right _ hi)) hk.2
      · simp only [Exs.blks, Exs.acc, List.append_nil, known_append] at hb hk ⊢
        have h2 : (genEx (inliner n) lvl _ st).2.2 ++ _ ++ _ <+: fin := h2
        simp only [genSend, SC.acc] at hp ⊢
        have h3 := (List.prefix_append _ _).trans h2
        rw [ihr ((List.prefix_append _ _).trans h3) (fun hi => hp (List.mem_append_left _ hi))]
        congr 1
        congr 1
        · exact inlBlk_acc (hb.right.left.good _ _ (List.mem_singleton.mpr rfl)).1 (h1.trans hg) h3
            (fun hi => hp (List.mem_append_right _ (List.mem_append_left _ hi))) hk.2.1
        · exact inlBlk_acc (hb.right.right.good _ _ (List.mem_singleton.mpr rfl)).1 ((h1.trans hg).trans (List.prefix_append _ _)) h2
            (fun hi => hp (List.mem_append_right _ (List.mem_append_right _ hi))) hk.2.2
      · simp only [Exs.blks, Exs.acc, List.append_nil] at hb hk ⊢
        have h2 : st.2 ++ _ ++ _ <+: fin := h2
        simp only [genSend, SC.acc, Ins.acc, List.append_nil] at hp ⊢
        have h3 := (List.prefix_append _ _).trans h2
        congr 1
        · exact inlBlk_acc (hb.left.good _ _ (List.mem_singleton.mpr rfl)).1 h1 h3
            (fun hi => hp (List.mem_append_left _ (List.mem_append_left _ hi))) hk.1
        · exact inlBlk_acc (hb.right.good _ _ (List.mem_singleton.mpr rfl)).1 (h1.trans (List.prefix_append _ _)) h2
            (fun hi => hp (List.mem_append_left _ (List.mem_append_right _ (List.mem_append_left _ hi)))) hk.2
      · simp only [Exs.blks, Exs.acc, List.append_nil] at hb hk ⊢
        have h2 : (genEx (inliner n) lvl _ st).2.2 ++ _ <+: fin := h2
        simp only [genSend, SC.acc, Ins.acc, List.append_nil] at hp ⊢
        rw [ihr ((List.prefix_append _ _).trans h2) (fun hi => hp (List.mem_append_left _ hi))]
        congr 1
        exact inlBlk_acc (hb.right.good _ _ (List.mem_singleton.mpr rfl)).1 (h1.trans hg) h2
          (fun hi => hp (List.mem_append_right _ (List.mem_append_left _ hi))) hk.2
theorem genExs_acc (n lvl : Nat) : ∀ (es : Exs Meth) (st : Bool × List Nat), BlksOK lvl es.blks → env <+: st.2 → (genExs (inliner n) lvl es st).2.2 <+: fin →
    impossible ∉ (genExs (inliner n) lvl es st).1.instrs → Known (es.acc lvl (⟨args, env⟩ :: rest)) →
    (genExs (inliner n) lvl es st).1.acc (⟨args, fin⟩ :: rest) = es.acc lvl (⟨args, env⟩ :: rest)
  | .nil, st, _, _, _, _, _ => by simp only [genExs, Exs.acc, SC.acc]
  | .cons e es, st, hb, h1, h2, hp, hk => by
    simp only [genExs, Exs.blks, Exs.acc, SC.acc, known_append] at hb h2 hp hk ⊢
    rw [genEx_acc n lvl e st hb.left h1 ((genExs_grows n lvl es _).trans h2) (fun hi => hp (List.mem_append_left _ hi)) hk.1,
      genExs_acc n lvl es _ hb.right (h1.trans (genEx_grows n lvl e st)) h2 (fun hi => hp (List.mem_append_right _ hi)) hk.2]
end

/-- The variables of the method after its body. -/
def bodyEnv {M X : Type} (I : Inliner M X) (lvl : Nat) : Body M → Bool × X → X
  | .done, st => st.2
  | .last e, st => (genEx I lvl e st).2.2
  | .stmt e rest, st => bodyEnv I lvl rest (genEx I lvl e st).2
  | .exit e, st => (genEx I lvl e st).2.2
  | .exitSelf, st => st.2

theorem bodyEnv_grows (n lvl : Nat) : ∀ (b : Body Meth) (st : Bool × List Nat), st.2 <+: bodyEnv (inliner n) lvl b st
  | .done, _ => List.prefix_refl _
  | .last e, st => genEx_grows n lvl e st
  | .stmt e rest, st => (genEx_grows n lvl e st).trans (bodyEnv_grows n lvl rest _)
  | .exit e, st => genEx_grows n lvl e st
  | .exitSelf, _ => List.prefix_refl _

theorem effOnly_acc {n lvl : Nat} {e : Ex Meth} {st : Bool × List Nat} {c : SC Meth} (hb : BlksOK lvl e.blks) (h1 : env <+: st.2)
    (h2 : (genEx (inliner n) lvl e st).2.2 <+: fin) (he : effOnly (inliner n) lvl e st = some c) (hp : impossible ∉ c.instrs)
    (hk : Known (e.acc lvl (⟨args, env⟩ :: rest))) : c.acc (⟨args, fin⟩ :: rest) = e.acc lvl (⟨args, env⟩ :: rest) := by
  unfold effOnly at he
  split at he
  · split at he
    · cases he
      rename_i t e' _
      have hk' := hk
      simp only [Ex.acc, known_append] at hk'
      simp only [Ex.blks] at hb
      have h2' : (genEx (inliner n) lvl e' st).2.2 <+: fin := by
        simp only [genEx] at h2
        unfold genAsg at h2
        split at h2 <;> exact h2
      have hwd := locals_wider (args := args) (h1.trans ((genEx_grows n lvl e' st).trans h2')) rest
      unfold genAsgEff at hp ⊢
      split at hp
      · rename_i i hf
        rw [fusable_acc hf] at hk ⊢
        have : (denotes (⟨args, env⟩ :: rest) true 0 lvl).isSome := hk (.readFld i _) (by simp)
        simp only [SC.acc, Ins.acc]
        rw [hwd.eq this]
      · simp only [SC.acc, Ex.acc]
        rw [genEx_acc n lvl e' st hb h1 h2' (fun hi => hp (List.mem_append_left _ hi)) hk'.1, popIns_acc, List.map_cons, List.map_nil,
          Tgt.acc_wider hwd t (hk'.2 _ (by simp))]
    · cases he
  · cases he

theorem genStmt_acc {n lvl : Nat} {e : Ex Meth} {st : Bool × List Nat} (hb : BlksOK lvl e.blks) (h1 : env <+: st.2)
    (h2 : (genEx (inliner n) lvl e st).2.2 <+: fin) (hp : impossible ∉ (genStmt (inliner n) lvl e st).1.instrs)
    (hk : Known (e.acc lvl (⟨args, env⟩ :: rest))) : (genStmt (inliner n) lvl e st).1.acc (⟨args, fin⟩ :: rest) = e.acc lvl (⟨args, env⟩ :: rest) := by
  unfold genStmt at hp ⊢
  dsimp only at hp ⊢
  cases he : effOnly (inliner n) lvl e st with
  | some c => rw [he] at hp; exact effOnly_acc hb h1 h2 he hp hk
  | none =>
    rw [he] at hp
    simp only [SC.acc, Ins.acc, List.append_nil]
    exact genEx_acc n lvl e st hb h1 h2 (fun hi => hp (List.mem_append_left _ hi)) hk

theorem genReturn_acc {n : Nat} {e : Ex Meth} {st : Bool × List Nat} (hb : BlksOK 0 e.blks) (h1 : env <+: st.2)
    (h2 : (genEx (inliner n) 0 e st).2.2 <+: fin) (hp : impossible ∉ (genReturn (inliner n) 0 e st).instrs)
    (hk : Known (e.acc 0 (⟨args, env⟩ :: rest))) : (genReturn (inliner n) 0 e st).acc (⟨args, fin⟩ :: rest) = e.acc 0 (⟨args, env⟩ :: rest) := by
  have plain : impossible ∉ (SC.seq (genEx (inliner n) 0 e st).1 (.ins .retLocal)).instrs →
      (SC.seq (genEx (inliner n) 0 e st).1 (.ins .retLocal)).acc (⟨args, fin⟩ :: rest) = e.acc 0 (⟨args, env⟩ :: rest) := by
    intro hp
    simp only [SC.acc, Ins.acc, List.append_nil]
    exact genEx_acc n 0 e st hb h1 h2 (fun hi => hp (List.mem_append_left _ hi)) hk
  unfold genReturn at hp ⊢
  split
  · dsimp only at hp
    split at hp
    · rename_i hc
      rw [if_pos hc]
      simp only [SC.acc, Ins.acc, Ex.acc, known_one, Access.known, genEx] at hk h2 ⊢
      rw [(locals_wider (h1.trans h2) rest).eq hk]
    · rename_i hc
      rw [if_neg hc]
      exact plain hp
  · rename_i hne
    split at hp
    · exact absurd rfl (hne _ _)
    · exact plain hp

theorem genBody_acc (n : Nat) (isBlock : Bool) (lvl : Nat) (hlv : isBlock = false → lvl = 0) : ∀ (b : Body Meth) (st : Bool × List Nat), BlksOK lvl b.blks → env <+: st.2 →
    bodyEnv (inliner n) lvl b st <+: fin → impossible ∉ (genBody (inliner n) isBlock lvl b st).instrs → Known (b.acc lvl (⟨args, env⟩ :: rest)) →
    (genBody (inliner n) isBlock lvl b st).acc (⟨args, fin⟩ :: rest) = b.acc lvl (⟨args, env⟩ :: rest)
  | .done, st, _, _, _, _, _ => by
    cases isBlock <;> simp [genBody, SC.acc, Ins.acc, Body.acc]
  | .exitSelf, st, _, _, _, _, _ => by simp [genBody, SC.acc, Ins.acc, Body.acc]
  | .last e, st, hb, h1, h2, hp, hk => by
    simp only [Body.blks, Body.acc, bodyEnv] at hb hk h2 ⊢
    cases isBlock with
    | true =>
      simp only [genBody, if_true, SC.acc, Ins.acc, List.append_nil] at hp ⊢
      exact genEx_acc n lvl e st hb h1 h2 (fun hi => hp (List.mem_append_left _ hi)) hk
    | false =>
      simp only [genBody, Bool.false_eq_true, if_false, SC.acc, Ins.acc, List.append_nil] at hp ⊢
      cases he : effOnly (inliner n) lvl e st with
      | some c => rw [he] at hp; exact effOnly_acc hb h1 h2 he (fun hi => hp (List.mem_append_left _ hi)) hk
      | none => rw [he] at hp; exact genEx_acc n lvl e st hb h1 h2 (fun hi => hp (List.mem_append_left _ hi)) hk
  | .exit e, st, hb, h1, h2, hp, hk => by
    simp only [Body.blks, Body.acc, bodyEnv] at hb hk h2 ⊢
    cases isBlock with
    | true =>
      simp only [genBody, if_true, SC.acc, Ins.acc, List.append_nil] at hp ⊢
      exact genEx_acc n lvl e st hb h1 h2 (fun hi => hp (List.mem_append_left _ hi)) hk
    | false =>
      cases hlv rfl
      simp only [genBody, Bool.false_eq_true, if_false] at hp ⊢
      exact genReturn_acc hb h1 h2 hp hk
  | .stmt e rest', st, hb, h1, h2, hp, hk => by
    simp only [Body.blks, Body.acc, bodyEnv, known_append] at hb hk h2 ⊢
    have hg := genEx_grows n lvl e st
    have h3 := (bodyEnv_grows n lvl rest' (genEx (inliner n) lvl e st).2).trans h2
    by_cases hr : rest' = .done
    · subst hr
      simp only [Body.acc, List.append_nil]
      cases isBlock with
      | true =>
        simp only [genBody, if_true, SC.acc, Ins.acc, List.append_nil] at hp ⊢
        exact genEx_acc n lvl e st hb.left h1 h3 (fun hi => hp (List.mem_append_left _ hi)) hk.1
      | false =>
        simp only [genBody, Bool.false_eq_true, if_false, SC.acc, Ins.acc, List.append_nil] at hp ⊢
        exact genStmt_acc hb.left h1 h3 (fun hi => hp (List.mem_append_left _ hi)) hk.1
    · have hgb : genBody (inliner n) isBlock lvl (.stmt e rest') st =
          .seq (genStmt (inliner n) lvl e st).1 (genBody (inliner n) isBlock lvl rest' (genStmt (inliner n) lvl e st).2) := by
        cases rest' with
        | done => exact absurd rfl hr
        | _ => simp only [genBody]
      rw [hgb] at hp ⊢
      simp only [SC.acc]
      rw [genStmt_acc hb.left h1 h3 (fun hi => hp (List.mem_append_left _ hi)) hk.1]
      congr 1
      exact genBody_acc n isBlock lvl hlv rest' _ hb.right (h1.trans hg) h2 (fun hi => hp (List.mem_append_right _ hi)) hk.2

/-! ## The variables the generator ends up with -/
section
variable {M X : Type}

theorem dpp_env {g g' : G M X} {b : Bool} (h : optimizeDupPopPop g = .ok (b, g')) : g'.env = g.env := by
  unfold optimizeDupPopPop at h
  split at h
  · cases h; rfl
  · split at h
    · obtain ⟨g1, h1, h⟩ := except_bind_ok h
      cases h
      unfold optimizeIncFieldPush at h1
      obtain ⟨i, _, h1⟩ := except_bind_ok h1
      split at h1 <;> cases h1
      rfl
    · split at h
      · cases h; rfl
      · split at h
        · cases h; rfl
        · obtain ⟨g1, h1, h⟩ := except_bind_ok h
          cases h
          unfold removeLastAt1 at h1
          obtain ⟨_, _, h1⟩ := except_bind_ok h1
          obtain ⟨_, _, h1⟩ := except_bind_ok h1
          obtain ⟨_, _, h1⟩ := except_bind_ok h1
          cases h1; rfl

theorem pop_env {g g' : G M X} (h : emitPop g = .ok g') : g'.env = g.env := by
  unfold emitPop at h
  obtain ⟨⟨b, g1⟩, h1, h⟩ := except_bind_ok h
  cases h
  have := dpp_env h1
  cases b <;> exact this

theorem returnSelf_env {g g' : G M X} (h : emitReturnSelf g = .ok g') : g'.env = g.env := by
  unfold emitReturnSelf at h
  obtain ⟨⟨b, g1⟩, h1, h⟩ := except_bind_ok h
  cases h
  have := dpp_env h1
  exact this

theorem removeLastPop_env {g g' : G M X} (h : removeLastPop g = .ok g') : g'.env = g.env := by
  unfold removeLastPop at h
  split at h
  · cases h; rfl
  · split at h
    · obtain ⟨_, _, h⟩ := except_bind_ok h
      obtain ⟨_, _, h⟩ := except_bind_ok h
      repeat' split at h
      all_goals (cases h; try rfl)
    · split at h
      · obtain ⟨_, _, h⟩ := except_bind_ok h
        split at h <;> cases h
        rfl
      · cases h; rfl

theorem replaceByReturnField_env {g g' : G M X} {i : Nat} {b : Bool} (h : replaceByReturnField g i = .ok (b, g')) : g'.env = g.env := by
  unfold replaceByReturnField at h
  obtain ⟨g1, h1, h⟩ := except_bind_ok h
  obtain ⟨g2, h2, h⟩ := except_bind_ok h
  cases h
  unfold removeLast1 at h1
  obtain ⟨_, _, h1⟩ := except_bind_ok h1
  obtain ⟨_, _, h1⟩ := except_bind_ok h1
  cases h1
  unfold emitReturnField at h2
  repeat' split at h2
  all_goals (cases h2; try rfl)

theorem returnLocal_env {g g' : G M X} (h : emitReturnLocal g = .ok g') : g'.env = g.env := by
  unfold emitReturnLocal at h
  obtain ⟨⟨b, g1⟩, h1, h⟩ := except_bind_ok h
  cases h
  have : g1.env = g.env := by
    unfold optimizeReturnField at h1
    repeat' split at h1
    all_goals first | (cases h1; rfl) | exact replaceByReturnField_env h1 | cases h1
  cases b <;> exact this

theorem cBody_env {I : Inliner M X} (hI : I.OK) (isBlock : Bool) : ∀ (b : Body M) (seen : Bool) (g g' : G M X), b.wf (I.good g.lvl) →
    cBody I.run isBlock b seen g = .ok g' → g'.env = bodyEnv I g.lvl b (g.inl, g.env)
  | .done, seen, g, g', _, h => by
    simp only [cBody] at h
    simp only [bodyEnv]
    split at h
    · have last : ∀ g1 : G M X, g1.env = g.env → emitReturnLocal (if g1.bytes = [] then emitPushConstant g1 .nil else g1) = .ok g' → g'.env = g.env := by
        intro g1 h1 h
        rw [returnLocal_env h]
        split
        · rw [(keep_pushConstant g1 .nil).2, h1]
        · exact h1
      split at h
      · obtain ⟨g1, h1, h⟩ := except_bind_ok h
        exact last g1 (removeLastPop_env h1) h
      · exact last g rfl h
    · exact returnSelf_env h
  | .last e, seen, g, g', hw, h => by
    simp only [cBody] at h
    simp only [Body.wf] at hw
    obtain ⟨g1, h1, h⟩ := except_bind_ok h
    have hst := (cEx_ok hI e g g1 hw h1).2
    simp only [bodyEnv]
    rw [← hst]
    split at h
    · rw [returnLocal_env h]
      split
      · exact (keep_pushConstant g1 .nil).2
      · rfl
    · exact returnSelf_env h
  | .stmt e rest, seen, g, g', hw, h => by
    simp only [cBody] at h
    simp only [Body.wf] at hw
    obtain ⟨g1, h1, h⟩ := except_bind_ok h
    obtain ⟨g2, h2, h⟩ := except_bind_ok h
    obtain ⟨hx, hst⟩ := cEx_ok hI e g g1 hw.1 h1
    obtain ⟨e2, k2, _, _⟩ := stmt_ok hI hw.1 h1 h2
    have ih := cBody_env hI isBlock rest true g2 g' (e2.lvl ▸ hw.2) h
    rw [ih, e2.lvl, k2]
    simp only [bodyEnv, genStmt]
  | .exit e, seen, g, g', hw, h => by
    simp only [cBody] at h
    simp only [Body.wf] at hw
    obtain ⟨g1, h1, h⟩ := except_bind_ok h
    have hst := (cEx_ok hI e g g1 hw h1).2
    simp only [bodyEnv]
    rw [← hst]
    split at h
    · cases h; rfl
    · exact returnLocal_env h
  | .exitSelf, seen, g, g', _, h => by
    simp only [cBody] at h
    simp only [bodyEnv]
    exact returnSelf_env h

theorem compile_env {I : Inliner M X} (hI : I.OK) {isBlock : Bool} {lvl : Nat} {env : X} {b : Body M} {g : G M X} (hw : b.wf (I.good lvl))
    (h : compile I.run isBlock lvl env b = .ok g) : g.env = bodyEnv I lvl b (false, env) :=
  cBody_env hI isBlock b false (G.new lvl env) g hw h
end

/-- The code of a method or block accesses what its source accesses. -/
theorem compile_acc {n : Nat} {isBlock : Bool} {lvl : Nat} {env : List Nat} {b : Body Meth} {g : G Meth (List Nat)} (wf : b.wf fun _ => True)
    (ok : BlksOK lvl b.blks) (hlv : isBlock = true ↔ 1 ≤ lvl) (h : compile (inlineMeth n) isBlock lvl env b = .ok g) {args : List (Option Nat)} {rest : List Scope}
    (hk : Known (b.acc lvl (⟨args, env⟩ :: rest))) :
    (genBody (inliner n) isBlock lvl b (false, env)).acc (⟨args, g.env⟩ :: rest) = b.acc lvl (⟨args, env⟩ :: rest) := by
  have hw : b.wf ((inliner n).good lvl) := b.wf_of wf ok.good
  have he := compile_env (inliner_ok n) hw h
  refine genBody_acc n isBlock lvl (fun e => ?_) b (false, env) ok (List.prefix_refl _) (by rw [he]; exact List.prefix_refl _)
    (compile_ok (inliner_ok n) hw hlv h).1.possible hk
  subst e
  cases lvl with
  | zero => rfl
  | succ l => exact absurd (hlv.mpr (by omega)) (by simp)

end PySOM.BC

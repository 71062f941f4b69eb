import Verif.Spec.Compiled
import Verif.Lemmas.AdaptLoop
import Verif.Props.Trivial
/-!
# What the compiler produces for blocks may be inlined
-/
set_option autoImplicit false
namespace PySOM.BC
open PySOM

/-! ## Closed blocks -/

theorem Closed.sound {m : Meth} (h : Closed m) : ∀ lvl, Sound lvl m → ∀ l, Sound l m := by
  induction h with
  | bc id lits bytes loops args locals stack code fld ret inner ih =>
    intro lvl hs l
    cases hs with
    | bc _ _ _ _ _ _ _ _ _ enc ty std size small ends ins ids inn clo =>
      refine .bc l id lits bytes loops args locals stack code enc ty std size small ends ?_ ids (fun m hm => ih m hm _ (inn m hm) _) clo
      intro i hi
      have := ins i hi
      cases i with
      | pushFld j k => exact absurd hi (fld j k)
      | retNonLocal k => exact absurd hi (ret k)
      | retFld j => exact absurd this (by simp [InsAt])
      | _ => exact this
  | triv id t ok =>
    intro lvl hs l
    cases hs with
    | triv _ _ _ h =>
      refine .triv l id t ?_
      cases t with
      | fldRead i k => exact absurd rfl (ok i k)
      | lit l => cases l <;> exact h
      | _ => exact h

/-! ## Instructions -/

/-- What an instruction of a block at level `lvl` has to be. -/
structure Fine (lvl : Nat) (i : Ins Meth) : Prop where
  ok : InsAt lvl i
  inner : ∀ m, i = .pushBlock true m → Sound lvl m
  closed : ∀ m, i = .pushBlock false m → ∀ l, Sound l m

theorem Fine.other {lvl : Nat} {i : Ins Meth} (ok : InsAt lvl i) (h : ∀ c m, i ≠ .pushBlock c m) : Fine lvl i :=
  ⟨ok, fun m e => absurd e (h _ m), fun m e => absurd e (h _ m)⟩

/-- Code that changes the depth by `a` to `b`. -/
structure Piece (lvl : Nat) (a b : Nat) (bs : List (Bool × Meth)) (c : SC Meth) : Prop where
  ty : ∀ d, c.ty (d + a) = some (d + b)
  std : c.std
  fine : ∀ i ∈ c.instrs, i = impossible ∨ Fine lvl i
  ids : c.ids.Sublist (idsOf bs)

theorem idsOf_append (a b : List (Bool × Meth)) : idsOf (a ++ b) = idsOf a ++ idsOf b := by simp only [idsOf, List.flatMap_append]

theorem Piece.seq {lvl a b c : Nat} {bs bs' : List (Bool × Meth)} {x y : SC Meth} (hx : Piece lvl a b bs x) (hy : Piece lvl b c bs' y) :
    Piece lvl a c (bs ++ bs') (.seq x y) where
  ty := fun d => by simp only [SC.ty, hx.ty, Option.bind_some, hy.ty]
  std := ⟨hx.std, hy.std⟩
  fine := fun i hi => (List.mem_append.mp hi).elim (hx.fine i) (hy.fine i)
  ids := by simp only [SC.ids, idsOf_append]; exact hx.ids.append hy.ids

theorem Piece.ins {lvl a b : Nat} {i : Ins Meth} (ht : ∀ d, i.ty (d + a) = some (d + b)) (ok : InsAt lvl i) (h : ∀ c m, i ≠ .pushBlock c m) :
    Piece lvl a b [] (.ins i) where
  ty := ht
  std := trivial
  fine := fun j hj => by rw [List.mem_singleton.mp hj]; exact .inr (.other ok h)
  ids := by
    cases i with
    | pushBlock c m => exact absurd rfl (h c m)
    | _ => simp only [SC.ids, Ins.ids]; exact List.nil_sublist _

theorem Piece.more {lvl a b : Nat} {bs bs' : List (Bool × Meth)} {c : SC Meth} (h : Piece lvl a b bs c) (hs : bs.Sublist bs') : Piece lvl a b bs' c :=
  ⟨h.ty, h.std, h.fine, h.ids.trans (by
    clear h
    induction hs with
    | slnil => exact List.Sublist.refl _
    | cons a _ ih => exact ih.trans (List.sublist_append_right _ _)
    | cons_cons a _ ih => exact (List.Sublist.refl _).append ih)⟩

theorem Piece.shift {lvl a b k : Nat} {bs : List (Bool × Meth)} {c : SC Meth} (h : Piece lvl a b bs c) : Piece lvl (a + k) (b + k) bs c :=
  ⟨fun d => by
    have := h.ty (d + k)
    rw [show d + (a + k) = d + k + a by omega, this]
    congr 1
    omega, h.std, h.fine, h.ids⟩

/-- Code after which comes an instruction that is not a block. -/
theorem Piece.thenIns {lvl a b c : Nat} {bs : List (Bool × Meth)} {x : SC Meth} {i : Ins Meth} (hx : Piece lvl a b bs x)
    (ht : ∀ d, i.ty (d + b) = some (d + c)) (ok : InsAt lvl i) (h : ∀ c m, i ≠ .pushBlock c m) : Piece lvl a c bs (.seq x (.ins i)) := by
  have := hx.seq (Piece.ins ht ok h)
  rw [List.append_nil] at this
  exact this

theorem globIns_piece (lvl : Nat) (n : Sel) : Piece lvl 0 1 [] (.ins (globIns n)) := by
  refine .ins (fun d => globIns_ty n d) ?_ ?_
  · unfold globIns; repeat' split
    all_goals trivial
  · intro c m
    unfold globIns; repeat' split
    all_goals (intro h; cases h)

mutual
theorem lit_piece (lvl : Nat) : ∀ l : LitT, Piece lvl 0 1 [] (litSC l)
  | .val v => by
    rw [litSC]
    exact .ins (fun d => rfl) trivial (fun _ _ h => nomatch h)
  | .arr es => by
    rw [litSC]
    have h1 : Piece lvl 0 1 [] (.ins (.pushGlobal symArray)) := .ins (fun d => rfl) trivial (fun _ _ h => nomatch h)
    have h2 : Piece lvl 1 2 [] (.ins (.pushConst (.int es.length))) := .ins (fun d => rfl) trivial (fun _ _ h => nomatch h)
    have h3 : Piece lvl 2 1 [] (.ins (.send symNew 2)) :=
      .ins (fun d => by simp only [Ins.ty]; rw [if_pos (by omega)]; congr 1) (by simp only [InsAt]; decide) (fun _ _ h => nomatch h)
    exact h1.seq (h2.seq (h3.seq (lits_piece lvl es 1)))
theorem lits_piece (lvl : Nat) : ∀ (es : LitTs) (i : Nat), Piece lvl 1 1 [] (litsSC es i)
  | .nil, i => by
    rw [litsSC]
    exact ⟨fun d => rfl, trivial, fun i h => (nomatch h), by simp only [SC.ids]; exact List.nil_sublist _⟩
  | .cons e es, i => by
    rw [litsSC]
    have h1 : Piece lvl 1 2 [] (.ins (.pushConst (.int i))) := .ins (fun d => rfl) trivial (fun _ _ h => nomatch h)
    have h3 : Piece lvl 3 1 [] (.ins (.send symAtPut 3)) :=
      .ins (fun d => by simp only [Ins.ty]; rw [if_pos (by omega)]; congr 1) (by simp only [InsAt]; decide) (fun _ _ h => nomatch h)
    exact (h1.seq (((lit_piece lvl e).shift (k := 2)).seq h3)).seq (lits_piece lvl es (i + 1))
end

theorem popIns_piece (lvl : Nat) (t : Tgt) (k : Nat) : Piece lvl (k + 1) k [] (.ins (t.popIns lvl)) := by
  cases t with
  | var s a i l => exact .ins (fun d => by simp only [Tgt.popIns, Ins.ty]; rw [if_pos (by omega)]; congr 1) trivial (fun _ _ h => nomatch h)
  | fld s i => exact .ins (fun d => by simp only [Tgt.popIns, Ins.ty]; rw [if_pos (by omega)]; congr 1) trivial (fun _ _ h => nomatch h)

theorem dups_piece (lvl : Nat) : ∀ k, Piece lvl 1 (k + 1) [] (dupsSC k)
  | 0 => ⟨fun d => rfl, trivial, fun i h => (nomatch h), by simp only [dupsSC, SC.ids]; exact List.nil_sublist _⟩
  | k + 1 => by
    have h1 : Piece lvl 1 2 [] (.ins .dup) := .ins (fun d => by simp only [Ins.ty]; rw [if_pos (by omega)]) trivial (fun _ _ h => nomatch h)
    exact h1.seq ((dups_piece lvl k).shift (k := 1))

theorem pops_piece (lvl : Nat) : ∀ ts : List Tgt, Piece lvl (ts.length + 1) 1 [] (popsSC lvl ts)
  | [] => ⟨fun d => rfl, trivial, fun i h => (nomatch h), by simp only [popsSC, SC.ids]; exact List.nil_sublist _⟩
  | t :: ts => (popIns_piece lvl t (ts.length + 1)).seq (pops_piece lvl ts)

theorem genAsg_piece {lvl : Nat} {t : Tgt} {ts : List Tgt} {e : Ex Meth} {ce : Gen Meth (List Nat)} {bs : List (Bool × Meth)} (h : Piece lvl 0 1 bs ce.1) :
    Piece lvl 0 1 bs (genAsg lvl t ts e ce).1 := by
  unfold genAsg
  split
  · rename_i i _ _
    exact (Piece.ins (i := .incFldPush i lvl) (fun d => rfl) trivial (fun _ _ h => nomatch h)).more (List.nil_sublist _)
  · have := h.seq ((dups_piece lvl (ts.length + 1)).seq (pops_piece lvl (t :: ts)))
    simpa using this

/-! ## Inlined blocks -/

theorem mem_subst {tr : Ins Meth → SC Meth} {j : Ins Meth} : ∀ (c : SC Meth), j ∈ (c.subst tr).instrs → ∃ i ∈ c.instrs, j ∈ (tr i).instrs
  | .nop, h => by cases h
  | .ins i, h => ⟨i, List.mem_singleton.mpr rfl, h⟩
  | .seq a b, h => by
    rcases List.mem_append.mp h with h | h
    · obtain ⟨i, hi, e⟩ := mem_subst a h; exact ⟨i, List.mem_append_left _ hi, e⟩
    · obtain ⟨i, hi, e⟩ := mem_subst b h; exact ⟨i, List.mem_append_right _ hi, e⟩
  | .thenB _ b, h => mem_subst b h
  | .ifElse _ a b, h => by
    rcases List.mem_append.mp h with h | h
    · obtain ⟨i, hi, e⟩ := mem_subst a h; exact ⟨i, List.mem_append_left _ hi, e⟩
    · obtain ⟨i, hi, e⟩ := mem_subst b h; exact ⟨i, List.mem_append_right _ hi, e⟩
  | .loop _ a b, h => by
    rcases List.mem_append.mp h with h | h
    · obtain ⟨i, hi, e⟩ := mem_subst a h; exact ⟨i, List.mem_append_left _ hi, e⟩
    · obtain ⟨i, hi, e⟩ := mem_subst b h; exact ⟨i, List.mem_append_right _ hi, e⟩

theorem subst_sub {tr : Ins Meth → SC Meth} : ∀ (c : SC Meth), (∀ i ∈ c.instrs, (tr i).ids.Sublist i.ids) → (c.subst tr).ids.Sublist c.ids
  | .nop, _ => by simp only [SC.subst, SC.ids]; exact List.nil_sublist _
  | .ins i, h => by simp only [SC.subst, SC.ids]; exact h i (List.mem_singleton.mpr rfl)
  | .seq a b, h => by
    simp only [SC.subst, SC.ids]
    exact (subst_sub a fun i hi => h i (List.mem_append_left _ hi)).append (subst_sub b fun i hi => h i (List.mem_append_right _ hi))
  | .thenB _ b, h => by simp only [SC.subst, SC.ids]; exact subst_sub b h
  | .ifElse _ a b, h => by
    simp only [SC.subst, SC.ids]
    exact (subst_sub a fun i hi => h i (List.mem_append_left _ hi)).append (subst_sub b fun i hi => h i (List.mem_append_right _ hi))
  | .loop _ a b, h => by
    simp only [SC.subst, SC.ids]
    exact (subst_sub a fun i hi => h i (List.mem_append_left _ hi)).append (subst_sub b fun i hi => h i (List.mem_append_right _ hi))

theorem globIns_fine (lvl : Nat) (n : Sel) : globIns n = impossible ∨ Fine lvl (globIns n) := (globIns_piece lvl n).fine _ (List.mem_singleton.mpr rfl)

/-- An instruction of a block at level `lvl + 1` after inlining into a context at level `lvl`. -/
theorem inlIns_piece {n lvl : Nat} {outer : List (List Nat)} {new env locals : List Nat} {i : Ins Meth} (h : Fine (lvl + 1) i) :
    (∀ j ∈ (inlIns (adapt n 1 outer new) lvl env locals i).instrs, j = impossible ∨ Fine lvl j) ∧ (inlIns (adapt n 1 outer new) lvl env locals i).ids.Sublist i.ids := by
  have one : ∀ k : Ins Meth, k = impossible ∨ Fine lvl k → k.ids.Sublist i.ids → (∀ j ∈ (SC.ins k).instrs, j = impossible ∨ Fine lvl j) ∧ (SC.ins k).ids.Sublist i.ids := by
    intro k h1 h2
    exact ⟨fun j hj => by rw [List.mem_singleton.mp hj]; exact h1, by simp only [SC.ids]; exact h2⟩
  have nil : ∀ k : Ins Meth, k = impossible ∨ Fine lvl k → k.ids = [] → (∀ j ∈ (SC.ins k).instrs, j = impossible ∨ Fine lvl j) ∧ (SC.ins k).ids.Sublist i.ids :=
    fun k h1 h2 => one k h1 (by rw [h2]; exact List.nil_sublist _)
  have plain : ∀ k : Ins Meth, InsAt lvl k → (∀ c m, k ≠ .pushBlock c m) → (∀ j ∈ (SC.ins k).instrs, j = impossible ∨ Fine lvl j) ∧ (SC.ins k).ids.Sublist i.ids := by
    intro k h1 h2
    refine nil k (.inr (.other h1 h2)) ?_
    cases k with
    | pushBlock c m => exact absurd rfl (h2 c m)
    | _ => simp only [Ins.ids]
  have hok := h.ok
  cases i with
  | pushVar a i l =>
    cases a
    · cases l <;> exact plain _ trivial (fun _ _ h => nomatch h)
    · exact plain _ trivial (fun _ _ h => nomatch h)
  | popVar a i l =>
    cases a
    · cases l <;> exact plain _ trivial (fun _ _ h => nomatch h)
    · exact plain _ trivial (fun _ _ h => nomatch h)
  | pushFld i l =>
    simp only [InsAt] at hok
    subst hok
    exact plain _ rfl (fun _ _ h => nomatch h)
  | pushBlock c m =>
    cases c
    · exact one _ (.inr ⟨trivial, fun m' e => (nomatch e), fun m' e => by cases e; exact h.closed m rfl⟩) (List.Sublist.refl _)
    · have hs := h.inner m rfl
      simp only [inlIns]
      cases ha : adapt n 1 outer new m with
      | error e =>
        refine one _ (.inl rfl) ?_
        simp only [Ins.ids]
        exact List.nil_sublist _
      | ok m1 =>
        obtain ⟨h1, h2⟩ := adapt_sound n 1 lvl outer new m m1 (Nat.le_refl _) hs ha
        refine one _ (.inr ⟨trivial, fun m' e => ?_, fun m' e => (nomatch e)⟩) ?_
        · cases e; exact h1
        · simp only [Ins.ids, h2]; exact List.Sublist.refl _
  | pushGlobal s =>
    refine nil _ (globIns_fine lvl s) ?_
    unfold globIns; repeat' split
    all_goals simp only [Ins.ids]
  | retLocal =>
    simp only [inlIns, SC.ids]
    exact ⟨fun j hj => (nomatch hj), List.nil_sublist _⟩
  | retNonLocal l =>
    simp only [inlIns]
    split
    · exact plain _ trivial (fun _ _ h => nomatch h)
    · exact plain _ rfl (fun _ _ h => nomatch h)
  | retFld j => exact absurd hok (by simp [InsAt])
  | _ => exact plain _ hok (fun _ _ h => nomatch h)

theorem inlCode_piece {n lvl : Nat} {m : Meth} {env : List Nat} (c : Bool) (h : Good lvl m) : Piece lvl 0 1 [(c, m)] (inlCode n m lvl env) := by
  refine ⟨fun d => inlCode_ty h d, ?_, ?_, ?_⟩
  all_goals
    replace h := h.1
    cases h with
    | bc _ id lits bytes loops args locals stack code enc ty std size small ends ins ids inner closed => ?_
    | triv _ id t ok => ?_
  · simp only [inlCode]
    split
    · exact subst_std code (fun i _ d d' h => inlIns_ty _ _ _ _ i d d' h) (fun i => inlIns_std _ _ _ _ i) std
    · trivial
  · cases t with
    | lit l => cases l <;> exact trivial
    | _ => exact trivial
  · intro j hj
    simp only [inlCode] at hj
    split at hj
    · obtain ⟨i, hi, hj⟩ := mem_subst code hj
      exact (inlIns_piece ⟨ins i hi, fun m e => inner m (e ▸ hi), fun m e => closed m (e ▸ hi)⟩).1 j hj
    · exact .inl (List.mem_singleton.mp hj)
  · intro j hj
    cases t with
    | lit l => cases l with
      | val v => exact (Piece.ins (lvl := lvl) (a := 0) (b := 1) (i := .pushConst v) (fun d => rfl) trivial (fun _ _ h => nomatch h)).fine j hj
      | meth m => cases hj
    | glob s k => exact (globIns_piece lvl s).fine j hj
    | fldRead i l =>
      simp only [TrivOK] at ok
      subst ok
      exact (Piece.ins (lvl := lvl) (a := 0) (b := 1) (i := .pushFld i lvl) (fun d => rfl) rfl (fun _ _ h => nomatch h)).fine j hj
    | fldWrite i l => cases hj
  · simp only [idsOf, List.flatMap_cons, List.flatMap_nil, List.append_nil, Meth.ids, inlCode]
    split
    · refine (subst_sub code fun i hi => ?_).trans (List.sublist_cons_self _ _)
      exact (inlIns_piece ⟨ins i hi, fun m e => inner m (e ▸ hi), fun m e => closed m (e ▸ hi)⟩).2
    · simp only [SC.ids, Ins.ids]; exact List.nil_sublist _
  · have : (inlCode n (.triv id t) lvl env).ids = [] := by
      cases t with
      | lit l => cases l <;> simp only [inlCode, SC.ids, Ins.ids]
      | glob s k =>
        simp only [inlCode, SC.ids]
        unfold globIns; repeat' split
        all_goals simp only [Ins.ids]
      | _ => simp only [inlCode, SC.ids, Ins.ids]
    rw [this]
    exact List.nil_sublist _

/-! ## Expressions -/

/-- The blocks that may occur. -/
structure BlksOK (lvl : Nat) (bs : List (Bool × Meth)) : Prop where
  good : ∀ c m, (c, m) ∈ bs → Good lvl m
  closed : ∀ m, (false, m) ∈ bs → ∀ l, Sound l m

theorem BlksOK.left {lvl : Nat} {a b : List (Bool × Meth)} (h : BlksOK lvl (a ++ b)) : BlksOK lvl a :=
  ⟨fun c m hm => h.good c m (List.mem_append_left _ hm), fun m hm => h.closed m (List.mem_append_left _ hm)⟩

theorem BlksOK.right {lvl : Nat} {a b : List (Bool × Meth)} (h : BlksOK lvl (a ++ b)) : BlksOK lvl b :=
  ⟨fun c m hm => h.good c m (List.mem_append_right _ hm), fun m hm => h.closed m (List.mem_append_right _ hm)⟩

theorem Piece.thenB {lvl : Nat} {k : JCond} {a b : List (Bool × Meth)} {x y : SC Meth} (hx : Piece lvl 0 1 a x) (hy : Piece lvl 0 1 b y) :
    Piece lvl 0 1 (a ++ b) (.seq x (.thenB k y)) where
  ty := fun d => by
    simp only [SC.ty, hx.ty, Option.bind_some]
    rw [if_pos ⟨by omega, by have := hy.ty d; simpa using this⟩]
  std := ⟨hx.std, hy.std⟩
  fine := fun i hi => (List.mem_append.mp hi).elim (hx.fine i) (hy.fine i)
  ids := by simp only [SC.ids, idsOf_append]; exact hx.ids.append hy.ids

theorem Piece.ifElse {lvl : Nat} {k : JCond} {a b : List (Bool × Meth)} {x y : SC Meth} (hx : Piece lvl 0 1 a x) (hy : Piece lvl 0 1 b y) :
    Piece lvl 1 1 (a ++ b) (.ifElse k x y) where
  ty := fun d => by
    have h1 := hx.ty d
    have h2 := hy.ty d
    simp only [Nat.add_zero] at h1 h2
    simp only [SC.ty, Nat.add_sub_cancel, h1, h2]
    rw [if_pos ⟨by omega, trivial⟩]
  std := ⟨hx.ty, hx.std, hy.std⟩
  fine := fun i hi => (List.mem_append.mp hi).elim (hx.fine i) (hy.fine i)
  ids := by simp only [SC.ids, idsOf_append]; exact hx.ids.append hy.ids

theorem Piece.loop {lvl : Nat} {k : JCond} {a b : List (Bool × Meth)} {x y : SC Meth} (hx : Piece lvl 0 1 a x) (hy : Piece lvl 0 0 b y) :
    Piece lvl 0 0 (a ++ b) (.loop k x y) where
  ty := fun d => by
    have h1 := hx.ty d
    have h2 := hy.ty d
    simp only [Nat.add_zero] at h1 h2
    simp only [SC.ty, Nat.add_zero, h1, h2]
    rw [if_pos ⟨trivial, trivial⟩]
  std := ⟨hx.std, hy.std⟩
  fine := fun i hi => (List.mem_append.mp hi).elim (hx.fine i) (hy.fine i)
  ids := by simp only [SC.ids, idsOf_append]; exact hx.ids.append hy.ids

theorem pop_ty {M : Type} (d : Nat) : (Ins.pop : Ins M).ty (d + 1) = some (d + 0) := by simp only [Ins.ty]; rw [if_pos (by omega)]; congr 1

theorem send_ty {M : Type} (s : Sel) (k d : Nat) : (Ins.send s (k + 1) : Ins M).ty (d + (k + 1)) = some (d + 1) := by
  simp only [Ins.ty]; rw [if_pos (by omega)]; congr 1; omega

theorem superSend_ty {M : Type} (s : Sel) (k d : Nat) : (Ins.superSend s (k + 1) : Ins M).ty (d + (k + 1)) = some (d + 1) := by
  simp only [Ins.ty]; rw [if_pos (by omega)]; congr 1; omega

mutual
theorem genEx_piece (n lvl : Nat) : ∀ (e : Ex Meth) (st : Bool × List Nat), e.wf (fun _ => True) → BlksOK lvl e.blks →
    Piece lvl 0 1 e.blks (genEx (inliner n) lvl e st).1
  | .lit l, st, _, _ => by simp only [genEx, Ex.blks]; exact lit_piece lvl l
  | .glob s, st, _, _ => by simp only [genEx, Ex.blks]; exact globIns_piece lvl s
  | .var a i l, st, _, _ => by simp only [genEx, Ex.blks]; exact .ins (fun d => rfl) trivial (fun _ _ h => nomatch h)
  | .fld _ i, st, _, _ => by simp only [genEx, Ex.blks]; exact .ins (fun d => rfl) rfl (fun _ _ h => nomatch h)
  | .blk c m, st, _, hb => by
    simp only [genEx, Ex.blks] at hb ⊢
    refine ⟨fun d => rfl, trivial, fun i hi => ?_, ?_⟩
    · rw [List.mem_singleton.mp hi]
      exact .inr ⟨trivial, fun m' e => by cases e; exact (hb.good _ _ (List.mem_singleton.mpr rfl)).1,
        fun m' e => by cases e; exact hb.closed _ (List.mem_singleton.mpr rfl)⟩
    · simp [SC.ids, Ins.ids, idsOf]
  | .asg t ts e, st, hw, hb => by
    simp only [Ex.wf, Ex.blks, genEx] at hw hb ⊢
    exact genAsg_piece (genEx_piece n lvl e st hw hb)
  | .inc e, st, hw, hb => by
    simp only [Ex.wf, Ex.blks, genEx] at hw hb ⊢
    exact (genEx_piece n lvl e st hw hb).thenIns (fun d => by simp only [Ins.ty]; rw [if_pos (by omega)]) trivial (fun _ _ h => nomatch h)
  | .dec e, st, hw, hb => by
    simp only [Ex.wf, Ex.blks, genEx] at hw hb ⊢
    exact (genEx_piece n lvl e st hw hb).thenIns (fun d => by simp only [Ins.ty]; rw [if_pos (by omega)]) trivial (fun _ _ h => nomatch h)
  | .superSend sel r as, st, hw, hb => by
    simp only [Ex.wf, Ex.blks, genEx] at hw hb ⊢
    have h1 := genEx_piece n lvl r st hw.1 hb.left
    have h2 := (genExs_piece n lvl as (genEx (inliner n) lvl r st).2 hw.2.1 hb.right).shift (k := 1)
    rw [hw.2.2]
    rw [Nat.zero_add] at h2
    exact h1.seq (h2.thenIns (superSend_ty sel _) hw.2.2.symm (fun _ _ h => nomatch h))
  | .send sel r as, st, hw, hb => by
    simp only [Ex.wf, Ex.blks, genEx] at hw hb ⊢
    have h1 := genEx_piece n lvl r st hw.1 hb.left
    have h2 := (genExs_piece n lvl as (genEx (inliner n) lvl r st).2 hw.2.1 hb.right).shift (k := 1)
    cases hin : inlined? sel r as with
    | none =>
      simp only [genSend]
      rw [hw.2.2]
      rw [Nat.zero_add] at h2
      exact h1.seq (h2.thenIns (send_ty sel _) hw.2.2.symm (fun _ _ h => nomatch h))
    | some x =>
      unfold inlined? at hin
      split at hin <;> cases hin
      · simp only [Exs.blks, Ex.blks, List.append_nil] at hb ⊢
        exact h1.thenB (inlCode_piece _ (hb.right.good _ _ (List.mem_singleton.mpr rfl)))
      · simp only [Exs.blks, Ex.blks, List.append_nil] at hb ⊢
        exact h1.seq ((inlCode_piece _ (hb.right.left.good _ _ (List.mem_singleton.mpr rfl))).ifElse
          (inlCode_piece _ (hb.right.right.good _ _ (List.mem_singleton.mpr rfl))))
      · simp only [Exs.blks, Ex.blks, List.append_nil] at hb ⊢
        exact ((inlCode_piece _ (hb.left.good _ _ (List.mem_singleton.mpr rfl))).loop
          ((inlCode_piece _ (hb.right.good _ _ (List.mem_singleton.mpr rfl))).thenIns pop_ty trivial (fun _ _ h => nomatch h))).thenIns
            (fun d => rfl) trivial (fun _ _ h => nomatch h)
      · simp only [Exs.blks, Ex.blks, List.append_nil] at hb ⊢
        have hc : ∀ v, Piece lvl 0 1 [] (.ins (.pushConst v)) := fun v => .ins (fun d => rfl) trivial (fun _ _ h => nomatch h)
        rename_i ctx _ _
        refine h1.seq ?_
        have hp := fun k v env => (inlCode_piece (n := n) (env := env) ctx (hb.right.good _ _ (List.mem_singleton.mpr rfl))).ifElse (k := k) (hc v)
        simp only [List.append_nil] at hp
        exact hp _ _ _
theorem genExs_piece (n lvl : Nat) : ∀ (es : Exs Meth) (st : Bool × List Nat), es.wf (fun _ => True) → BlksOK lvl es.blks →
    Piece lvl 0 es.length es.blks (genExs (inliner n) lvl es st).1
  | .nil, st, _, _ => by
    simp only [genExs, Exs.blks, Exs.length]
    exact ⟨fun d => rfl, trivial, fun i h => (nomatch h), by simp only [SC.ids]; exact List.nil_sublist _⟩
  | .cons e es, st, hw, hb => by
    simp only [Exs.wf, Exs.blks, genExs, Exs.length] at hw hb ⊢
    have h1 := genEx_piece n lvl e st hw.1 hb.left
    have h2 := (genExs_piece n lvl es (genEx (inliner n) lvl e st).2 hw.2 hb.right).shift (k := 1)
    rw [Nat.zero_add] at h2
    exact h1.seq h2
end

/-! ## Bodies -/

theorem genAsgEff_piece {lvl : Nat} {t : Tgt} {e : Ex Meth} {ce : Gen Meth (List Nat)} {bs : List (Bool × Meth)} (h : Piece lvl 0 1 bs ce.1) :
    Piece lvl 0 0 bs (genAsgEff lvl t e ce) := by
  unfold genAsgEff
  split
  · rename_i i _
    exact (Piece.ins (i := .incFld i lvl) (fun d => rfl) trivial (fun _ _ h => nomatch h)).more (List.nil_sublist _)
  · have := h.seq (popIns_piece lvl t 0)
    rw [List.append_nil] at this
    exact this

theorem genStmt_piece {n lvl : Nat} {e : Ex Meth} {st : Bool × List Nat} (hw : e.wf fun _ => True) (hb : BlksOK lvl e.blks) :
    Piece lvl 0 0 e.blks (genStmt (inliner n) lvl e st).1 := by
  unfold genStmt
  dsimp only
  split
  · rename_i c hc
    unfold effOnly at hc
    split at hc
    · split at hc
      · cases hc
        simp only [Ex.wf, Ex.blks] at hw hb ⊢
        exact genAsgEff_piece (genEx_piece n lvl _ st hw hb)
      · cases hc
    · cases hc
  · exact (genEx_piece n lvl e st hw hb).thenIns pop_ty trivial (fun _ _ h => nomatch h)

theorem retLocal_ty {M : Type} (d : Nat) : (Ins.retLocal : Ins M).ty (d + 1) = some (d + 1) := by simp only [Ins.ty]; rw [if_pos (by omega)]

theorem genBody_piece (n lvl : Nat) : ∀ (b : Body Meth) (st : Bool × List Nat), b.wf (fun _ => True) → b.fits true → BlksOK lvl b.blks →
    Piece lvl 0 1 b.blks (genBody (inliner n) true lvl b st)
  | .done, st, _, _, _ => by
    simp only [genBody, if_true, Body.blks]
    exact (Piece.ins (i := .pushConst .nil) (b := 1) (fun d => rfl) trivial (fun _ _ h => nomatch h)).thenIns retLocal_ty trivial (fun _ _ h => nomatch h)
  | .last e, st, hw, _, hb => by
    simp only [genBody, if_true, Body.blks, Body.wf] at hw hb ⊢
    exact (genEx_piece n lvl e st hw hb).thenIns retLocal_ty trivial (fun _ _ h => nomatch h)
  | .exit e, st, hw, _, hb => by
    simp only [genBody, if_true, Body.blks, Body.wf] at hw hb ⊢
    exact (genEx_piece n lvl e st hw hb).thenIns (fun d => by simp only [Ins.ty]; rw [if_pos (by omega)]) rfl (fun _ _ h => nomatch h)
  | .exitSelf, st, _, hf, _ => by simp only [Body.fits] at hf; cases hf
  | .stmt e .done, st, hw, _, hb => by
    simp only [genBody, if_true, Body.blks, Body.wf, List.append_nil] at hw hb ⊢
    exact (genEx_piece n lvl e st hw.1 hb).thenIns retLocal_ty trivial (fun _ _ h => nomatch h)
  | .stmt e (.last e'), st, hw, hf, hb => by
    rw [genBody] <;> try (intro h; cases h)
    rw [Body.blks] at hb ⊢
    rw [Body.wf] at hw
    exact (genStmt_piece hw.1 hb.left).seq (genBody_piece n lvl (.last e') _ hw.2 hf hb.right)
  | .stmt e (.stmt e' r), st, hw, hf, hb => by
    rw [genBody] <;> try (intro h; cases h)
    rw [Body.blks] at hb ⊢
    rw [Body.wf] at hw
    exact (genStmt_piece hw.1 hb.left).seq (genBody_piece n lvl (.stmt e' r) _ hw.2 hf hb.right)
  | .stmt e (.exit e'), st, hw, hf, hb => by
    rw [genBody] <;> try (intro h; cases h)
    rw [Body.blks] at hb ⊢
    rw [Body.wf] at hw
    exact (genStmt_piece hw.1 hb.left).seq (genBody_piece n lvl (.exit e') _ hw.2 hf hb.right)
  | .stmt e .exitSelf, st, _, hf, _ => by simp only [Body.fits] at hf; cases hf

section
variable {M : Type}
mutual
theorem Ex.wf_of {P : M → Prop} : ∀ e : Ex M, e.wf (fun _ => True) → (∀ c m, (c, m) ∈ e.blks → P m) → e.wf P
  | .lit l, h, _ => by simpa only [Ex.wf] using h
  | .glob s, _, _ => by simp only [Ex.wf]
  | .var a i l, _, _ => by simp only [Ex.wf]
  | .fld _ i, _, _ => by simp only [Ex.wf]
  | .blk c m, _, hp => by
    simp only [Ex.wf, Ex.blks] at hp ⊢
    exact hp c m (List.mem_singleton.mpr rfl)
  | .asg t ts e, h, hp => by simp only [Ex.wf, Ex.blks] at h hp ⊢; exact Ex.wf_of e h hp
  | .inc e, h, hp => by simp only [Ex.wf, Ex.blks] at h hp ⊢; exact Ex.wf_of e h hp
  | .dec e, h, hp => by simp only [Ex.wf, Ex.blks] at h hp ⊢; exact Ex.wf_of e h hp
  | .send sel r as, h, hp => by
    simp only [Ex.wf, Ex.blks] at h hp ⊢
    exact ⟨Ex.wf_of r h.1 fun c m hm => hp c m (List.mem_append_left _ hm), Exs.wf_of as h.2.1 fun c m hm => hp c m (List.mem_append_right _ hm), h.2.2⟩
  | .superSend sel r as, h, hp => by
    simp only [Ex.wf, Ex.blks] at h hp ⊢
    exact ⟨Ex.wf_of r h.1 fun c m hm => hp c m (List.mem_append_left _ hm), Exs.wf_of as h.2.1 fun c m hm => hp c m (List.mem_append_right _ hm), h.2.2⟩
theorem Exs.wf_of {P : M → Prop} : ∀ es : Exs M, es.wf (fun _ => True) → (∀ c m, (c, m) ∈ es.blks → P m) → es.wf P
  | .nil, _, _ => by simp only [Exs.wf]
  | .cons e es, h, hp => by
    simp only [Exs.wf, Exs.blks] at h hp ⊢
    exact ⟨Ex.wf_of e h.1 fun c m hm => hp c m (List.mem_append_left _ hm), Exs.wf_of es h.2 fun c m hm => hp c m (List.mem_append_right _ hm)⟩
end

theorem Body.wf_of {P : M → Prop} : ∀ b : Body M, b.wf (fun _ => True) → (∀ c m, (c, m) ∈ b.blks → P m) → b.wf P
  | .done, _, _ => by simp only [Body.wf]
  | .exitSelf, _, _ => by simp only [Body.wf]
  | .last e, h, hp => by simp only [Body.wf, Body.blks] at h hp ⊢; exact e.wf_of h hp
  | .exit e, h, hp => by simp only [Body.wf, Body.blks] at h hp ⊢; exact e.wf_of h hp
  | .stmt e r, h, hp => by
    simp only [Body.wf, Body.blks] at h hp ⊢
    exact ⟨e.wf_of h.1 fun c m hm => hp c m (List.mem_append_left _ hm), r.wf_of h.2 fun c m hm => hp c m (List.mem_append_right _ hm)⟩
end

/-! ## Blocks -/

theorem decodeOp_send {M : Type} {lits : List (Lit M)} {op : Nat} {a b : Option Nat} {s : Sel} {n k : Nat}
    (h : decodeOp lits op a b = some (.ins (.send s k) n)) : 1 ≤ k := by
  have hlt := decodeOp_lt h
  opcases op hx <;>
  (unfold decodeOp at h
   repeat rw [if_neg (by decide)] at h
   first
   | (cases h; done)
   | (rw [if_pos rfl] at h
      simp only [Option.bind_eq_bind, Option.bind_eq_some_iff, Option.some.injEq, Dec.ins.injEq, reduceCtorEq, false_and, exists_const, and_false, exists_false,
        Ins.send.injEq] at h
      done)
   | (rw [if_pos rfl] at h
      simp only [Option.bind_eq_bind, Option.bind_eq_some_iff, Option.some.injEq, Dec.ins.injEq, Ins.send.injEq] at h
      obtain ⟨x, _, y, _, ⟨_, h2⟩, _⟩ := h
      rw [← h2]
      first | decide | (unfold Sym.numberOfSignatureArguments; split <;> omega)))

/-- The instructions of encoded code can be decoded. -/
theorem Enc.decodes {M : Type} {lits : List (Lit M)} {c : SC M} {bs : List Nat} (h : Enc lits c bs) : ∀ i ∈ c.instrs, ∃ b, Is lits (.ins i b.length) b := by
  induction h with
  | nop => intro i hi; cases hi
  | ins j bs h => intro i hi; rw [List.mem_singleton.mp hi]; exact ⟨bs, h⟩
  | seq a b ba bb _ _ iha ihb => intro i hi; exact (List.mem_append.mp hi).elim (iha i) (ihb i)
  | thenB c body j bb hj _ ih => exact ih
  | ifElse c a b j ba k bb _ _ _ _ iha ihb => intro i hi; exact (List.mem_append.mp hi).elim (iha i) (ihb i)
  | loop c cond body bc j bb k _ _ _ _ iha ihb => intro i hi; exact (List.mem_append.mp hi).elim (iha i) (ihb i)

theorem Enc.possible {lits : List (Lit Meth)} {c : SC Meth} {bs : List Nat} (h : Enc lits c bs) : impossible ∉ c.instrs := by
  intro hi
  obtain ⟨b, hb⟩ := h.decodes _ hi
  have := hb []
  rw [List.append_nil] at this
  cases b with
  | nil => cases this
  | cons op r =>
    have := decodeOp_send (show decodeOp lits op r[0]? r[1]? = _ from this)
    omega


theorem triv_ok {lvl : Nat} {b : Body Meth} {t : Triv Meth} (h : b.triv true (lvl + 1) = some t) : TrivOK lvl t := by
  have value : ∀ e : Ex Meth, e.triv (lvl + 1) = some t → TrivOK lvl t := by
    intro e h
    cases e with
    | lit l => cases l with
      | val v => cases h; trivial
      | arr es => cases h
    | glob n =>
      simp only [Ex.triv, Option.some.injEq] at h
      subst h
      repeat' split
      all_goals trivial
    | fld s i => cases h; rfl
    | _ => cases h
  cases b with
  | done => cases h; trivial
  | last e => exact value e h
  | exit e => cases h
  | stmt e r => cases r <;> cases h
  | exitSelf => cases h

theorem compileBlock_good {n lvl id : Nat} {args env : List Nat} {b : Body Meth} {m : Meth} (wf : b.wf fun _ => True) (fits : b.fits true)
    (ids : (idsOf b.blks).Nodup) (ok : BlksOK (lvl + 1) b.blks) (h : compileBlock n lvl id args env b = .ok m) : Good lvl m := by
  have hw : b.wf ((inliner n).good (lvl + 1)) := b.wf_of wf ok.good
  obtain ⟨g, hg, h⟩ := except_bind_ok h
  have hlv : true = true ↔ 1 ≤ lvl + 1 := by simp
  have hI := inliner_ok n
  have ht := C35_recognised hI hw fits hlv hg
  rw [ht] at h
  replace h : (match b.triv true (lvl + 1) with
    | some t => Except.ok (Meth.triv id t)
    | none => do
      let C ← assemble g
      .ok (Meth.bc id C.lits C.bytes g.loops args g.env C.max (genBody (inliner n) true (lvl + 1) b (false, env)))) = .ok m := h
  cases hb : b.triv true (lvl + 1) with
  | some t =>
    rw [hb] at h
    cases h
    exact ⟨.triv _ _ _ (triv_ok hb), trivial⟩
  | none =>
    rw [hb] at h
    obtain ⟨C, hC, h⟩ := except_bind_ok h
    cases h
    have hp := genBody_piece n (lvl + 1) b (false, env) wf fits ok
    have hf : ∀ i ∈ (genBody (inliner n) true (lvl + 1) b (false, env)).instrs, Fine (lvl + 1) i := fun i hi =>
      (hp.fine i hi).resolve_left fun e => (compile_ok hI hw hlv hg).1.possible (e ▸ hi)
    have hC' : C.lits = g.lits ∧ C.bytes = g.bytes := by
      unfold assemble at hC
      split at hC
      · cases hC; exact ⟨rfl, rfl⟩
      · cases hC
    rw [hC'.1, hC'.2]
    refine ⟨.bc _ _ _ _ _ _ _ _ _ (compile_ok hI hw hlv hg).1 (fun d => hp.ty d) hp.std ?_ (assemble_ok hC).1 (genBody_endsRet _ _ _ _ _) (fun i hi => (hf i hi).ok) (ids.sublist hp.ids)
      (fun m hm => (hf _ hm).inner m rfl) (fun m hm => (hf _ hm).closed m rfl), ?_⟩
    · obtain ⟨_, d, _, hx⟩ := compile_ok hI hw hlv hg
      obtain ⟨_, rfl⟩ := assemble_ok hC
      show _ ≤ (g.maxDepth + 2 + 2).toNat
      omega
    · exact compile_loops hI hw hlv hg

/-- **Blocks the compiler produces may be inlined.** -/
theorem Compiled.good {n lvl : Nat} {m : Meth} (h : Compiled n lvl m) : Good lvl m := by
  induction h with
  | mk lvl id args env b m wf fits ids inner closed h ih =>
    exact compileBlock_good wf fits ids ⟨ih, fun m hm => (closed m hm).sound _ (ih _ _ hm).1⟩ h

end PySOM.BC

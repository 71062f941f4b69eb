import Verif.Lemmas.Ext
import Verif.Spec.GenCode
/-!
# The emitting functions
-/
set_option autoImplicit false
namespace PySOM.BC
open PySOM

section
variable {M X : Type}

theorem emit1_bytes (g : G M X) (op : Nat) (k : Int) : (emit1 g op k).bytes = g.bytes ++ [op] := rfl
theorem emit2_bytes (g : G M X) (op i : Nat) (k : Int) : (emit2 g op i k).bytes = g.bytes ++ [op, i] := by simp [emit2, addArg, addBytecode]
theorem emit3_bytes (g : G M X) (op i j : Nat) (k : Int) : (emit3 g op i j k).bytes = g.bytes ++ [op, i, j] := by simp [emit3, addArg, addBytecode]

theorem ext1 (g : G M X) {op : Nat} {i : Ins M} {m : Nat} {k : Int} (hi : Is g.lits (.ins i 1) [op])
    (ht : ∀ d : Nat, m ≤ d → ∃ d' : Nat, i.ty d = some d' ∧ (d' : Int) = d + k) : Ext g (emit1 g op k) (.ins i) m k :=
  Ext.emit (List.prefix_refl _) (emit1_bytes g op k) rfl rfl rfl hi ht

theorem ext2 (g : G M X) {op x : Nat} {i : Ins M} {m : Nat} {k : Int} (hi : Is g.lits (.ins i 2) [op, x])
    (ht : ∀ d : Nat, m ≤ d → ∃ d' : Nat, i.ty d = some d' ∧ (d' : Int) = d + k) : Ext g (emit2 g op x k) (.ins i) m k :=
  Ext.emit (List.prefix_refl _) (emit2_bytes g op x k) rfl rfl rfl hi ht

theorem ext3 (g : G M X) {op x y : Nat} {i : Ins M} {m : Nat} {k : Int} (hi : Is g.lits (.ins i 3) [op, x, y])
    (ht : ∀ d : Nat, m ≤ d → ∃ d' : Nat, i.ty d = some d' ∧ (d' : Int) = d + k) : Ext g (emit3 g op x y k) (.ins i) m k :=
  Ext.emit (List.prefix_refl _) (emit3_bytes g op x y k) rfl rfl rfl hi ht

/-- The fields code emission does not touch. -/
def Keep (g g' : G M X) : Prop := g'.inl = g.inl ∧ g'.env = g.env

theorem Keep.refl (g : G M X) : Keep g g := ⟨rfl, rfl⟩
theorem Keep.trans {a b c : G M X} (h1 : Keep a b) (h2 : Keep b c) : Keep a c := ⟨h2.1.trans h1.1, h2.2.trans h1.2⟩
theorem keep1 (g : G M X) (op : Nat) (k : Int) : Keep g (emit1 g op k) := ⟨rfl, rfl⟩
theorem keep2 (g : G M X) (op x : Nat) (k : Int) : Keep g (emit2 g op x k) := ⟨rfl, rfl⟩
theorem keep3 (g : G M X) (op x y : Nat) (k : Int) : Keep g (emit3 g op x y k) := ⟨rfl, rfl⟩
theorem keepLit (g : G M X) (l : Lit M) : Keep g (addLiteralIfAbsent g l).2 := by
  obtain ⟨_, _, h⟩ := addLit_spec g l
  rw [h]; exact ⟨rfl, rfl⟩

/-! Depth side conditions. -/

theorem ty_push {i : Ins M} (h : ∀ d, i.ty d = some (d + 1)) : ∀ d : Nat, 0 ≤ d → ∃ d' : Nat, i.ty d = some d' ∧ (d' : Int) = d + 1 :=
  fun d _ => ⟨d + 1, h d, by omega⟩

theorem ty_pop {i : Ins M} (h : ∀ d, i.ty d = if 1 ≤ d then some (d - 1) else none) :
    ∀ d : Nat, 1 ≤ d → ∃ d' : Nat, i.ty d = some d' ∧ (d' : Int) = d + (-1) :=
  fun d hd => ⟨d - 1, by rw [h d, if_pos hd], by omega⟩

theorem ty_same {i : Ins M} (h : ∀ d, i.ty d = if 1 ≤ d then some d else none) :
    ∀ d : Nat, 1 ≤ d → ∃ d' : Nat, i.ty d = some d' ∧ (d' : Int) = d + 0 :=
  fun d hd => ⟨d, by rw [h d, if_pos hd], by omega⟩

theorem ty_send {i : Ins M} {n : Nat} (h : ∀ d, i.ty d = if n ≤ d then some (d - n + 1) else none) :
    ∀ d : Nat, n ≤ d → ∃ d' : Nat, i.ty d = some d' ∧ (d' : Int) = d + (-(n : Int) + 1) :=
  fun d hd => ⟨d - n + 1, by rw [h d, if_pos hd], by omega⟩

/-! ## Instruction by instruction -/

theorem ext_dup (g : G M X) : Ext g (emit1 g Op.dup 1) (.ins .dup) 1 1 :=
  ext1 g (fun _ => rfl) (fun d hd => ⟨d + 1, by simp [Ins.ty, hd], by omega⟩)

theorem ext_pop (g : G M X) : Ext g (emit1 g Op.pop (-1)) (.ins .pop) 1 (-1) := ext1 g (fun _ => rfl) (ty_pop fun _ => rfl)

theorem ext_inc (g : G M X) : Ext g (emit1 g Op.inc 0) (.ins .inc) 1 0 := ext1 g (fun _ => rfl) (ty_same fun _ => rfl)
theorem ext_dec (g : G M X) : Ext g (emit1 g Op.dec 0) (.ins .dec) 1 0 := ext1 g (fun _ => rfl) (ty_same fun _ => rfl)

theorem ext_returnLocal (g : G M X) : Ext g (emit1 g Op.returnLocal 0) (.ins .retLocal) 1 0 := ext1 g (fun _ => rfl) (ty_same fun _ => rfl)
theorem ext_returnSelf (g : G M X) : Ext g (emit1 g Op.returnSelf 0) (.ins .retSelf) 0 0 :=
  ext1 g (fun _ => rfl) (fun d _ => ⟨d, rfl, by omega⟩)
theorem ext_returnNonLocal (g : G M X) : Ext g (emitReturnNonLocal g) (.ins (.retNonLocal g.lvl)) 1 0 := ext2 g (fun _ => rfl) (ty_same fun _ => rfl)

theorem ext_pushVar (g : G M X) (a : Bool) (i l : Nat) : Ext g (emitPushVar g a i l) (.ins (.pushVar a i l)) 0 1 := by
  cases a <;> exact ext3 g (fun _ => rfl) (ty_push fun _ => rfl)
theorem ext_popVar (g : G M X) (a : Bool) (i l : Nat) : Ext g (emitPopVar g a i l) (.ins (.popVar a i l)) 1 (-1) := by
  cases a <;> exact ext3 g (fun _ => rfl) (ty_pop fun _ => rfl)

theorem ext_pushField (g : G M X) (i : Nat) : Ext g (emitPushField g i g.lvl) (.ins (.pushFld i g.lvl)) 0 1 := by
  unfold emitPushField
  split
  · rename_i h; rw [h.1, h.2]; exact ext1 g (fun _ => rfl) (ty_push fun _ => rfl)
  · split
    · rename_i h; rw [h.1, h.2]; exact ext1 g (fun _ => rfl) (ty_push fun _ => rfl)
    · exact ext3 g (fun _ => rfl) (ty_push fun _ => rfl)

theorem keep_pushField (g : G M X) (i l : Nat) : Keep g (emitPushField g i l) := by
  unfold emitPushField
  repeat' split
  all_goals exact ⟨rfl, rfl⟩

theorem ext_popFieldWithIndex (g : G M X) (i l : Nat) : Ext g (emitPopFieldWithIndex g i l) (.ins (.popFld i l)) 1 (-1) := by
  unfold emitPopFieldWithIndex
  split
  · rename_i h; rw [h.1, h.2]; exact ext1 g (fun _ => rfl) (ty_pop fun _ => rfl)
  · split
    · rename_i h; rw [h.1, h.2]; exact ext1 g (fun _ => rfl) (ty_pop fun _ => rfl)
    · exact ext3 g (fun _ => rfl) (ty_pop fun _ => rfl)

theorem keep_popFieldWithIndex (g : G M X) (i l : Nat) : Keep g (emitPopFieldWithIndex g i l) := by
  unfold emitPopFieldWithIndex
  repeat' split
  all_goals exact ⟨rfl, rfl⟩

theorem constVal_of {lits : List (Lit M)} {i : Nat} {v : Val} (h : lits[i]? = some (.val v)) : constVal lits i = some v := by
  simp [constVal, h]
theorem constSym_of {lits : List (Lit M)} {i : Nat} {v : Sel} (h : lits[i]? = some (.val (.sym v))) : constSym lits i = some v := by
  simp [constSym, h]
theorem constMeth_of {lits : List (Lit M)} {i : Nat} {m : M} (h : lits[i]? = some (.meth m)) : constMeth lits i = some m := by
  simp [constMeth, h]

theorem is_const {lits : List (Lit M)} {i : Nat} {v : Val} (h : lits[i]? = some (.val v)) : Is lits (.ins (.pushConst v) 2) [Op.pushConstant, i] := by
  intro rest
  show (do some (Dec.ins (.pushConst (← constVal lits i)) 2)) = _
  rw [constVal_of h]; rfl

theorem ext_pushConstIdx (g : G M X) (i : Nat) (v : Val) (h : g.lits[i]? = some (.val v)) :
    Ext g (emit2 g Op.pushConstant i 1) (.ins (.pushConst v)) 0 1 := ext2 g (is_const h) (ty_push fun _ => rfl)

theorem ext_pushConstant (g : G M X) (v : Val) : Ext g (emitPushConstant g v) (.ins (.pushConst v)) 0 1 := by
  unfold emitPushConstant
  split
  · rename_i h; rw [h]; exact ext1 g (fun _ => rfl) (ty_push fun _ => rfl)
  · split
    · rename_i h; rw [h]; exact ext1 g (fun _ => rfl) (ty_push fun _ => rfl)
    · split
      · rename_i h; rw [h]; exact ext1 g (fun _ => rfl) (ty_push fun _ => rfl)
      · obtain ⟨_, hget, _⟩ := addLit_spec g (.val v)
        have hext := addLit_ext g (.val v)
        generalize addLiteralIfAbsent g (.val v) = r at hget hext ⊢
        obtain ⟨i, g1⟩ := r
        dsimp only at hget hext ⊢
        refine hext.nopThen ?_
        have hc := constVal_of hget
        split
        · rename_i hi
          refine ext1 g1 (fun _ => ?_) (ty_push fun _ => rfl)
          rw [hi] at hc
          show (do some (Dec.ins (.pushConst (← constVal g1.lits 0)) 1)) = _
          rw [hc]; rfl
        · split
          · rename_i hi
            refine ext1 g1 (fun _ => ?_) (ty_push fun _ => rfl)
            rw [hi] at hc
            show (do some (Dec.ins (.pushConst (← constVal g1.lits 1)) 1)) = _
            rw [hc]; rfl
          · split
            · rename_i hi
              refine ext1 g1 (fun _ => ?_) (ty_push fun _ => rfl)
              rw [hi] at hc
              show (do some (Dec.ins (.pushConst (← constVal g1.lits 2)) 1)) = _
              rw [hc]; rfl
            · exact ext_pushConstIdx g1 i v hget

theorem keep_pushConstant (g : G M X) (v : Val) : Keep g (emitPushConstant g v) := by
  unfold emitPushConstant
  have hk := keepLit g (.val v)
  generalize addLiteralIfAbsent g (.val v) = r at hk ⊢
  obtain ⟨i, g1⟩ := r
  dsimp only at hk ⊢
  repeat' split
  all_goals first
    | exact ⟨rfl, rfl⟩
    | exact hk.trans ⟨rfl, rfl⟩

theorem ext_pushGlobal (g : G M X) (n : Sel) : Ext g (emitPushGlobal g n) (.ins (globIns n)) 0 1 := by
  unfold emitPushGlobal globIns
  split
  · exact ext_pushConstant g _
  · split
    · exact ext_pushConstant g _
    · split
      · exact ext_pushConstant g _
      · obtain ⟨_, hget, _⟩ := addLit_spec g (.val (.sym n))
        have hext := addLit_ext g (.val (.sym n))
        generalize addLiteralIfAbsent g (.val (.sym n)) = r at hget hext ⊢
        obtain ⟨i, g1⟩ := r
        dsimp only at hget hext ⊢
        refine hext.nopThen (ext2 g1 (fun _ => ?_) (ty_push fun _ => rfl))
        show (do some (Dec.ins (.pushGlobal (← constSym g1.lits i)) 2)) = _
        rw [constSym_of hget]; rfl

theorem keep_pushGlobal (g : G M X) (n : Sel) : Keep g (emitPushGlobal g n) := by
  unfold emitPushGlobal
  have hk := keepLit g (.val (.sym n))
  generalize addLiteralIfAbsent g (.val (.sym n)) = r at hk ⊢
  obtain ⟨i, g1⟩ := r
  dsimp only at hk ⊢
  repeat' split
  all_goals first
    | exact keep_pushConstant g _
    | exact hk.trans ⟨rfl, rfl⟩

theorem ext_pushBlock (g : G M X) (m : M) (c : Bool) : Ext g (emitPushBlock g m c) (.ins (.pushBlock c m)) 0 1 := by
  unfold emitPushBlock
  obtain ⟨_, hget, _⟩ := addLit_spec g (.meth m)
  have hext := addLit_ext g (.meth m)
  generalize addLiteralIfAbsent g (.meth m) = r at hget hext ⊢
  obtain ⟨i, g1⟩ := r
  dsimp only at hget hext ⊢
  refine hext.nopThen ?_
  cases c
  · refine ext2 g1 (fun _ => ?_) (ty_push fun _ => rfl)
    show (do some (Dec.ins (.pushBlock false (← constMeth g1.lits i)) 2)) = _
    rw [constMeth_of hget]; rfl
  · refine ext2 g1 (fun _ => ?_) (ty_push fun _ => rfl)
    show (do some (Dec.ins (.pushBlock true (← constMeth g1.lits i)) 2)) = _
    rw [constMeth_of hget]; rfl

theorem keep_pushBlock (g : G M X) (m : M) (c : Bool) : Keep g (emitPushBlock g m c) := (keepLit g _).trans (keep2 _ _ _ _)

theorem ext_superSend (g : G M X) (sel : Sel) :
    Ext g (emitSuperSend g sel) (.ins (.superSend sel (Sym.numberOfSignatureArguments sel))) (Sym.numberOfSignatureArguments sel)
      (-(Sym.numberOfSignatureArguments sel : Int) + 1) := by
  unfold emitSuperSend
  obtain ⟨_, hget, _⟩ := addLit_spec g (.val (.sym sel))
  have hext := addLit_ext g (.val (.sym sel))
  generalize addLiteralIfAbsent g (.val (.sym sel)) = r at hget hext ⊢
  obtain ⟨i, g1⟩ := r
  dsimp only at hget hext ⊢
  refine hext.nopThen (ext2 g1 (fun _ => ?_) (ty_send fun _ => rfl))
  show (do let s ← constSym g1.lits i; some (Dec.ins (.superSend s (Sym.numberOfSignatureArguments s)) 2)) = _
  rw [constSym_of hget]; rfl

theorem keep_superSend (g : G M X) (sel : Sel) : Keep g (emitSuperSend g sel) := (keepLit g _).trans (keep2 _ _ _ _)

theorem ext_send (g : G M X) (sel : Sel) :
    Ext g (emitSend g sel) (.ins (.send sel (Sym.numberOfSignatureArguments sel))) (Sym.numberOfSignatureArguments sel)
      (-(Sym.numberOfSignatureArguments sel : Int) + 1) := by
  unfold emitSend
  obtain ⟨_, hget, _⟩ := addLit_spec g (.val (.sym sel))
  have hext := addLit_ext g (.val (.sym sel))
  generalize addLiteralIfAbsent g (.val (.sym sel)) = r at hget hext ⊢
  obtain ⟨i, g1⟩ := r
  dsimp only at hget hext ⊢
  refine hext.nopThen (ext2 g1 (fun _ => ?_) (ty_send fun _ => rfl))
  have hc := constSym_of hget
  split
  · rename_i hn
    rw [hn]
    show (do some (Dec.ins (.send (← constSym g1.lits i) 1) 2)) = _
    rw [hc]; rfl
  · split
    · rename_i hn
      rw [hn]
      show (do some (Dec.ins (.send (← constSym g1.lits i) 2) 2)) = _
      rw [hc]; rfl
    · split
      · rename_i hn
        rw [hn]
        show (do some (Dec.ins (.send (← constSym g1.lits i) 3) 2)) = _
        rw [hc]; rfl
      · show (do let s ← constSym g1.lits i; some (Dec.ins (.send s (Sym.numberOfSignatureArguments s)) 2)) = _
        rw [hc]; rfl

theorem keep_send (g : G M X) (sel : Sel) : Keep g (emitSend g sel) := (keepLit g _).trans (keep2 _ _ _ _)

theorem ext_incFieldPush (g : G M X) (i l : Nat) : Ext g (emitIncFieldPush g i l) (.ins (.incFldPush i l)) 0 1 :=
  ext3 g (fun _ => rfl) (ty_push fun _ => rfl)

/-! ## Literals, also literal arrays -/

/-- With another literal in place of the one at index `k`. -/
def upd (k n : Nat) (g : G M X) : G M X := { g with lits := g.lits.set k (.val (.int n)) }

def HasPh (k : Nat) (g : G M X) : Prop := g.lits[k]? = some (.val (.sym symPlaceholder))

theorem findIdx?_set {α : Type} (p : α → Bool) (x y : α) (hx : p x = false) (hy : p y = false) :
    ∀ (l : List α) (k : Nat), l[k]? = some x → (l.set k y).findIdx? p = l.findIdx? p
  | [], _, h => by simp at h
  | a :: l, 0, h => by
    simp at h; subst h
    simp [List.findIdx?_cons, hx, hy]
  | a :: l, k + 1, h => by
    simp at h
    simp only [List.set_cons_succ, List.findIdx?_cons]
    rw [findIdx?_set p x y hx hy l k h]

theorem addLit_upd {k n : Nat} {g : G M X} (hk : HasPh k g) (l : Lit M) (hl : l ≠ .val (.sym symPlaceholder)) :
    addLiteralIfAbsent (upd k n g) l = ((addLiteralIfAbsent g l).1, upd k n (addLiteralIfAbsent g l).2) ∧
    HasPh k (addLiteralIfAbsent g l).2 := by
  have hx : sameLit l (.val (.sym symPlaceholder)) = false := by
    cases hs : sameLit l (.val (.sym symPlaceholder)) with
    | false => rfl
    | true => exact absurd (sameLit_eq hs).symm hl
  have hy : sameLit l (.val (.int n)) = false := by
    cases hs : sameLit l (.val (.int n)) with
    | false => rfl
    | true =>
      have := (sameLit_eq hs).symm
      subst this
      simp [sameLit] at hs
  have hf : (upd k n g).lits.findIdx? (sameLit l) = g.lits.findIdx? (sameLit l) := findIdx?_set _ _ _ hx hy _ _ hk
  unfold addLiteralIfAbsent
  rw [hf]
  cases g.lits.findIdx? (sameLit l) with
  | some i => exact ⟨rfl, hk⟩
  | none =>
    have hlt : k < g.lits.length := (List.getElem?_eq_some_iff.mp hk).1
    refine ⟨?_, ?_⟩
    · simp [upd, List.set_append, hlt]
    · show (g.lits ++ [l])[k]? = _
      rw [List.getElem?_append_left hlt]; exact hk

theorem emitPushConstant_upd {k n : Nat} {g : G M X} (hk : HasPh k g) (v : Val) (hv : v ≠ .sym symPlaceholder) :
    emitPushConstant (upd k n g) v = upd k n (emitPushConstant g v) ∧ HasPh k (emitPushConstant g v) := by
  unfold emitPushConstant
  split
  · exact ⟨rfl, hk⟩
  · split
    · exact ⟨rfl, hk⟩
    · split
      · exact ⟨rfl, hk⟩
      · obtain ⟨h1, h2⟩ := addLit_upd (n := n) hk (.val v) (by intro h; cases h; exact hv rfl)
        rw [h1]
        generalize addLiteralIfAbsent g (.val v) = r at h2 ⊢
        obtain ⟨i, g1⟩ := r
        dsimp only at h2 ⊢
        split
        · exact ⟨rfl, h2⟩
        · split
          · exact ⟨rfl, h2⟩
          · split
            · exact ⟨rfl, h2⟩
            · exact ⟨rfl, h2⟩

theorem emitSend_upd {k n : Nat} {g : G M X} (hk : HasPh k g) (s : Sel) (hs : s ≠ symPlaceholder) :
    emitSend (upd k n g) s = upd k n (emitSend g s) ∧ HasPh k (emitSend g s) := by
  obtain ⟨h1, h2⟩ := addLit_upd (n := n) hk (.val (.sym s)) (by intro h; cases h; exact hs rfl)
  unfold emitSend
  rw [h1]
  exact ⟨rfl, h2⟩

theorem emitPushGlobalArray_upd {k n : Nat} {g : G M X} (hk : HasPh k g) :
    emitPushGlobal (upd k n g) symArray = upd k n (emitPushGlobal g symArray) ∧ HasPh k (emitPushGlobal g symArray) := by
  obtain ⟨h1, h2⟩ := addLit_upd (n := n) hk (.val (.sym symArray))
    (by intro h; injection h with h; injection h with h; exact absurd h (by decide))
  have e : ∀ h : G M X, emitPushGlobal h symArray = emit2 (addLiteralIfAbsent h (.val (.sym symArray))).2 Op.pushGlobal (addLiteralIfAbsent h (.val (.sym symArray))).1 1 :=
    fun _ => rfl
  rw [e, e, h1]
  exact ⟨rfl, h2⟩

theorem updateLiteral_upd {k j n i : Nat} {g g' : G M X} (hk : HasPh k g) (hkj : k ≠ j)
    (h : updateLiteral g (.val (.sym symPlaceholder)) j (.val (.int i)) = .ok g') :
    updateLiteral (upd k n g) (.val (.sym symPlaceholder)) j (.val (.int i)) = .ok (upd k n g') ∧ HasPh k g' := by
  unfold updateLiteral at h ⊢
  have hget : (upd k n g).lits[j]? = g.lits[j]? := by simp [upd, hkj]
  rw [hget]
  split at h
  · cases h
  · split at h
    · cases h
      refine ⟨?_, ?_⟩
      · rename_i hs
        rw [if_pos hs]
        simp [upd, List.set_comm _ _ hkj]
      · show (g.lits.set j _)[k]? = _
        rw [List.getElem?_set_ne (Ne.symm hkj)]; exact hk
    · cases h

theorem addLit_len (g : G M X) (l : Lit M) : g.lits.length ≤ (addLiteralIfAbsent g l).2.lits.length := (addLit_spec g l).1.length_le

mutual
theorem cLit_upd (l : LitT) : ∀ (g g' : G M X) (k n : Nat), HasPh k g → l.noPh = true → cLit l g = .ok g' →
    cLit l (upd k n g) = .ok (upd k n g') ∧ HasPh k g' := by
  cases l with
  | val v =>
    intro g g' k n hk hn h
    simp only [cLit] at h ⊢
    cases h
    obtain ⟨h1, h2⟩ := emitPushConstant_upd (n := n) hk v (by simpa [LitT.noPh] using hn)
    exact ⟨by rw [h1], h2⟩
  | arr es =>
    intro g g' k n hk hn h
    simp only [cLit, addLiteral, bind, Except.bind] at h ⊢
    have hlt : k < g.lits.length := (List.getElem?_eq_some_iff.mp hk).1
    have hlen : (upd k n g).lits.length = g.lits.length := by simp [upd]
    rw [hlen]
    by_cases hlim : g.lits.length < 128
    · simp only [hlim, if_true] at h ⊢
      have hset : ({ upd k n g with lits := (upd k n g).lits ++ [Lit.val (Val.sym symPlaceholder)] } : G M X) =
          upd k n { g with lits := g.lits ++ [Lit.val (Val.sym symPlaceholder)] } := by
        simp [upd, hlt]
      have hk1 : HasPh k ({ g with lits := g.lits ++ [Lit.val (Val.sym symPlaceholder)] } : G M X) := by
        show (g.lits ++ _)[k]? = _
        rw [List.getElem?_append_left hlt]; exact hk
      obtain ⟨e1, hk2⟩ := emitPushGlobalArray_upd (n := n) hk1
      have e2 : ∀ h : G M X, emit2 (upd k n h) Op.pushConstant g.lits.length 1 = upd k n (emit2 h Op.pushConstant g.lits.length 1) := fun _ => rfl
      have hk3 : HasPh k (emit2 (emitPushGlobal ({ g with lits := g.lits ++ [Lit.val (Val.sym symPlaceholder)] } : G M X) symArray) Op.pushConstant g.lits.length 1) := hk2
      obtain ⟨e3, hk4⟩ := emitSend_upd (n := n) hk3 symNew (by decide)
      rw [hset, e1, e2, e3]
      split at h
      · cases h
      · rename_i g1 hg1
        obtain ⟨e4, hk5⟩ := cLits_upd es 1 _ g1 k n hk4 (by simpa [LitT.noPh] using hn) hg1
        rw [e4]
        exact updateLiteral_upd hk5 (by omega) h
    · simp only [hlim, if_false] at h
      cases h
theorem cLits_upd (es : LitTs) : ∀ (i : Nat) (g g' : G M X) (k n : Nat), HasPh k g → es.noPh = true → cLits es i g = .ok g' →
    cLits es i (upd k n g) = .ok (upd k n g') ∧ HasPh k g' := by
  cases es with
  | nil =>
    intro i g g' k n hk hn h
    simp only [cLits] at h ⊢
    cases h
    exact ⟨rfl, hk⟩
  | cons e es =>
    intro i g g' k n hk hn h
    simp only [cLits, bind, Except.bind] at h ⊢
    simp only [LitTs.noPh, Bool.and_eq_true] at hn
    obtain ⟨e1, hk1⟩ := emitPushConstant_upd (n := n) hk (.int i) (by simp)
    rw [e1]
    split at h
    · cases h
    · rename_i g1 hg1
      obtain ⟨e2, hk2⟩ := cLit_upd e _ g1 k n hk1 hn.1 hg1
      rw [e2]
      obtain ⟨e3, hk3⟩ := emitSend_upd (n := n) hk2 symAtPut (by decide)
      dsimp only
      rw [e3]
      exact cLits_upd es (i + 1) _ g' k n hk3 hn.2 h
end

theorem nargs_new : Sym.numberOfSignatureArguments symNew = 2 := by decide
theorem nargs_atPut : Sym.numberOfSignatureArguments symAtPut = 3 := by decide

theorem LitT.ok_of_noPh {l : LitT} (h : l.noPh = true) : l.ok = true := by
  cases l with
  | val v => rfl
  | arr es => exact h

mutual
theorem cLit_ext (l : LitT) : ∀ (g g' : G M X), l.ok = true → cLit l g = .ok g' → Ext g g' (litSC l) 0 1 ∧ Keep g g' := by
  cases l with
  | val v =>
    intro g g' hn h
    simp only [cLit] at h
    cases h
    exact ⟨ext_pushConstant g v, keep_pushConstant g v⟩
  | arr es =>
    intro g g' hn h
    simp only [cLit, addLiteral, bind, Except.bind] at h
    by_cases hlim : g.lits.length < 128
    · simp only [hlim, if_true] at h
      generalize hg0 : ({ g with lits := g.lits ++ [Lit.val (Val.sym symPlaceholder)] } : G M X) = g0 at h
      have hk0 : HasPh g.lits.length g0 := by rw [← hg0]; simp [HasPh]
      split at h
      · cases h
      · rename_i g1 hg1
        obtain ⟨e1, hk1⟩ := emitPushGlobalArray_upd (n := es.length) hk0
        have e2 : ∀ h : G M X, emit2 (upd g.lits.length es.length h) Op.pushConstant g.lits.length 1 =
          upd g.lits.length es.length (emit2 h Op.pushConstant g.lits.length 1) := fun _ => rfl
        have hk2 : HasPh g.lits.length (emit2 (emitPushGlobal g0 symArray) Op.pushConstant g.lits.length 1) := hk1
        obtain ⟨e3, hk3⟩ := emitSend_upd (n := es.length) hk2 symNew (by decide)
        obtain ⟨e4, hk4⟩ := cLits_upd es 1 _ g1 g.lits.length es.length hk3 hn hg1
        have hg' : g' = upd g.lits.length es.length g1 := by
          unfold updateLiteral at h
          rw [hk4] at h
          simp only [sameLit, decide_true, if_true] at h
          cases h; rfl
        rw [← e3, ← e2, ← e1, ← hg'] at e4
        have hu : upd g.lits.length es.length g0 = { g with lits := g.lits ++ [.val (.int es.length)] } := by
          rw [← hg0]; simp [upd]
        rw [hu] at e4
        generalize hgu : ({ g with lits := g.lits ++ [.val (.int es.length)] } : G M X) = gu at e4
        have x0 : Ext g gu .nop 0 0 := by
          rw [← hgu]
          refine ⟨List.prefix_append _ _, ⟨[], by simp, .nop⟩, id, Int.le_refl _, ?_, rfl, .same rfl⟩
          intro h d _ hd; exact ⟨d, rfl, by omega, hd, by simp only [SC.maxd]; omega⟩
        have k0 : Keep g gu := by rw [← hgu]; exact ⟨rfl, rfl⟩
        have x1 : Ext gu (emitPushGlobal gu symArray) (.ins (.pushGlobal symArray)) 0 1 := ext_pushGlobal gu symArray
        have hget : (emitPushGlobal gu symArray).lits[g.lits.length]? = some (.val (.int es.length)) := by
          apply getElem?_of_prefix x1.lits
          rw [← hgu]; simp
        have x2 := ext_pushConstIdx (emitPushGlobal gu symArray) g.lits.length (.int es.length) hget
        have x3 := ext_send (emit2 (emitPushGlobal gu symArray) Op.pushConstant g.lits.length 1) symNew
        rw [nargs_new] at x3
        obtain ⟨x4, k4⟩ := cLits_ext es 1 _ g' hn e4
        refine ⟨?_, ?_⟩
        · have y1 := x3.seq x4 (by omega)
          have y2 := (x2.weaken (Nat.zero_le 1)).seq y1 (by omega)
          have y3 := x1.seq y2 (by omega)
          exact x0.nopThen y3
        · exact k0.trans ((keep_pushGlobal gu symArray).trans ((keep2 _ _ _ _).trans ((keep_send _ _).trans k4)))
    · simp only [hlim, if_false] at h
      cases h
theorem cLits_ext (es : LitTs) : ∀ (i : Nat) (g g' : G M X), es.noPh = true → cLits es i g = .ok g' → Ext g g' (litsSC es i) 1 0 ∧ Keep g g' := by
  cases es with
  | nil =>
    intro i g g' hn h
    simp only [cLits] at h
    cases h
    exact ⟨(Ext.refl g).weaken (Nat.zero_le 1), Keep.refl g⟩
  | cons e es =>
    intro i g g' hn h
    simp only [cLits, bind, Except.bind] at h
    simp only [LitTs.noPh, Bool.and_eq_true] at hn
    split at h
    · cases h
    · rename_i g1 hg1
      obtain ⟨x2, k2⟩ := cLit_ext e _ g1 (LitT.ok_of_noPh hn.1) hg1
      obtain ⟨x4, k4⟩ := cLits_ext es (i + 1) _ g' hn.2 h
      have x1 := ext_pushConstant g (.int i)
      have x3 := ext_send g1 symAtPut
      rw [nargs_atPut] at x3
      refine ⟨?_, (keep_pushConstant g _).trans (k2.trans ((keep_send _ _).trans k4))⟩
      have y1 := (x2.weaken (Nat.zero_le 2)).seq x3 (by omega)
      have y2 := (x1.weaken (Nat.zero_le 1)).seq y1 (by omega)
      exact y2.seq x4 (by omega)
end

end
end PySOM.BC

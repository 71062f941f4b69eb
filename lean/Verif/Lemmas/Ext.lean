import Verif.Lemmas.Jump
/-!
# Emitting code extends the code by an encoding of structured code
-/
set_option autoImplicit false
namespace PySOM.BC
open PySOM

section
variable {M X : Type}

/-! ## Decoding does not depend on later literals -/

theorem decodeOp_lt {lits : List (Lit M)} {op : Nat} {a b : Option Nat} {d : Dec M} (h : decodeOp lits op a b = some d) : op < 78 := by
  apply Classical.byContradiction
  intro hn
  have : decodeOp lits op a b = none := by
    simp only [decodeOp]
    repeat (rw [if_neg (by intro h; rw [h] at hn; exact hn (by decide))])
  rw [this] at h
  cases h

theorem getElem?_of_prefix {α : Type} {l l' : List α} (hp : l <+: l') {i : Nat} {x : α} (h : l[i]? = some x) : l'[i]? = some x := by
  obtain ⟨t, rfl⟩ := hp
  rw [List.getElem?_append_left]
  · exact h
  · exact (List.getElem?_eq_some_iff.mp h).1

theorem constVal_mono {l l' : List (Lit M)} (hp : l <+: l') {i : Nat} {v : Val} (h : constVal l i = some v) : constVal l' i = some v := by
  unfold constVal at h ⊢
  split at h
  · rename_i v' hv; rw [getElem?_of_prefix hp hv]; exact h
  · cases h

theorem constSym_mono {l l' : List (Lit M)} (hp : l <+: l') {i : Nat} {v : Sel} (h : constSym l i = some v) : constSym l' i = some v := by
  unfold constSym at h ⊢
  split at h
  · rename_i v' hv; rw [getElem?_of_prefix hp hv]; exact h
  · cases h

theorem constMeth_mono {l l' : List (Lit M)} (hp : l <+: l') {i : Nat} {v : M} (h : constMeth l i = some v) : constMeth l' i = some v := by
  unfold constMeth at h ⊢
  split at h
  · rename_i v' hv; rw [getElem?_of_prefix hp hv]; exact h
  · cases h

theorem decodeOp_mono {l l' : List (Lit M)} (hp : l <+: l') {op : Nat} {a b : Option Nat} {d : Dec M} (h : decodeOp l op a b = some d) :
    decodeOp l' op a b = some d := by
  have hn := decodeOp_lt h
  have hn : op = 0 ∨ op = 1 ∨ op = 2 ∨ op = 3 ∨ op = 4 ∨ op = 5 ∨ op = 6 ∨ op = 7 ∨ op = 8 ∨ op = 9 ∨ op = 10 ∨ op = 11 ∨ op = 12 ∨ op = 13 ∨ op = 14 ∨ op = 15 ∨ op = 16 ∨ op = 17 ∨ op = 18 ∨ op = 19 ∨ op = 20 ∨ op = 21 ∨ op = 22 ∨ op = 23 ∨ op = 24 ∨ op = 25 ∨ op = 26 ∨ op = 27 ∨ op = 28 ∨ op = 29 ∨ op = 30 ∨ op = 31 ∨ op = 32 ∨ op = 33 ∨ op = 34 ∨ op = 35 ∨ op = 36 ∨ op = 37 ∨ op = 38 ∨ op = 39 ∨ op = 40 ∨ op = 41 ∨ op = 42 ∨ op = 43 ∨ op = 44 ∨ op = 45 ∨ op = 46 ∨ op = 47 ∨ op = 48 ∨ op = 49 ∨ op = 50 ∨ op = 51 ∨ op = 52 ∨ op = 53 ∨ op = 54 ∨ op = 55 ∨ op = 56 ∨ op = 57 ∨ op = 58 ∨ op = 59 ∨ op = 60 ∨ op = 61 ∨ op = 62 ∨ op = 63 ∨ op = 64 ∨ op = 65 ∨ op = 66 ∨ op = 67 ∨ op = 68 ∨ op = 69 ∨ op = 70 ∨ op = 71 ∨ op = 72 ∨ op = 73 ∨ op = 74 ∨ op = 75 ∨ op = 76 ∨ op = 77 := by omega
  rcases hn with rfl | rfl | rfl | rfl | rfl | rfl | rfl | rfl | rfl | rfl | rfl | rfl | rfl | rfl | rfl | rfl | rfl | rfl | rfl | rfl | rfl | rfl | rfl | rfl | rfl | rfl | rfl | rfl | rfl | rfl | rfl | rfl | rfl | rfl | rfl | rfl | rfl | rfl | rfl | rfl | rfl | rfl | rfl | rfl | rfl | rfl | rfl | rfl | rfl | rfl | rfl | rfl | rfl | rfl | rfl | rfl | rfl | rfl | rfl | rfl | rfl | rfl | rfl | rfl | rfl | rfl | rfl | rfl | rfl | rfl | rfl | rfl | rfl | rfl | rfl | rfl | rfl | rfl <;>
  (unfold decodeOp at h ⊢
   repeat rw [if_neg (by decide)] at h
   repeat rw [if_neg (by decide)]
   first
   | exact h
   | (rw [if_pos rfl] at h ⊢
      first
      | exact h
      | (simp only [Option.bind_eq_bind, Option.bind_eq_some_iff, Option.some.injEq] at h ⊢
         first
         | (obtain ⟨x, h1, h⟩ := h; first | exact ⟨x, constVal_mono hp h1, h⟩ | exact ⟨x, constSym_mono hp h1, h⟩ | exact ⟨x, constMeth_mono hp h1, h⟩)
         | (obtain ⟨i, hi, x, h1, h⟩ := h
            first | exact ⟨i, hi, x, constVal_mono hp h1, h⟩ | exact ⟨i, hi, x, constSym_mono hp h1, h⟩ | exact ⟨i, hi, x, constMeth_mono hp h1, h⟩))))

theorem Is.mono {l l' : List (Lit M)} (hp : l <+: l') {d : Dec M} {bs : List Nat} (h : Is l d bs) : Is l' d bs := by
  intro rest
  have h := h rest
  unfold decode at h ⊢
  split at h
  · cases h
  · exact decodeOp_mono hp h

theorem Enc.mono {l l' : List (Lit M)} (hp : l <+: l') {c : SC M} {bs : List Nat} (h : Enc l c bs) : Enc l' c bs := by
  induction h with
  | nop => exact .nop
  | ins i bs h => exact .ins i bs (h.mono hp)
  | seq a b ba bb _ _ iha ihb => exact .seq a b ba bb iha ihb
  | thenB c body j bb hj _ ih => exact .thenB c body j bb hj ih
  | ifElse c a b j ba k bb hj _ hk _ iha ihb => exact .ifElse c a b j ba k bb hj iha hk ihb
  | loop c cond body bc j bb k _ hj _ hk ihc ihb => exact .loop c cond body bc j bb k ihc hj ihb hk

/-! ## Extension -/

/-- `e.2` is the position of a jump back to `e.1`, which is not before `base`. -/
def LoopAt (M : Type) (base : Nat) (bytes : List Nat) (e : Nat × Nat) : Prop :=
  base ≤ e.1 ∧ e.1 ≤ e.2 ∧ ∃ pre j post, bytes = pre ++ (j ++ post) ∧ pre.length = e.2 ∧ IsJump (M := M) (.jumpBack (e.2 - e.1)) j

theorem LoopAt.append {base : Nat} {bytes : List Nat} {e : Nat × Nat} (h : LoopAt M base bytes e) (bs : List Nat) : LoopAt M base (bytes ++ bs) e := by
  obtain ⟨h1, h2, pre, j, post, hb, hp, hj⟩ := h
  exact ⟨h1, h2, pre, j, post ++ bs, by rw [hb]; simp, hp, hj⟩

theorem LoopAt.le {base base' : Nat} {bytes : List Nat} {e : Nat × Nat} (h : LoopAt M base bytes e) (hb : base' ≤ base) : LoopAt M base' bytes e :=
  ⟨Nat.le_trans hb h.1, h.2⟩

/-- What is before `base` does not matter. -/
theorem LoopAt.swap {base : Nat} {p p' q : List Nat} {e : Nat × Nat} (h : LoopAt M base (p ++ q) e) (hp : p.length ≤ base) (hl : p'.length = p.length) :
    LoopAt M base (p' ++ q) e := by
  obtain ⟨h1, h2, pre, j, post, hb, he, hj⟩ := h
  rcases List.append_eq_append_iff.mp hb with ⟨r, hr, hq⟩ | ⟨r, hr, hq⟩
  · exact ⟨h1, h2, p' ++ r, j, post, by rw [hq]; simp, by rw [← he, hr]; simp [hl], hj⟩
  · have : r = [] := List.eq_nil_of_length_eq_zero (by have := congrArg List.length hr; simp at this; omega)
    subst this
    simp only [List.append_nil, List.nil_append] at hr hq
    exact ⟨h1, h2, p', j, post, by rw [hq], by rw [hl, hr, he], hj⟩

/-- The loops recorded from `g` to `g'` are loops of the code added. -/
def Loops (g g' : G M X) : Prop := ∃ ls, g'.loops = g.loops ++ ls ∧ ∀ e ∈ ls, LoopAt M g.bytes.length g'.bytes e

theorem Loops.same {g g' : G M X} (h : g'.loops = g.loops) : Loops g g' := ⟨[], by simp [h], by simp⟩

theorem Loops.trans {g g1 g2 : G M X} (h1 : Loops g g1) (h2 : Loops g1 g2) (p1 : ∃ b, g1.bytes = g.bytes ++ b) (p2 : ∃ b, g2.bytes = g1.bytes ++ b) :
    Loops g g2 := by
  obtain ⟨l1, e1, c1⟩ := h1
  obtain ⟨l2, e2, c2⟩ := h2
  obtain ⟨b1, p1⟩ := p1
  obtain ⟨b2, p2⟩ := p2
  refine ⟨l1 ++ l2, by rw [e2, e1]; simp, ?_⟩
  intro e he
  rcases List.mem_append.mp he with he | he
  · rw [p2]; exact (c1 e he).append b2
  · exact (c2 e he).le (by rw [p1]; simp)

/-- From `g` to `g'` the code has been extended by an encoding of `sc`, which needs `m` elements on the stack and changes its depth by `k`; the tracked depth is at
least the real one. -/
structure Ext (g g' : G M X) (sc : SC M) (m : Nat) (k : Int) : Prop where
  lits : g.lits <+: g'.lits
  bytes : ∃ bs, g'.bytes = g.bytes ++ bs ∧ Enc g'.lits sc bs
  ok : g.depth ≤ g.maxDepth → g'.depth ≤ g'.maxDepth
  mono : g.maxDepth ≤ g'.maxDepth
  dep : g.depth ≤ g.maxDepth → ∀ d : Nat, m ≤ d → (d : Int) ≤ g.depth →
    ∃ d' : Nat, sc.ty d = some d' ∧ (d' : Int) = d + k ∧ (d' : Int) ≤ g'.depth ∧ (sc.maxd d : Int) ≤ g'.maxDepth
  lvl : g'.lvl = g.lvl
  loops : Loops g g'

theorem Ext.app {g g' : G M X} {sc : SC M} {m : Nat} {k : Int} (h : Ext g g' sc m k) : ∃ b, g'.bytes = g.bytes ++ b :=
  let ⟨b, e, _⟩ := h.bytes
  ⟨b, e⟩

theorem Ext.refl (g : G M X) : Ext g g .nop 0 0 where
  lits := List.prefix_refl _
  bytes := ⟨[], by simp, .nop⟩
  ok := id
  mono := Int.le_refl _
  dep := by
    intro h d _ hd
    exact ⟨d, rfl, by omega, hd, by simp only [SC.maxd]; omega⟩
  lvl := rfl
  loops := .same rfl

theorem Ext.seq {g g1 g2 : G M X} {a b : SC M} {m m' : Nat} {k k' : Int} (h1 : Ext g g1 a m k) (h2 : Ext g1 g2 b m' k')
    (hm : (m' : Int) ≤ m + k) : Ext g g2 (.seq a b) m (k + k') where
  lits := h1.lits.trans h2.lits
  bytes := by
    obtain ⟨b1, e1, c1⟩ := h1.bytes
    obtain ⟨b2, e2, c2⟩ := h2.bytes
    exact ⟨b1 ++ b2, by rw [e2, e1]; simp, .seq _ _ _ _ (c1.mono h2.lits) c2⟩
  ok := fun h => h2.ok (h1.ok h)
  mono := Int.le_trans h1.mono h2.mono
  dep := by
    intro h d hmd hd
    obtain ⟨d1, t1, e1, l1, x1⟩ := h1.dep h d hmd hd
    obtain ⟨d2, t2, e2, l2, x2⟩ := h2.dep (h1.ok h) d1 (by omega) l1
    refine ⟨d2, by simp [SC.ty, t1, t2], by omega, l2, ?_⟩
    have := h2.mono
    simp only [SC.maxd, t1]
    omega
  lvl := h2.lvl.trans h1.lvl
  loops := h1.loops.trans h2.loops h1.app h2.app

theorem Ext.weaken {g g' : G M X} {sc : SC M} {m m' : Nat} {k : Int} (h : Ext g g' sc m k) (hm : m ≤ m') : Ext g g' sc m' k where
  lits := h.lits
  bytes := h.bytes
  ok := h.ok
  mono := h.mono
  dep := fun h0 d hd hl => h.dep h0 d (Nat.le_trans hm hd) hl
  lvl := h.lvl
  loops := h.loops

/-- The same extension seen from states that differ only in fields that do not matter. -/
theorem Ext.congr {g g' h h' : G M X} {sc : SC M} {m : Nat} {k : Int} (e : Ext g g' sc m k)
    (hl : h.lits = g.lits) (hb : h.bytes = g.bytes) (hd : h.depth = g.depth) (hx : h.maxDepth = g.maxDepth) (hv : h.lvl = g.lvl)
    (hl' : h'.lits = g'.lits) (hb' : h'.bytes = g'.bytes) (hd' : h'.depth = g'.depth) (hx' : h'.maxDepth = g'.maxDepth) (hv' : h'.lvl = g'.lvl)
    (ho : h.loops = g.loops := by rfl) (ho' : h'.loops = g'.loops := by rfl) : Ext h h' sc m k where
  lits := by rw [hl, hl']; exact e.lits
  bytes := by rw [hb, hb', hl']; exact e.bytes
  ok := by rw [hd, hx, hd', hx']; exact e.ok
  mono := by rw [hx, hx']; exact e.mono
  dep := by rw [hd, hx, hd', hx']; exact e.dep
  lvl := by rw [hv, hv']; exact e.lvl
  loops := by unfold Loops; rw [ho, ho', hb, hb']; exact e.loops

/-- Following an extension by one without code. -/
theorem Ext.thenNop {g g1 g2 : G M X} {a : SC M} {m : Nat} {k : Int} (h1 : Ext g g1 a m k) (h2 : Ext g1 g2 .nop 0 0) : Ext g g2 a m k where
  lits := h1.lits.trans h2.lits
  bytes := by
    obtain ⟨b1, e1, c1⟩ := h1.bytes
    obtain ⟨b2, e2, c2⟩ := h2.bytes
    cases c2
    exact ⟨b1, by rw [e2, e1]; simp, c1.mono h2.lits⟩
  ok := fun h => h2.ok (h1.ok h)
  mono := Int.le_trans h1.mono h2.mono
  dep := by
    intro h d hmd hd
    obtain ⟨d1, t1, e1, l1, x1⟩ := h1.dep h d hmd hd
    obtain ⟨d2, t2, e2, l2, x2⟩ := h2.dep (h1.ok h) d1 (Nat.zero_le _) l1
    have := h2.mono
    exact ⟨d1, t1, e1, by omega, by omega⟩
  lvl := h2.lvl.trans h1.lvl
  loops := h1.loops.trans h2.loops h1.app h2.app

/-- Preceding an extension by one without code. -/
theorem Ext.nopThen {g g1 g2 : G M X} {a : SC M} {m : Nat} {k : Int} (h1 : Ext g g1 .nop 0 0) (h2 : Ext g1 g2 a m k) : Ext g g2 a m k where
  lits := h1.lits.trans h2.lits
  bytes := by
    obtain ⟨b1, e1, c1⟩ := h1.bytes
    obtain ⟨b2, e2, c2⟩ := h2.bytes
    cases c1
    exact ⟨b2, by rw [e2, e1]; simp, c2⟩
  ok := fun h => h2.ok (h1.ok h)
  mono := Int.le_trans h1.mono h2.mono
  dep := by
    intro h d hmd hd
    obtain ⟨d1, t1, e1, l1, x1⟩ := h1.dep h d (Nat.zero_le _) hd
    have hdd : d1 = d := by omega
    subst hdd
    exact h2.dep (h1.ok h) d1 hmd l1
  lvl := h2.lvl.trans h1.lvl
  loops := h1.loops.trans h2.loops h1.app h2.app

/-! ## Single instructions -/

/-- An instruction with effect `k`, tracked as such. -/
theorem Ext.emit {g g' : G M X} {i : Ins M} {bs : List Nat} {m : Nat} {k : Int} (hl : g.lits <+: g'.lits)
    (hb : g'.bytes = g.bytes ++ bs) (hd : g'.depth = g.depth + k) (hx : g'.maxDepth = max g.maxDepth (g.depth + k)) (hv : g'.lvl = g.lvl)
    (hi : Is g'.lits (.ins i bs.length) bs) (ht : ∀ d : Nat, m ≤ d → ∃ d' : Nat, i.ty d = some d' ∧ (d' : Int) = d + k)
    (ho : g'.loops = g.loops := by rfl) : Ext g g' (.ins i) m k where
  lits := hl
  bytes := ⟨bs, hb, .ins _ _ hi⟩
  ok := by intro h; rw [hd, hx]; omega
  mono := by rw [hx]; omega
  dep := by
    intro h d hm hle
    obtain ⟨d', t, e⟩ := ht d hm
    refine ⟨d', t, e, by rw [hd]; omega, ?_⟩
    simp only [SC.maxd, t, Option.getD_some]
    rw [hx]
    omega
  lvl := hv
  loops := .same ho

theorem sameLit_eq {l l' : Lit M} (h : sameLit l l' = true) : l' = l := by
  cases l with
  | val v =>
    cases l' with
    | val w =>
      cases v with
      | int i => simp [sameLit] at h
      | _ => simp only [sameLit, decide_eq_true_eq] at h; rw [h]
    | meth m => cases v <;> simp [sameLit] at h
  | meth m => simp [sameLit] at h

theorem addLit_spec (g : G M X) (l : Lit M) :
    let r := addLiteralIfAbsent g l
    g.lits <+: r.2.lits ∧ r.2.lits[r.1]? = some l ∧ r.2 = { g with lits := r.2.lits } := by
  simp only [addLiteralIfAbsent]
  split
  · rename_i i hi
    refine ⟨List.prefix_refl _, ?_, rfl⟩
    obtain ⟨hlt, hs, _⟩ := List.findIdx?_eq_some_iff_getElem.mp hi
    rw [List.getElem?_eq_getElem hlt]
    rw [sameLit_eq hs]
  · refine ⟨List.prefix_append _ _, by simp, rfl⟩

theorem addLit_ext (g : G M X) (l : Lit M) : Ext g (addLiteralIfAbsent g l).2 .nop 0 0 := by
  obtain ⟨h1, h2, h3⟩ := addLit_spec g l
  refine ⟨h1, ⟨[], ?_, .nop⟩, ?_, ?_, ?_, ?_, .same (by rw [h3])⟩ <;> rw [h3]
  · simp
  · exact id
  · exact Int.le_refl _
  · intro h d _ hd; exact ⟨d, rfl, by omega, hd, by simp only [SC.maxd]; omega⟩

end
end PySOM.BC

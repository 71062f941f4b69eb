import Verif.Spec.Inline
import Verif.Lemmas.Walk
import Verif.Props.Heap
/-!
# Copying code instruction by instruction
-/
set_option autoImplicit false
namespace PySOM.BC
open PySOM

section
variable {M : Type}

/-- Byte sequences made of instructions with `P` and of jumps. -/
inductive Flat (P : Ins M → Prop) (lits : List (Lit M)) : List Nat → Prop where
  | nil : Flat P lits []
  | cons (d : Dec M) (b rest : List Nat) (hd : Is lits d b) (hl : b.length = d.len) (hp : ∀ i n, d = .ins i n → P i) (hj : (∃ i n, d = .ins i n) ∨ IsJump d b) 
      (hr : Flat P lits rest) :
      Flat P lits (b ++ rest)

theorem Flat.append {P : Ins M → Prop} {lits : List (Lit M)} {a b : List Nat} (ha : Flat P lits a) (hb : Flat P lits b) : Flat P lits (a ++ b) := by
  induction ha with
  | nil => exact hb
  | cons d b rest hd hl hp hj _ ih => rw [List.append_assoc]; exact .cons d b _ hd hl hp hj ih

theorem Flat.one {P : Ins M → Prop} {lits : List (Lit M)} {d : Dec M} {b : List Nat} (hd : Is lits d b) (hl : b.length = d.len)
    (hp : ∀ i n, d = .ins i n → P i) (hj : (∃ i n, d = .ins i n) ∨ IsJump d b) : Flat P lits b := by
  have := Flat.cons (lits := lits) d b [] hd hl hp hj .nil
  rwa [List.append_nil] at this

theorem IsJump.flat {P : Ins M → Prop} {lits : List (Lit M)} {d : Dec M} {b : List Nat} (h : IsJump d b) (hl : d.len = 3) (hp : ∀ i n, d ≠ .ins i n) : Flat P lits b :=
  .one (h.is lits) (by rw [h.len, hl]) (fun i n e => absurd e (hp i n)) (.inr h)

theorem Enc.flat {P : Ins M → Prop} {lits : List (Lit M)} {c : SC M} {bs : List Nat} (h : Enc lits c bs) (hp : ∀ i ∈ c.instrs, P i) : Flat P lits bs := by
  induction h with
  | nop => exact .nil
  | ins i bs h => exact .one h rfl (fun j n e => by cases e; exact hp i (List.mem_singleton.mpr rfl)) (.inl ⟨_, _, rfl⟩)
  | seq a b ba bb _ _ iha ihb =>
    exact (iha fun i hi => hp i (List.mem_append_left _ hi)).append (ihb fun i hi => hp i (List.mem_append_right _ hi))
  | thenB c body j bb hj _ ih => exact (hj.flat rfl nofun).append (ih hp)
  | ifElse c a b j ba k bb hj _ hk _ iha ihb =>
    exact (hj.flat rfl nofun).append ((iha fun i hi => hp i (List.mem_append_left _ hi)).append ((hk.flat rfl nofun).append (ihb fun i hi => hp i (List.mem_append_right _ hi))))
  | loop c cond body bc j bb k _ hj _ hk ihc ihb =>
    exact (ihc fun i hi => hp i (List.mem_append_left _ hi)).append ((hj.flat rfl nofun).append ((ihb fun i hi => hp i (List.mem_append_right _ hi)).append (hk.flat rfl nofun)))

/-- An instruction is determined by the bytes. -/
theorem Is.unique {lits : List (Lit M)} {d d' : Dec M} {b b' r r' : List Nat} (h : Is lits d b) (h' : Is lits d' b') (hl : b.length = d.len)
    (hl' : b'.length = d'.len) (e : b ++ r = b' ++ r') : d = d' ∧ b = b' ∧ r = r' := by
  have h1 := h r
  rw [e, h' r'] at h1
  cases h1
  have := List.append_inj e (by rw [hl, hl'])
  exact ⟨rfl, this.1, this.2⟩

/-! ## Depth -/

/-- The tracked depth and its maximum go from `D` and `X` to `D'` and `X'` and cover what `sc` does. -/
structure Dep (sc : SC M) (D X D' X' : Int) : Prop where
  ok : D ≤ X → D' ≤ X'
  mono : X ≤ X'
  dep : D ≤ X → ∀ d d' : Nat, sc.ty d = some d' → (d : Int) ≤ D → (d' : Int) ≤ D' ∧ (sc.maxd d : Int) ≤ X'

/-- For a jump: `k` is the change of the tracked depth. -/
def DepJ (k : Int) (D X D' X' : Int) : Prop := D' = D + k ∧ X ≤ X' ∧ (D ≤ X → D' ≤ X')

def Dec.jeff : Dec M → Int
  | .jumpPop _ _ => -1
  | _ => 0

def Dec.isFwd : Dec M → Bool
  | .jump _ => true
  | .jumpTop _ _ => true
  | .jumpPop _ _ => true
  | _ => false

/-! ## Copied instructions -/

/-- The copy of an instruction at position `i`: its bytes, the pending jump, the loop recorded.  `φ` maps positions up to `cur` to positions of the copy. -/
inductive Item (tr : Ins M → SC M) (lits : List (Lit M)) (φ : Nat → Nat) (cur i : Nat) :
    Dec M → List Nat → List HeapQ.Entry → List (Nat × Nat) → Int → Int → Int → Int → Prop where
  | ins (j : Ins M) (len : Nat) (seg : List Nat) (D X D' X' : Int) (h : Enc lits (tr j) seg) (hd : Dep (tr j) D X D' X') :
      Item tr lits φ cur i (.ins j len) seg [] [] D X D' X'
  | fwd (d : Dec M) (seg : List Nat) (D X D' X' : Int) (hf : d.isFwd = true) (h : IsJump (d.withOff (φ (i + d.dist) - φ i)) seg) (hc : i + d.dist ≤ cur)
      (hd : DepJ d.jeff D X D' X') : Item tr lits φ cur i d seg [] [] D X D' X'
  | pend (d : Dec M) (op : Nat) (D X D' X' : Int) (hf : d.isFwd = true) (hop : jumpBytecodes.contains op = true)
      (hdec : ∀ lits : List (Lit M), decode lits [op, 0, 0] = some (d.withOff 0)) (hd : DepJ d.jeff D X D' X') :
      Item tr lits φ cur i d [op, 0, 0] [⟨i + d.dist, φ i + 1⟩] [] D X D' X'
  | back (off : Nat) (seg : List Nat) (D X D' X' : Int) (h : IsJump (M := M) (.jumpBack (φ i - φ (i - off))) seg) (hc : φ (i - off) ≤ φ i)
      (hd : DepJ 0 D X D' X') : Item tr lits φ cur i (.jumpBack off) seg [] [(φ (i - off), φ i)] D X D' X'

/-- The copy `out` of the instructions `src`, which begin at position `i`. -/
inductive Its (tr : Ins M → SC M) (lits lits' : List (Lit M)) (φ : Nat → Nat) (cur : Nat) :
    Nat → List Nat → List Nat → List HeapQ.Entry → List (Nat × Nat) → Int → Int → Int → Int → Prop where
  | nil (i : Nat) (D X : Int) : Its tr lits lits' φ cur i [] [] [] [] D X D X
  | cons (i : Nat) (d : Dec M) (b src seg out : List Nat) (p pend : List HeapQ.Entry) (l ls : List (Nat × Nat)) (D X D1 X1 D' X' : Int)
      (hd : Is lits d b) (hl : b.length = d.len) (hi : Item tr lits' φ cur i d seg p l D X D1 X1) (hφ : φ (i + b.length) = φ i + seg.length)
      (rest : Its tr lits lits' φ cur (i + b.length) src out pend ls D1 X1 D' X') :
      Its tr lits lits' φ cur i (b ++ src) (seg ++ out) (p ++ pend) (l ++ ls) D X D' X'

variable {tr : Ins M → SC M} {lits lits' : List (Lit M)} {φ : Nat → Nat} {cur : Nat}

theorem Its.snoc {i : Nat} {src out : List Nat} {pend : List HeapQ.Entry} {ls : List (Nat × Nat)} {D X D' X' : Int}
    (h : Its tr lits lits' φ cur i src out pend ls D X D' X') {d : Dec M} {b seg : List Nat} {p : List HeapQ.Entry} {l : List (Nat × Nat)} {D2 X2 : Int}
    (hd : Is lits d b) (hl : b.length = d.len) (hi : Item tr lits' φ cur (i + src.length) d seg p l D' X' D2 X2)
    (hφ : φ (i + src.length + b.length) = φ (i + src.length) + seg.length) :
    Its tr lits lits' φ cur i (src ++ b) (out ++ seg) (pend ++ p) (ls ++ l) D X D2 X2 := by
  induction h with
  | nil i D X =>
    have := Its.cons i d b [] seg [] p [] l [] D X D2 X2 D2 X2 hd hl hi hφ (.nil _ _ _)
    simpa using this
  | cons i d0 b0 src seg0 out p0 pend l0 ls D X D1 X1 D' X' hd0 hl0 hi0 hφ0 rest ih =>
    rw [List.append_assoc, List.append_assoc, List.append_assoc, List.append_assoc]
    refine .cons i d0 b0 _ seg0 _ p0 _ l0 _ D X D1 X1 _ _ hd0 hl0 hi0 hφ0 (ih ?_ ?_)
    · have e : i + b0.length + src.length = i + (b0 ++ src).length := by simp; omega
      rw [e]; exact hi
    · have e : i + b0.length + src.length = i + (b0 ++ src).length := by simp; omega
      rw [e]; exact hφ

theorem Item.upd {φ' : Nat → Nat} {cur' : Nat} {lits'' : List (Lit M)} {i : Nat} {d : Dec M} {seg : List Nat} {p : List HeapQ.Entry} {l : List (Nat × Nat)}
    {D X D' X' : Int} (h : Item tr lits' φ cur i d seg p l D X D' X') (hp : lits' <+: lits'') (hφ : ∀ t, t ≤ cur → φ' t = φ t) (hc : cur ≤ cur')
    (hi : i ≤ cur) : Item tr lits'' φ' cur' i d seg p l D X D' X' := by
  cases h with
  | ins j len _ _ _ _ _ h hd => exact .ins j len _ _ _ _ _ (h.mono hp) hd
  | fwd _ _ _ _ _ _ hf h hc' hd => exact .fwd _ _ _ _ _ _ hf (by rw [hφ _ hc', hφ i hi]; exact h) (Nat.le_trans hc' hc) hd
  | pend _ op _ _ _ _ hf hop hdec hd => rw [← hφ i hi]; exact .pend _ _ _ _ _ _ hf hop hdec hd
  | back off _ _ _ _ _ h hc' hd =>
    rw [← hφ i hi, ← hφ (i - off) (by omega)]
    exact .back off _ _ _ _ _ (by rw [hφ i hi, hφ (i - off) (by omega)]; exact h) (by rw [hφ i hi, hφ (i - off) (by omega)]; exact hc') hd

theorem Its.upd {φ' : Nat → Nat} {cur' : Nat} {lits'' : List (Lit M)} {i : Nat} {src out : List Nat} {pend : List HeapQ.Entry} {ls : List (Nat × Nat)}
    {D X D' X' : Int} (h : Its tr lits lits' φ cur i src out pend ls D X D' X') (hp : lits' <+: lits'') (hφ : ∀ t, t ≤ cur → φ' t = φ t) (hc : cur ≤ cur')
    (hi : i + src.length ≤ cur) : Its tr lits lits'' φ' cur' i src out pend ls D X D' X' := by
  induction h with
  | nil i D X => exact .nil i D X
  | cons i d b src seg out p pend l ls D X D1 X1 D' X' hd hl hit hφi rest ih =>
    simp only [List.length_append] at hi
    refine .cons i d b src seg out p pend l ls D X D1 X1 D' X' hd hl (hit.upd hp hφ hc (by omega)) ?_ (ih (by omega))
    rw [hφ _ (by omega), hφ i (by omega)]
    exact hφi

theorem Item.withOff_zero {d : Dec M} {o : Nat} : (d.withOff 0).withOff o = d.withOff o := by cases d <;> rfl

/-- Where a pending jump is, and what the copy is after the jump has been directed to the current position. -/
theorem Its.patch {i : Nat} {src out : List Nat} {pend : List HeapQ.Entry} {ls : List (Nat × Nat)} {D X D' X' : Int}
    (h : Its tr lits lits' φ cur i src out pend ls D X D' X') {e : HeapQ.Entry} (he : e ∈ pend) (ha : e.address = cur) (hc : φ cur = φ i + out.length) :
    ∃ o1 op o2, out = o1 ++ op :: 0 :: 0 :: o2 ∧ e.payload = φ i + o1.length + 1 ∧ jumpBytecodes.contains op = true ∧
      Its tr lits lits' φ cur i src (o1 ++ patched op (3 + o2.length) ++ o2) (pend.erase e) ls D X D' X' := by
  induction h with
  | nil i D X => cases he
  | cons i d b src seg out p pend l ls D X D1 X1 D' X' hd hl hit hφi rest ih =>
    by_cases hp : e ∈ p
    · cases hit with
      | pend _ op _ _ _ _ hf hop hdec hdd =>
        simp only [List.mem_singleton] at hp
        subst hp
        refine ⟨[], op, out, rfl, rfl, hop, ?_⟩
        simp only [List.nil_append, List.cons_append, List.erase_cons_head]
        have hdist : 3 + out.length = φ (i + d.dist) - φ i := by
          simp only at ha
          rw [ha, hc]
          simp; omega
        have := Its.cons i d b src (patched op (3 + out.length)) out [] pend [] ls D X D1 X1 D' X' hd hl
          (.fwd d _ _ _ _ _ hf (by rw [← hdist, ← Item.withOff_zero]; exact isJump_patched hop hdec _) (by simp only at ha; omega) hdd)
          (by rw [patched_length]; exact hφi) rest
        simpa using this
      | _ => cases hp
    · have hpe : e ∈ pend := (List.mem_append.mp he).resolve_left hp
      have hc' : φ cur = φ (i + b.length) + out.length := by rw [hc, hφi]; simp; omega
      obtain ⟨o1, op, o2, h1, h2, h3, h4⟩ := ih hpe hc'
      refine ⟨seg ++ o1, op, o2, by rw [h1]; simp, by rw [h2, hφi]; simp; omega, h3, ?_⟩
      rw [List.erase_append_right _ hp]
      have := Its.cons i d b src seg _ p _ l ls D X D1 X1 D' X' hd hl hit hφi h4
      simpa using this

/-- The recorded loops are loops of the copy. -/
theorem Its.loopAt {i : Nat} {src out : List Nat} {pend : List HeapQ.Entry} {ls : List (Nat × Nat)} {D X D' X' : Int}
    (h : Its tr lits lits' φ cur i src out pend ls D X D' X') {pre : List Nat} (hpre : pre.length = φ i) (base : Nat)
    (hb : ∀ e ∈ ls, base ≤ e.1) : ∀ e ∈ ls, LoopAt M base (pre ++ out) e := by
  induction h generalizing pre with
  | nil => intro e he; cases he
  | cons i d b src seg out p pend l ls D X D1 X1 D' X' hd hl hit hφi rest ih =>
    intro e he
    rcases List.mem_append.mp he with he | he
    · have hbe := hb e (List.mem_append_left _ he)
      cases hit with
      | back off _ _ _ _ _ hj hc hdd =>
        simp only [List.mem_singleton] at he
        subst he
        exact ⟨hbe, hc, pre, seg, out, rfl, hpre, hj⟩
      | _ => cases he
    · have := ih (pre := pre ++ seg) (by rw [hφi]; simp [hpre]) (fun e he => hb e (List.mem_append_right _ he)) e he
      simpa using this

/-! ## The copy of structured code -/

theorem Dep.jump {k D X D' X' : Int} (h : DepJ k D X D' X') : X ≤ X' ∧ (D ≤ X → D' ≤ X') ∧ D' = D + k := ⟨h.2.1, h.2.2, h.1⟩

/-- The first instruction of a copy. -/
theorem Its.uncons {i : Nat} {d : Dec M} {b rest out : List Nat} {ls : List (Nat × Nat)} {D X D' X' : Int} (hd : Is lits d b) (hl : b.length = d.len)
    (h : Its tr lits lits' φ cur i (b ++ rest) out [] ls D X D' X') :
    ∃ seg o2 l ls2 D1 X1, out = seg ++ o2 ∧ Item tr lits' φ cur i d seg [] l D X D1 X1 ∧ φ (i + b.length) = φ i + seg.length ∧
      Its tr lits lits' φ cur (i + b.length) rest o2 [] ls2 D1 X1 D' X' := by
  generalize hs : b ++ rest = s at h
  generalize hp0 : ([] : List HeapQ.Entry) = p0 at h
  cases h with
  | nil =>
    have h0 := List.append_eq_nil_iff.mp hs
    have h1 := hd []
    rw [h0.1] at h1
    cases h1
  | cons i d' b' src seg out p pend l ls D X D1 X1 D' X' hd' hl' hi hφ hr =>
    obtain ⟨rfl, rfl, rfl⟩ := Is.unique hd hd' hl hl' hs
    obtain ⟨rfl, rfl⟩ := List.append_eq_nil_iff.mp hp0.symm
    exact ⟨seg, out, l, ls, D1, X1, rfl, hi, hφ, hr⟩

theorem Its.uncons_jump {i : Nat} {d : Dec M} {b rest out : List Nat} {ls : List (Nat × Nat)} {D X D' X' : Int} (hd : IsJump d b) (hf : d.isFwd = true)
    (h : Its tr lits lits' φ cur i (b ++ rest) out [] ls D X D' X') :
    ∃ seg o2 ls2 D1 X1, out = seg ++ o2 ∧ IsJump (d.withOff (φ (i + d.dist) - φ i)) seg ∧ DepJ d.jeff D X D1 X1 ∧ φ (i + 3) = φ i + 3 ∧
      Its tr lits lits' φ cur (i + 3) rest o2 [] ls2 D1 X1 D' X' := by
  have hlen : d.len = 3 := by cases d <;> first | rfl | cases hf
  obtain ⟨seg, o2, l, ls2, D1, X1, h1, h2, h3, h4⟩ := h.uncons (hd.is lits) (by rw [hd.len, hlen])
  rw [hd.len] at h3 h4
  generalize hp0 : ([] : List HeapQ.Entry) = p0 at h2
  cases h2 with
  | ins => cases hf
  | fwd _ _ _ _ _ _ _ hj _ hdd => exact ⟨seg, o2, ls2, D1, X1, h1, hj, hdd, by rw [h3, hj.len], h4⟩
  | pend => cases hp0
  | back => cases hf

/-- What the copy of structured code is. -/
theorem Its.enc {c : SC M} {bs : List Nat} (hc : Enc lits c bs) : ∀ (i : Nat) (rest out : List Nat) (ls : List (Nat × Nat)) (D X D' X' : Int),
    Its tr lits lits' φ cur i (bs ++ rest) out [] ls D X D' X' → (c.subst tr).std →
    ∃ o1 o2 ls2 D1 X1, out = o1 ++ o2 ∧ Enc lits' (c.subst tr) o1 ∧ φ (i + bs.length) = φ i + o1.length ∧
      Its tr lits lits' φ cur (i + bs.length) rest o2 [] ls2 D1 X1 D' X' ∧ Dep (c.subst tr) D X D1 X1 := by
  induction hc with
  | nop =>
    intro i rest out ls D X D' X' h _
    refine ⟨[], out, ls, D, X, rfl, .nop, rfl, h, id, Int.le_refl _, ?_⟩
    intro hDX d d' ht hd
    simp only [SC.subst, SC.ty, Option.some.injEq] at ht
    simp only [SC.subst, SC.maxd]
    omega
  | ins j bs hj =>
    intro i rest out ls D X D' X' h _
    obtain ⟨seg, o2, l, ls2, D1, X1, h1, h2, h3, h4⟩ := h.uncons hj rfl
    cases h2 with
    | ins _ _ _ _ _ _ _ he hdp => exact ⟨seg, o2, ls2, D1, X1, h1, he, h3, h4, hdp⟩
    | fwd _ _ _ _ _ _ hf => cases hf
  | seq a b ba bb _ _ iha ihb =>
    intro i rest out ls D X D' X' h hst
    rw [List.append_assoc] at h
    obtain ⟨o1, o2, ls2, D1, X1, rfl, e1, f1, r1, d1⟩ := iha _ _ _ _ _ _ _ _ h hst.1
    obtain ⟨p1, p2, ls3, D2, X2, rfl, e2, f2, r2, d2⟩ := ihb _ _ _ _ _ _ _ _ r1 hst.2
    refine ⟨o1 ++ p1, p2, ls3, D2, X2, by simp, .seq _ _ _ _ e1 e2, ?_, ?_, ?_⟩
    · rw [List.length_append, ← Nat.add_assoc, f2, f1, List.length_append]; omega
    · rw [List.length_append, ← Nat.add_assoc]; exact r2
    · refine ⟨fun h => d2.ok (d1.ok h), Int.le_trans d1.mono d2.mono, ?_⟩
      intro hDX d d' ht hd
      simp only [SC.subst, SC.ty, Option.bind_eq_some_iff] at ht
      obtain ⟨dm, t1, t2⟩ := ht
      obtain ⟨l1, x1⟩ := d1.dep hDX d dm t1 hd
      obtain ⟨l2, x2⟩ := d2.dep (d1.ok hDX) dm d' t2 l1
      have := d2.mono
      simp only [SC.subst, SC.maxd, t1]
      omega
  | thenB c body j bb hj _ ih =>
    intro i rest out ls D X D' X' h hst
    rw [List.append_assoc] at h
    obtain ⟨s1, o1, ls1, D1, X1, rfl, j1, dj, f1, r1⟩ := h.uncons_jump hj rfl
    obtain ⟨p1, p2, ls3, D2, X2, rfl, e2, f2, r2, d2⟩ := ih _ _ _ _ _ _ _ _ r1 hst
    have hl : (j ++ bb).length = 3 + bb.length := by rw [List.length_append, hj.len]
    have hs1 := j1.len
    refine ⟨s1 ++ p1, p2, ls3, D2, X2, by simp, ?_, ?_, ?_, ?_⟩
    · refine .thenB c _ s1 p1 ?_ e2
      have : φ (i + (3 + bb.length)) - φ i = 3 + p1.length := by rw [← Nat.add_assoc, f2, f1]; omega
      simp only [Dec.dist, Dec.withOff, this] at j1
      exact j1
    · rw [hl, ← Nat.add_assoc, f2, f1, List.length_append, hs1]; omega
    · rw [hl, ← Nat.add_assoc]; exact r2
    · obtain ⟨q1, q2, q3⟩ := Dep.jump dj
      simp only [Dec.jeff] at q3
      refine ⟨fun h => d2.ok (q2 h), Int.le_trans q1 d2.mono, ?_⟩
      intro hDX d d' ht hd
      simp only [SC.subst, SC.ty] at ht
      split at ht
      · rename_i hh
        cases ht
        obtain ⟨l2, x2⟩ := d2.dep (q2 hDX) (d - 1) d hh.2 (by omega)
        have := d2.mono
        simp only [SC.subst, SC.maxd]
        omega
      · cases ht
  | ifElse c a b j ba k bb hj _ hk _ iha ihb =>
    intro i rest out ls D X D' X' h hst
    rw [List.append_assoc, List.append_assoc, List.append_assoc] at h
    obtain ⟨s1, o1, ls1, D1, X1, rfl, j1, dj, f1, r1⟩ := h.uncons_jump hj rfl
    obtain ⟨p1, p2, ls3, D2, X2, rfl, e2, f2, r2, d2⟩ := iha _ _ _ _ _ _ _ _ r1 hst.2.1
    obtain ⟨s3, o3, ls4, D3, X3, rfl, j3, dk, f3, r3⟩ := r2.uncons_jump hk rfl
    obtain ⟨p4, p5, ls5, D4, X4, rfl, e4, f4, r4, d4⟩ := ihb _ _ _ _ _ _ _ _ r3 hst.2.2
    have hl : (j ++ (ba ++ (k ++ bb))).length = 3 + ba.length + 3 + bb.length := by simp [hj.len, hk.len]; omega
    have hs1 := j1.len
    have hs3 := j3.len
    have a1 : i + (3 + ba.length + 3 + bb.length) = i + 3 + ba.length + 3 + bb.length := by omega
    refine ⟨s1 ++ (p1 ++ (s3 ++ p4)), p5, ls5, D4, X4, by simp, ?_, ?_, ?_, ?_⟩
    · refine .ifElse c _ _ s1 p1 s3 p4 ?_ e2 ?_ e4
      · have : φ (i + (3 + ba.length + 3)) - φ i = 3 + p1.length + 3 := by
          rw [show i + (3 + ba.length + 3) = i + 3 + ba.length + 3 by omega, f3, f2, f1]; omega
        simp only [Dec.dist, Dec.withOff, this] at j1
        exact j1
      · have : φ (i + 3 + ba.length + (3 + bb.length)) - φ (i + 3 + ba.length) = 3 + p4.length := by
          rw [show i + 3 + ba.length + (3 + bb.length) = i + 3 + ba.length + 3 + bb.length by omega, f4, f3]; omega
        simp only [Dec.dist, Dec.withOff, this] at j3
        exact j3
    · rw [hl, a1, f4, f3, f2, f1]; simp [hs1, hs3]; omega
    · rw [hl, a1]; exact r4
    · obtain ⟨q1, q2, q3⟩ := Dep.jump dj
      obtain ⟨u1, u2, u3⟩ := Dep.jump dk
      simp only [Dec.jeff] at q3 u3
      have m2 := d2.mono
      have m4 := d4.mono
      refine ⟨fun h => d4.ok (u2 (d2.ok (q2 h))), by omega, ?_⟩
      intro hDX d d' ht hd
      simp only [SC.subst, SC.ty] at ht
      split at ht
      · rename_i hh
        obtain ⟨l2, x2⟩ := d2.dep (q2 hDX) (d - 1) d' ht (by omega)
        have t1 := hst.1 (d - 1)
        rw [ht] at t1
        have t1 : d' = d - 1 + 1 := Option.some.inj t1
        obtain ⟨l4, x4⟩ := d4.dep (u2 (d2.ok (q2 hDX))) (d - 1) d' (hh.2 ▸ ht) (by omega)
        simp only [SC.subst, SC.maxd]
        omega
      · cases ht
  | loop c cond body bc j bb k _ hj _ hk ihc ihb =>
    intro i rest out ls D X D' X' h hst
    rw [List.append_assoc, List.append_assoc, List.append_assoc] at h
    obtain ⟨p1, p2, ls3, D2, X2, rfl, e2, f2, r2, d2⟩ := ihc _ _ _ _ _ _ _ _ h hst.1
    obtain ⟨s3, o3, ls4, D3, X3, rfl, j3, dj, f3, r3⟩ := r2.uncons_jump hj rfl
    obtain ⟨p4, p5, ls5, D4, X4, rfl, e4, f4, r4, d4⟩ := ihb _ _ _ _ _ _ _ _ r3 hst.2
    obtain ⟨s6, o6, l6, ls6, D6, X6, rfl, i6, f6, r6⟩ := r4.uncons (hk.is lits) (by rw [hk.len]; rfl)
    rw [hk.len] at f6 r6
    have hl : (bc ++ (j ++ (bb ++ k))).length = bc.length + 3 + bb.length + 3 := by simp [hj.len, hk.len]; omega
    have hs3 := j3.len
    have a1 : i + (bc.length + 3 + bb.length + 3) = i + bc.length + 3 + bb.length + 3 := by omega
    cases i6 with
    | fwd _ _ _ _ _ _ hf => cases hf
    | back off _ _ _ _ _ j6 hc6 dk =>
      have hs6 := j6.len
      refine ⟨p1 ++ (s3 ++ (p4 ++ s6)), o6, ls6, D6, X6, by simp, ?_, ?_, ?_, ?_⟩
      · refine .loop c _ _ p1 s3 p4 s6 e2 ?_ e4 ?_
        · have : φ (i + bc.length + (3 + bb.length + 3)) - φ (i + bc.length) = 3 + p4.length + 3 := by
            rw [show i + bc.length + (3 + bb.length + 3) = i + bc.length + 3 + bb.length + 3 by omega, f6, f4, f3]; omega
          simp only [Dec.dist, Dec.withOff, this] at j3
          exact j3
        · have : i + bc.length + 3 + bb.length - (bc.length + 3 + bb.length) = i := by omega
          rw [this, f4, f3, f2] at j6
          have e : φ i + p1.length + 3 + p4.length - φ i = p1.length + 3 + p4.length := by omega
          rw [e] at j6
          exact j6
      · rw [hl, a1, f6, f4, f3, f2]; simp [hs3, hs6]; omega
      · rw [hl, a1]; exact r6
      · obtain ⟨q1, q2, q3⟩ := Dep.jump dj
        obtain ⟨u1, u2, u3⟩ := Dep.jump dk
        simp only [Dec.jeff] at q3 u3
        have m2 := d2.mono
        have m4 := d4.mono
        refine ⟨fun h => u2 (d4.ok (q2 (d2.ok h))), by omega, ?_⟩
        intro hDX d d' ht hd
        simp only [SC.subst, SC.ty] at ht
        split at ht
        · rename_i hh
          cases ht
          obtain ⟨l2, x2⟩ := d2.dep hDX d (d + 1) hh.1 hd
          obtain ⟨l4, x4⟩ := d4.dep (q2 (d2.ok hDX)) d d hh.2 (by omega)
          simp only [SC.subst, SC.maxd]
          omega
        · cases ht

end
end PySOM.BC

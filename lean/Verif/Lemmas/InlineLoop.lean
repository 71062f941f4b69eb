import Verif.Spec.Compiled
import Verif.Lemmas.InlineIns
/-!
# The loop of `_inline_into`
-/
set_option autoImplicit false
namespace PySOM.BC
open PySOM

/-! ## Jumps -/

theorem decodeOp_class {M : Type} {lits : List (Lit M)} {op : Nat} {a b : Option Nat} {d : Dec M} (h : decodeOp lits op a b = some d) :
    (∃ i n, d = .ins i n) ∨ (50 ≤ op ∧ op ≤ 69) := by
  by_cases hj : 50 ≤ op ∧ op ≤ 69
  · exact .inr hj
  · left
    unfold decodeOp at h
    repeat'
      first
      | (cases h; done)
      | (cases h; exact ⟨_, _, rfl⟩)
      | (replace h := ite_elim h
         rcases h with ⟨e, h⟩ | ⟨e, h⟩)
    all_goals
      first
      | (exfalso; apply hj; rw [e]; decide)
      | (simp only [Option.bind_eq_bind, Option.bind_eq_some_iff, Option.some.injEq] at h
         first
         | (obtain ⟨_, _, _, _, _, _, h⟩ := h; exact ⟨_, _, h.symm⟩)
         | (obtain ⟨_, _, _, _, h⟩ := h; exact ⟨_, _, h.symm⟩)
         | (obtain ⟨_, _, h⟩ := h; exact ⟨_, _, h.symm⟩))

theorem jumps_decode {M : Type} {op : Nat} (h : 50 ≤ op ∧ op ≤ 69) {lits : List (Lit M)} {x y : Nat} {d : Dec M}
    (hd : decodeOp lits op (some x) (some y) = some d) :
    (d.isFwd = true ∧ jumpBytecodes.contains op = true ∧ (∀ lits : List (Lit M), decode lits [op, 0, 0] = some (d.withOff 0)) ∧
      (if popJumps.contains op then (-1 : Int) else 0) = d.jeff ∧ (topJumps.contains op = true ∨ popJumps.contains op = true) ∧
      ¬ (op = Op.jumpBackward ∨ op = Op.jump2Backward)) ∨
    ((∃ off, d = .jumpBack off) ∧ (op = Op.jumpBackward ∨ op = Op.jump2Backward)) := by
  rcases jump_cases h with rfl | rfl | rfl | rfl | rfl | rfl | rfl | rfl | rfl | rfl | rfl | rfl | rfl | rfl | rfl | rfl | rfl | rfl |
    rfl | rfl <;> cases hd <;> first
      | exact .inl ⟨rfl, by decide, fun _ => rfl, rfl, by decide, by decide⟩
      | exact .inr ⟨⟨_, rfl⟩, by decide⟩

theorem inlineIns_ins {sub : Meth → Except Err Meth} {lits : List (Lit Meth)} {bytes locals : List Nat} {op i : Nat} {g : G Meth (List Nat)}
    (h : inlineIns sub lits bytes locals op i g = none) : topJumps.contains op = true ∨ popJumps.contains op = true ∨ op = Op.jumpBackward ∨ op = Op.jump2Backward := by
  unfold inlineIns at h
  iterate 18
    replace h := ite_elim h
    rcases h with ⟨_, h⟩ | ⟨_, h⟩
    · cases h
  rcases ite_elim h with ⟨h, _⟩ | ⟨_, h⟩
  · exact h
  · cases h
/-! ## Pending jumps -/

theorem patchHere_ok {tr : Ins Meth → SC Meth} {lits : List (Lit Meth)} {φ : Nat → Nat} {i : Nat} {base src : List Nat} {ls : List (Nat × Nat)}
    {D X D' X' : Int} (h0 : φ 0 = base.length) :
    ∀ (n : Nat) (J J' : List HeapQ.Entry) (g g' : G Meth (List Nat)) (out : List Nat) (pend : List HeapQ.Entry),
      HeapQ.Spec.IsHeap J → J.Perm pend → g.bytes = base ++ out → Its tr lits g.lits φ i 0 src out pend ls D X D' X' → φ i = g.bytes.length →
      patchHere i n J g = .ok (J', g') →
      ∃ out' pend', HeapQ.Spec.IsHeap J' ∧ J'.Perm pend' ∧ g'.bytes = base ++ out' ∧ out'.length = out.length ∧
        Its tr lits g.lits φ i 0 src out' pend' ls D X D' X' ∧ g' = { g with bytes := g'.bytes } := by
  intro n
  induction n with
  | zero =>
    intro J J' g g' out pend hJ hP hb hI _ h
    simp only [patchHere] at h
    cases h
    exact ⟨out, pend, hJ, hP, hb, rfl, hI, rfl⟩
  | succ n ih =>
    intro J J' g g' out pend hJ hP hb hI hφ h
    cases J with
    | nil =>
      simp only [patchHere] at h
      cases h
      exact ⟨out, pend, hJ, hP, hb, rfl, hI, rfl⟩
    | cons e0 J0 =>
      simp only [patchHere] at h
      by_cases hle : e0.address ≤ i
      · rw [if_pos hle] at h
        obtain ⟨e, J1, hpop, hJ1, hperm, _⟩ := HeapQ.heappop_spec (e0 :: J0) hJ (by simp)
        rw [hpop] at h
        dsimp only at h
        by_cases hea : e.address = i
        · rw [if_pos hea] at h
          obtain ⟨g1, hg1, h⟩ := except_bind_ok h
          have hpe : pend.Perm (e :: J1) := hP.symm.trans hperm
          have hmem : e ∈ pend := hpe.mem_iff.mpr (List.mem_cons_self ..)
          obtain ⟨o1, op, o2, ho, hpay, hop, hI'⟩ := hI.patch hmem hea (by rw [hφ, hb, h0]; simp)
          have hbytes : g.bytes = (base ++ o1) ++ op :: 0 :: 0 :: o2 := by rw [hb, ho]; simp
          have hg := patchJump_ok hg1 (by rw [hpay, h0]; simp) hbytes hop
          have hJP : J1.Perm (pend.erase e) := by
            have := hpe.erase e
            rw [List.erase_cons_head] at this
            exact this.symm
          have hlen : (o1 ++ patched op (3 + o2.length) ++ o2).length = out.length := by rw [ho]; simp [patched_length]; omega
          have hlits : g1.lits = g.lits := by rw [hg]
          have hb1 : g1.bytes = base ++ (o1 ++ patched op (3 + o2.length) ++ o2) := by rw [hg]; simp
          obtain ⟨out', pend', r1, r2, r3, r4, r5, r6⟩ := ih J1 J' g1 g' _ _ hJ1 hJP hb1 (by rw [hlits]; exact hI')
            (by rw [hφ, hb, hb1]; simp only [List.length_append] at hlen ⊢; omega) h
          rw [hlits] at r5
          refine ⟨out', pend', r1, r2, r3, by rw [r4, hlen], r5, ?_⟩
          rw [r6, hg]
        · rw [if_neg hea] at h; cases h
      · rw [if_neg hle] at h
        cases h
        exact ⟨out, pend, hJ, hP, hb, rfl, hI, rfl⟩

/-! ## Loops -/

/-- The loops that have not begun yet. -/
def BackInv (bytes : List Nat) (B : List HeapQ.Entry) : Prop := HeapQ.Spec.IsHeap B ∧ ∀ e ∈ B, LoopAt Meth 0 bytes (e.address, e.payload)

/-- The loops that have begun: the end, and the position of the copy of the beginning. -/
def PatchInv (bytes : List Nat) (φ : Nat → Nat) (i : Nat) (P : List HeapQ.Entry) : Prop :=
  HeapQ.Spec.IsHeap P ∧ ∀ e ∈ P, ∃ b, b ≤ i ∧ LoopAt Meth 0 bytes (b, e.address) ∧ e.payload = φ b

theorem isHeap_nil : HeapQ.Spec.IsHeap [] := by intro i hi; simp at hi

theorem backHeap_inv {bytes : List Nat} {loops : List (Nat × Nat)} (h : ∀ e ∈ loops, LoopAt Meth 0 bytes e) : BackInv bytes (backHeap loops) := by
  unfold backHeap
  suffices ∀ (ls : List (Nat × Nat)) (B : List HeapQ.Entry), (∀ e ∈ ls, LoopAt Meth 0 bytes e) → BackInv bytes B →
      BackInv bytes (ls.foldl (fun h l => HeapQ.heappush h ⟨l.1, l.2⟩) B) from this loops [] h ⟨isHeap_nil, by simp⟩
  intro ls
  induction ls with
  | nil => intro B _ hB; exact hB
  | cons l ls ih =>
    intro B hl hB
    refine ih _ (fun e he => hl e (List.mem_cons_of_mem _ he)) ?_
    obtain ⟨h1, h2⟩ := HeapQ.heappush_spec B ⟨l.1, l.2⟩ hB.1
    refine ⟨h1, fun e he => ?_⟩
    rcases List.mem_cons.mp (h2.mem_iff.mp he) with rfl | he
    · exact hl l (List.mem_cons_self ..)
    · exact hB.2 e he

theorem prepareBack_ok {bytes : List Nat} {φ : Nat → Nat} {i here : Nat} (hφ : φ i = here) :
    ∀ (n : Nat) (B P B' P' : List HeapQ.Entry), BackInv bytes B → PatchInv bytes φ i P → prepareBack i here n B P = .ok (B', P') →
      BackInv bytes B' ∧ PatchInv bytes φ i P' := by
  intro n
  induction n with
  | zero => intro B P B' P' hB hP h; simp only [prepareBack] at h; cases h; exact ⟨hB, hP⟩
  | succ n ih =>
    intro B P B' P' hB hP h
    cases B with
    | nil => simp only [prepareBack] at h; cases h; exact ⟨hB, hP⟩
    | cons e0 B0 =>
      simp only [prepareBack] at h
      by_cases hle : e0.address ≤ i
      · rw [if_pos hle] at h
        obtain ⟨e, B1, hpop, hB1, hperm, _⟩ := HeapQ.heappop_spec (e0 :: B0) hB.1 (by simp)
        rw [hpop] at h
        dsimp only at h
        by_cases hea : e.address = i
        · rw [if_pos hea] at h
          have he := hB.2 e (hperm.mem_iff.mpr (List.mem_cons_self ..))
          obtain ⟨p1, p2⟩ := HeapQ.heappush_spec P ⟨e.payload, here⟩ hP.1
          refine ih B1 _ B' P' ⟨hB1, fun x hx => hB.2 x (hperm.mem_iff.mpr (List.mem_cons_of_mem _ hx))⟩ ⟨p1, fun x hx => ?_⟩ h
          rcases List.mem_cons.mp (p2.mem_iff.mp hx) with rfl | hx
          · exact ⟨i, Nat.le_refl _, by rw [← hea]; exact he, hφ.symm⟩
          · exact hP.2 x hx
        · rw [if_neg hea] at h; cases h
      · rw [if_neg hle] at h; cases h; exact ⟨hB, hP⟩

theorem PatchInv.upd {bytes : List Nat} {φ φ' : Nat → Nat} {i i' : Nat} {P : List HeapQ.Entry} (h : PatchInv bytes φ i P) (hφ : ∀ t, t ≤ i → φ' t = φ t)
    (hi : i ≤ i') : PatchInv bytes φ' i' P := by
  refine ⟨h.1, fun e he => ?_⟩
  obtain ⟨b, h1, h2, h3⟩ := h.2 e he
  exact ⟨b, by omega, h2, by rw [h3, hφ b h1]⟩

/-! ## The invariant -/

/-- The state after the instructions before position `i` have been copied; `g0` is the context at the beginning. -/
structure Inv (tr : Ins Meth → SC Meth) (lits : List (Lit Meth)) (bytes : List Nat) (g0 : G Meth (List Nat)) (i : Nat) (s : InlSt) (φ : Nat → Nat)
    (src out : List Nat) (pend : List HeapQ.Entry) (ls : List (Nat × Nat)) : Prop where
  len : src.length = i
  outs : s.g.bytes = g0.bytes ++ out
  its : Its tr lits s.g.lits φ i 0 src out pend ls g0.depth g0.maxDepth s.g.depth s.g.maxDepth
  start : φ 0 = g0.bytes.length
  here : φ i = s.g.bytes.length
  range : ∀ t, t ≤ i → g0.bytes.length ≤ φ t ∧ φ t ≤ φ i
  heap : HeapQ.Spec.IsHeap s.jumps
  jumps : s.jumps.Perm pend
  back : BackInv bytes s.back
  patch : PatchInv bytes φ i s.patch
  lits : g0.lits <+: s.g.lits
  lvl : s.g.lvl = g0.lvl
  keep : Keep g0 s.g
  loops : s.g.loops = g0.loops ++ ls
  begins : ∀ e ∈ ls, g0.bytes.length ≤ e.1

/-- The map of positions after an instruction at `i`. -/
def extend (φ : Nat → Nat) (i n : Nat) : Nat → Nat := fun t => if t ≤ i then φ t else n

theorem extend_le {φ : Nat → Nat} {i n t : Nat} (h : t ≤ i) : extend φ i n t = φ t := by unfold extend; rw [if_pos h]
theorem extend_gt {φ : Nat → Nat} {i n t : Nat} (h : i < t) : extend φ i n t = n := by unfold extend; rw [if_neg (by omega)]

/-- After an instruction. -/
theorem Inv.step {tr : Ins Meth → SC Meth} {lits : List (Lit Meth)} {bytes : List Nat} {g0 : G Meth (List Nat)} {i : Nat} {s s' : InlSt} {φ : Nat → Nat}
    {src out : List Nat} {pend : List HeapQ.Entry} {ls : List (Nat × Nat)} (h : Inv tr lits bytes g0 i s φ src out pend ls)
    {d : Dec Meth} {b seg : List Nat} {p : List HeapQ.Entry} {l : List (Nat × Nat)} (hd : Is lits d b) (hl : b.length = d.len) (hpos : 1 ≤ b.length)
    (hb : s'.g.bytes = s.g.bytes ++ seg)
    (hi : Item tr s'.g.lits (extend φ i s'.g.bytes.length) (i + b.length) i d seg p l s.g.depth s.g.maxDepth s'.g.depth s'.g.maxDepth)
    (hlits : s.g.lits <+: s'.g.lits) (hlvl : s'.g.lvl = s.g.lvl) (hkeep : Keep s.g s'.g) (hloops : s'.g.loops = s.g.loops ++ l)
    (hbegin : ∀ e ∈ l, g0.bytes.length ≤ e.1)
    (hheap : HeapQ.Spec.IsHeap s'.jumps) (hjumps : s'.jumps.Perm (s.jumps ++ p)) (hback : BackInv bytes s'.back) (hpatch : PatchInv bytes φ i s'.patch) :
    Inv tr lits bytes g0 (i + b.length) s' (extend φ i s'.g.bytes.length) (src ++ b) (out ++ seg) (pend ++ p) (ls ++ l) where
  len := by simp [h.len]
  outs := by rw [hb, h.outs]; simp
  its := by
    have := h.its.upd (φ' := extend φ i s'.g.bytes.length) (cur' := i + b.length) hlits (fun t ht => extend_le ht) (Nat.le_add_right ..) (by rw [h.len]; omega)
    refine this.snoc hd hl (by rw [Nat.zero_add, h.len]; exact hi) ?_
    rw [Nat.zero_add, h.len, extend_gt (by omega), extend_le (Nat.le_refl i), h.here, hb]
    simp
  start := by rw [extend_le (Nat.zero_le _)]; exact h.start
  here := extend_gt (by omega)
  range := by
    intro t ht
    rw [extend_gt (show i < i + b.length by omega)]
    have hi := h.range i (Nat.le_refl i)
    have he := h.here
    have hlen : s'.g.bytes.length = s.g.bytes.length + seg.length := by rw [hb]; simp
    by_cases hti : t ≤ i
    · rw [extend_le hti]
      have := h.range t hti
      omega
    · rw [extend_gt (by omega)]
      omega
  heap := hheap
  jumps := hjumps.trans (h.jumps.append_right p)
  back := hback
  patch := hpatch.upd (fun t ht => extend_le ht) (by omega)
  lits := h.lits.trans hlits
  lvl := hlvl.trans h.lvl
  keep := h.keep.trans hkeep
  loops := by rw [hloops, h.loops]; simp
  begins := by
    intro e he
    rcases List.mem_append.mp he with he | he
    · exact h.begins e he
    · exact hbegin e he

theorem emitBackJump_ok {M X : Type} {g g' : G M X} {begin : Nat} (h : emitBackJump g begin = .ok g') (hb : begin ≤ g.bytes.length) :
    ∃ seg, g'.bytes = g.bytes ++ seg ∧ IsJump (M := M) (.jumpBack (g.bytes.length - begin)) seg ∧ g'.lits = g.lits ∧ g'.lvl = g.lvl ∧ Keep g g' ∧
      g'.loops = g.loops ++ [(begin, g.bytes.length)] ∧ DepJ 0 g.depth g.maxDepth g'.depth g'.maxDepth := by
  unfold emitBackJump at h
  dsimp only at h
  split at h
  · cases h
  · have hoff : ((g.bytes.length : Int) - (begin : Int)).toNat = g.bytes.length - begin := by omega
    rw [hoff] at h
    cases h
    refine ⟨_, emit3_bytes .., isJump_back _, rfl, rfl, ⟨rfl, rfl⟩, rfl, rfl, ?_, ?_⟩
    · show g.maxDepth ≤ max g.maxDepth (g.depth + 0); omega
    · intro _; show g.depth + 0 ≤ max g.maxDepth (g.depth + 0); omega

theorem lenOf_decode {M : Type} {lits : List (Lit M)} {op : Nat} {rest : List Nat} {d : Dec M} (h : decode lits (op :: rest) = some d) : lenOf op = .ok d.len :=
  lenOf_ok (C44_lengths_agree lits op rest d h)

/-- One instruction. -/
theorem inlineOp_ok {sub : Meth → Except Err Meth} {lits : List (Lit Meth)} {bytes locals : List Nat} {g0 : G Meth (List Nat)} {i : Nat} {s s' : InlSt}
    {φ : Nat → Nat} {src out : List Nat} {pend : List HeapQ.Entry} {ls : List (Nat × Nat)}
    (h : Inv (inlIns sub g0.lvl g0.env locals) lits bytes g0 i s φ src out pend ls) (hinl : g0.inl = true) {op : Nat} {bt rest : List Nat} {d : Dec Meth}
    (hbs : bytes = src ++ (op :: bt ++ rest)) (hd : Is lits d (op :: bt)) (hl : (op :: bt).length = d.len) (hj : (∃ i n, d = .ins i n) ∨ IsJump d (op :: bt))
    (hok : ∀ j n, d = .ins j n → InsOK g0.lvl j) (hr : inlineOp sub lits bytes locals op i s = .ok s') :
    ∃ φ' seg p l, Inv (inlIns sub g0.lvl g0.env locals) lits bytes g0 (i + (op :: bt).length) s' φ' (src ++ op :: bt) (out ++ seg) (pend ++ p) (ls ++ l) := by
  have hdec : decodeOp lits op bytes[i + 1]? bytes[i + 2]? = some d := by
    have := hd rest
    rw [List.cons_append] at this
    simp only [decode] at this
    rw [← this, hbs, ← h.len]
    simp [List.getElem?_append_right]
  have hpos : 1 ≤ (op :: bt).length := by simp
  unfold inlineOp at hr
  have hj : (∃ i n, d = .ins i n) ∨ ((¬ ∃ i n, d = .ins i n) ∧ IsJump d (op :: bt)) := by
    by_cases hx : ∃ i n, d = .ins i n
    · exact .inl hx
    · exact .inr ⟨hx, hj.resolve_left hx⟩
  rcases hj with ⟨j, n, rfl⟩ | ⟨hni, hj⟩
  · cases hins : inlineIns sub lits bytes locals op i s.g with
    | none =>
      exfalso
      have hc : topJumps.contains op = true ∨ popJumps.contains op = true ∨ op = Op.jumpBackward ∨ op = Op.jump2Backward := inlineIns_ins hins
      have key : ∀ n, n < 78 → topJumps.contains n = true ∨ popJumps.contains n = true ∨ n = Op.jumpBackward ∨ n = Op.jump2Backward →
          jumpBytecodes.contains n = true := by decide +kernel
      have hjmp := key op (decodeOp_lt hdec) hc
      have h50 := mem_jumps hjmp
      rcases jump_cases h50 with rfl | rfl | rfl | rfl | rfl | rfl | rfl | rfl | rfl | rfl | rfl | rfl | rfl | rfl | rfl | rfl | rfl | rfl | rfl | rfl <;>
        (generalize bytes[i + 1]? = a at hdec
         generalize bytes[i + 2]? = b at hdec
         cases a <;> cases b <;> cases hdec)
    | some r =>
      rw [hins] at hr
      obtain ⟨g', hg', hr⟩ := except_bind_ok hr
      subst hg'
      cases hr
      have e := inlineIns_ok hdec (by rw [h.lvl]; exact hok j n rfl) (by rw [h.keep.1]; exact hinl) hins
      rw [h.lvl, h.keep.2] at e
      obtain ⟨seg, hseg, henc⟩ := e.bytes
      refine ⟨_, seg, [], [], h.step hd hl hpos hseg (.ins j n seg _ _ _ _ henc e.dep) e.lits e.lvl e.keep (by rw [List.append_nil]; exact e.loops)
        (by simp) h.heap (by simp) h.back h.patch⟩
  · obtain ⟨op', x, y, hbt, hdist⟩ := hj.dist
    obtain ⟨rfl, rfl⟩ : op = op' ∧ bt = [x, y] := by simpa using hbt
    have hx : bytes[i + 1]? = some x := by rw [hbs, ← h.len]; simp
    have hy : bytes[i + 2]? = some y := by rw [hbs, ← h.len]; simp
    rw [hx, hy] at hdec
    have h50 : 50 ≤ op ∧ op ≤ 69 := by
      rcases decodeOp_class hdec with ⟨k, n, rfl⟩ | h
      · exact absurd ⟨k, n, rfl⟩ hni
      · exact h
    have hins : inlineIns sub lits bytes locals op i s.g = none := by
      rcases jump_cases h50 with rfl | rfl | rfl | rfl | rfl | rfl | rfl | rfl | rfl | rfl | rfl | rfl | rfl | rfl | rfl | rfl | rfl | rfl | rfl | rfl <;> rfl
    rw [hins] at hr
    dsimp only at hr
    rcases jumps_decode h50 hdec with ⟨hf, hop, hdec0, heff, _, hnb⟩ | ⟨⟨off, rfl⟩, hb⟩
    · rw [if_neg hnb] at hr
      obtain ⟨a, ha, hr⟩ := except_bind_ok hr
      obtain ⟨b, hb, hr⟩ := except_bind_ok hr
      have ha := getByte_ok ha
      have hb := getByte_ok hb
      rw [hx] at ha
      rw [hy] at hb
      cases ha
      cases hb
      cases hr
      obtain ⟨p1, p2⟩ := HeapQ.heappush_spec s.jumps ⟨i + (x + y <<< 8), s.g.bytes.length + 1⟩ h.heap
      have hit := Item.pend (tr := inlIns sub g0.lvl g0.env locals) (lits := s.g.lits) (φ := extend φ i (emit3Dummy s.g op (if popJumps.contains op then -1 else 0)).2.bytes.length)
        (cur := i + [op, x, y].length) (i := i) d op s.g.depth s.g.maxDepth (s.g.depth + (if popJumps.contains op then -1 else 0))
        (max s.g.maxDepth (s.g.depth + (if popJumps.contains op then -1 else 0))) hf hop hdec0 ⟨by rw [heff], by omega, by omega⟩
      rw [extend_le (Nat.le_refl i), h.here, hdist] at hit
      exact ⟨_, _, _, _, h.step (s' := ⟨(emit3Dummy s.g op (if popJumps.contains op then -1 else 0)).2, _, s.back, s.patch⟩) hd hl hpos (emit3Dummy_bytes s.g op _) hit
        (List.prefix_refl _) rfl ⟨rfl, rfl⟩ (by simp [emit3Dummy, addArg, addBytecode]) (by simp) p1 (p2.trans (List.perm_append_singleton _ _).symm) h.back h.patch⟩
    · rw [if_pos hb] at hr
      cases hP : s.patch with
      | nil => rw [hP] at hr; cases hr
      | cons e0 P0 =>
        obtain ⟨e, P1, hpop, hP1, hperm, _⟩ := HeapQ.heappop_spec s.patch h.patch.1 (by rw [hP]; simp)
        rw [hpop] at hr
        dsimp only at hr
        by_cases hea : e.address = i
        · rw [if_pos hea] at hr
          obtain ⟨g', hg', hr⟩ := except_bind_ok hr
          cases hr
          obtain ⟨b, hbi, ⟨_, hbe, pre, j, post, hpre, hprel, hjj⟩, hpay⟩ := h.patch.2 e (hperm.mem_iff.mpr (List.mem_cons_self ..))
          dsimp only at hbe hprel hjj
          rw [hea] at hbe hprel hjj
          have hsplit := List.append_inj (hpre.symm.trans hbs) (by rw [hprel]; exact h.len.symm)
          have hu := Is.unique (hjj.is lits) hd (by rw [hjj.len]; rfl) hl hsplit.2
          have hoff : i - b = off := by have := hu.1; injection this
          have hbi' : i - off = b := by omega
          have hrb := h.range b hbi
          obtain ⟨seg, g1, g2, g3, g4, g5, g6, g7⟩ := emitBackJump_ok hg' (by rw [hpay, ← h.here]; exact hrb.2)
          have hlits : s.g.lits <+: g'.lits := by rw [g3]; exact List.prefix_refl _
          have hit := Item.back (tr := inlIns sub g0.lvl g0.env locals) (lits := g'.lits) (φ := extend φ i g'.bytes.length) (cur := i + [op, x, y].length) (i := i) off seg
            s.g.depth s.g.maxDepth g'.depth g'.maxDepth (by rw [hbi', extend_le (Nat.le_refl i), extend_le hbi, h.here, ← hpay]; exact g2)
            (by rw [hbi', extend_le (Nat.le_refl i), extend_le hbi]; exact hrb.2) g7
          rw [hbi', extend_le (Nat.le_refl i), extend_le hbi] at hit
          exact ⟨_, _, _, _, h.step (s' := ⟨g', s.jumps, s.back, P1⟩) hd hl hpos g1 hit hlits g4 g5
            (by rw [g6, hpay, ← h.here]) (by simp only [List.mem_singleton]; rintro _ rfl; exact hrb.1) h.heap (by simp) h.back
            ⟨hP1, fun x hx => h.patch.2 x (hperm.mem_iff.mpr (List.mem_cons_of_mem _ hx))⟩⟩
        · rw [if_neg hea] at hr; cases hr
end PySOM.BC

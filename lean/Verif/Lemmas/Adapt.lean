import Verif.Lemmas.InlineMeth
import Verif.Lemmas.Quick
/-!
# Adapting a block nested in an inlined one
-/
set_option autoImplicit false
namespace PySOM.BC
open PySOM

theorem decodeOp_lits {M : Type} {l l' : List (Lit M)} {op : Nat} {a b : Option Nat} {d : Dec M} (hv : ∀ i v, constVal l i = some v → constVal l' i = some v)
    (hs : ∀ i v, constSym l i = some v → constSym l' i = some v)
    (hm : op = Op.pushBlock ∨ op = Op.pushBlockNoCtx → ∀ i v, a = some i → constMeth l i = some v → constMeth l' i = some v)
    (h : decodeOp l op a b = some d) : decodeOp l' op a b = some d := by
  have hlt := decodeOp_lt h
  opcases op hn <;>
  (unfold decodeOp at h ⊢
   repeat rw [if_neg (by decide)] at h
   repeat rw [if_neg (by decide)]
   first
   | exact h
   | (rw [if_pos rfl] at h ⊢
      first
      | exact h
      | (simp only [Option.bind_eq_bind, Option.bind_eq_some_iff, Option.some.injEq] at h ⊢
         first
         | (obtain ⟨x, h1, h⟩ := h; first | exact ⟨x, hv _ _ h1, h⟩ | exact ⟨x, hs _ _ h1, h⟩)
         | (obtain ⟨i, hi, x, h1, h⟩ := h
            first | exact ⟨i, hi, x, hv _ _ h1, h⟩ | exact ⟨i, hi, x, hs _ _ h1, h⟩ | exact ⟨i, hi, x, hm (by decide) _ _ hi h1, h⟩))))

/-- The literals after the blocks at the positions `D` have been adapted. -/
def LRel (sub : Meth → Except Err Meth) (l0 l : List (Lit Meth)) (D : List Nat) : Prop :=
  ∀ x : Nat, l[x]? = (l0[x]?).map fun l => match l with
    | .val v => .val v
    | .meth m => .meth (if x ∈ D then (sub m).toOption.getD m.stub else m)

theorem LRel.val {sub : Meth → Except Err Meth} {l0 l : List (Lit Meth)} {D : List Nat} (h : LRel sub l0 l D) (i : Nat) (v : Val)
    (hv : constVal l0 i = some v) : constVal l i = some v := by
  unfold constVal at hv ⊢
  rw [h i]
  split at hv
  · rename_i e; rw [e]; exact hv
  · cases hv

theorem LRel.sym {sub : Meth → Except Err Meth} {l0 l : List (Lit Meth)} {D : List Nat} (h : LRel sub l0 l D) (i : Nat) (v : Sel)
    (hv : constSym l0 i = some v) : constSym l i = some v := by
  unfold constSym at hv ⊢
  rw [h i]
  split at hv
  · rename_i e; rw [e]; exact hv
  · cases hv

theorem constMeth_some {M : Type} {l : List (Lit M)} {i : Nat} {m : M} (h : constMeth l i = some m) : l[i]? = some (.meth m) := by
  unfold constMeth at h
  split at h
  · rename_i e; cases h; exact e
  · cases h

theorem LRel.meth {sub : Meth → Except Err Meth} {l0 l : List (Lit Meth)} {D : List Nat} (h : LRel sub l0 l D) {i : Nat} {m : Meth}
    (hv : l0[i]? = some (.meth m)) : l[i]? = some (.meth (if i ∈ D then (sub m).toOption.getD m.stub else m)) := by
  rw [h i, hv]; rfl

theorem Meth.id_mem (m : Meth) : m.id ∈ m.ids := by
  cases m <;> simp [Meth.id, Meth.ids]

/-- The block at position `x` is one of those with the identities `ids`. -/
def BlockAt (l0 : List (Lit Meth)) (ids : List Nat) (x : Nat) : Prop := ∃ m, l0[x]? = some (.meth m) ∧ m.id ∈ ids

/-- A byte sequence that encodes `c` with literals in which the blocks of `c` are adapted as they are in `D`. -/
def Adapted (sub : Meth → Except Err Meth) (l0 : List (Lit Meth)) (D : List Nat) (ids : List Nat) (P : List (Lit Meth) → Prop) : Prop :=
  ∀ lF DF, LRel sub l0 lF DF → (∀ x ∈ D, x ∈ DF) → (∀ x ∈ DF, x ∉ D → ¬ BlockAt l0 ids x) → P lF

/-- The bytecodes that are not changed. -/
theorem noContext_same {sub : Meth → Except Err Meth} {k : Nat} {chain : List (List Nat)} {new : List Nat} {lits : List (Lit Meth)} {op : Nat}
    {a b : Option Nat} {j : Ins Meth} {n : Nat} (hn : noContextBytecodes.contains op = true) (h : decodeOp lits op a b = some (.ins j n)) :
    adaptIns sub k chain new j = j ∧ op ≠ Op.pushBlock := by
  have hlt := decodeOp_lt h
  opcases op hx <;>
  first
  | (exfalso; revert hn; decide)
  | (refine ⟨?_, by decide⟩
     unfold decodeOp at h
     repeat rw [if_neg (by decide)] at h
     first
     | (cases h; done)
     | (rw [if_pos rfl] at h
        simp only [Option.bind_eq_bind, Option.bind_eq_some_iff, Option.some.injEq, Dec.ins.injEq, reduceCtorEq] at h
        first
        | (obtain ⟨rfl, _⟩ := h; rfl)
        | (obtain ⟨x, _, rfl, _⟩ := h; rfl)
        | (obtain ⟨x, _, y, _, rfl, _⟩ := h; rfl)
        | (obtain ⟨x, _, y, _, z, _, rfl, _⟩ := h; rfl)
        | (simp only [exists_const, and_false, exists_false] at h)))

theorem setByte_ok {bs bs' : List Nat} {i v : Nat} (h : setByte bs i v = .ok bs') : bs' = bs.set i v ∧ i < bs.length := by
  unfold setByte at h
  split at h
  · rename_i hc; cases h; exact ⟨rfl, hc.1⟩
  · cases h

theorem is_three {M : Type} {lits : List (Lit M)} {op : Nat} {bt : List Nat} {j : Ins M} (h : Is lits (.ins j (op :: bt).length) (op :: bt))
    (hl : bytecodeLength op = some 3) : ∃ x y, bt = [x, y] := by
  have h1 := C44_lengths_agree lits op bt _ (show decode lits (op :: bt) = _ from by have := h []; rwa [List.append_nil] at this)
  rw [hl] at h1
  simp only [Dec.len, Option.some.injEq, List.length_cons] at h1
  match bt, h1 with
  | [x, y], _ => exact ⟨x, y, rfl⟩

theorem is_two {M : Type} {lits : List (Lit M)} {op : Nat} {bt : List Nat} {j : Ins M} (h : Is lits (.ins j (op :: bt).length) (op :: bt))
    (hl : bytecodeLength op = some 2) : ∃ x, bt = [x] := by
  have h1 := C44_lengths_agree lits op bt _ (show decode lits (op :: bt) = _ from by have := h []; rwa [List.append_nil] at this)
  rw [hl] at h1
  simp only [Dec.len, Option.some.injEq, List.length_cons] at h1
  match bt, h1 with
  | [x], _ => exact ⟨x, rfl⟩

/-- One instruction. -/
theorem adaptOp_ok {sub : Meth → Except Err Meth} {k : Nat} {chain : List (List Nat)} {new : List Nat} {l0 l l1 : List (Lit Meth)} {op : Nat}
    {bt pre post bs1 : List Nat} {j : Ins Meth} {D : List Nat} (hd : Is l0 (.ins j (op :: bt).length) (op :: bt)) (hl : LRel sub l0 l D)
    (hD : ∀ x ∈ D, ¬ BlockAt l0 j.ids x) (h : adaptOp sub k chain new op pre.length (pre ++ (op :: bt ++ post)) l = .ok (bs1, l1)) :
    ∃ b1 D1, bs1 = pre ++ (b1 ++ post) ∧ b1.length = (op :: bt).length ∧ LRel sub l0 l1 D1 ∧ (∀ x ∈ D, x ∈ D1) ∧ (∀ x ∈ D1, x ∉ D → BlockAt l0 j.ids x) ∧
      Adapted sub l0 D1 j.ids fun lF => Is lF (.ins (adaptIns sub k chain new j) b1.length) b1 := by
  have hdec : decodeOp l0 op bt[0]? bt[1]? = some (.ins j (op :: bt).length) := by
    have := hd []
    rwa [List.append_nil] at this
  have keep : ∀ {x y l}, bt = [x, y] → getByte (pre ++ (op :: bt ++ post)) (pre.length + 2) = .ok l → y = l := by
    intro x y l e h
    have := getByte_ok h
    rw [e] at this
    simpa using this
  have keep1 : ∀ {x r l}, bt = x :: r → getByte (pre ++ (op :: bt ++ post)) (pre.length + 1) = .ok l → x = l := by
    intro x r l e h
    have := getByte_ok h
    rw [e] at this
    simpa using this
  have nochange : l1 = l → ∀ b1 : List Nat, bs1 = pre ++ (b1 ++ post) → b1.length = (op :: bt).length →
      (∀ lF, Is lF (.ins (adaptIns sub k chain new j) b1.length) b1) →
      ∃ b1 D1, bs1 = pre ++ (b1 ++ post) ∧ b1.length = (op :: bt).length ∧ LRel sub l0 l1 D1 ∧ (∀ x ∈ D, x ∈ D1) ∧ (∀ x ∈ D1, x ∉ D → BlockAt l0 j.ids x) ∧
        Adapted sub l0 D1 j.ids fun lF => Is lF (.ins (adaptIns sub k chain new j) b1.length) b1 := by
    intro e b1 h1 h2 h3
    subst e
    exact ⟨b1, D, h1, h2, hl, fun _ h => h, fun x h hn => absurd h hn, fun lF _ _ _ _ => h3 lF⟩
  unfold adaptOp at h
  replace h := ite_elim h
  rcases h with ⟨e, h⟩ | ⟨e, h⟩
  · cases h
    obtain ⟨hsame, hne⟩ := noContext_same (sub := sub) (k := k) (chain := chain) (new := new) e hdec
    refine ⟨op :: bt, D, rfl, rfl, hl, fun _ h => h, fun x h hn => absurd h hn, ?_⟩
    intro lF DF hF h1 h2 rest
    have := hd rest
    simp only [decode, List.cons_append] at this ⊢
    rw [hsame]
    refine decodeOp_lits hF.val hF.sym ?_ this
    rintro (rfl | rfl) i v hi hm
    · exact absurd rfl hne
    · have hm := constMeth_some hm
      have hj : j = .pushBlock false v := by
        have hdd : (do let y ← (do let x ← (bt ++ rest)[0]?; constMeth l0 x); some (Dec.ins (Ins.pushBlock false y) 2)) = some (Dec.ins j (Op.pushBlockNoCtx :: bt).length) := by
          rw [← this]; cases (bt ++ rest)[0]? <;> rfl
        rw [hi] at hdd
        simp only [Option.bind_eq_bind, Option.bind_some, constMeth_of hm] at hdd
        simp only [Option.some.injEq, Dec.ins.injEq] at hdd
        exact hdd.1.symm
      have hat : BlockAt l0 j.ids i := ⟨v, hm, by rw [hj]; exact v.id_mem⟩
      have hnot : i ∉ DF := fun hx => h2 i hx (fun hD' => hD i hD' hat) hat
      have := hF.meth hm
      rw [if_neg hnot] at this
      exact constMeth_of this
  replace h := ite_elim h
  rcases h with ⟨e, h⟩ | ⟨e, h⟩
  · obtain ⟨l', hl', h⟩ := except_bind_ok h
    obtain ⟨x, y, rfl⟩ := is_three hd (by rcases e with rfl | rfl | rfl | rfl | rfl | rfl <;> rfl)
    obtain rfl := keep rfl hl'
    have hset : (pre ++ ([op, x, y] ++ post)).set (pre.length + 2) (y - 1) = pre ++ ([op, x, y - 1] ++ post) := by
      rw [List.set_append_right _ _ (by omega)]
      simp
    split at h
    · rename_i hgt
      obtain ⟨bs2, hs, h⟩ := except_bind_ok h
      cases h
      obtain ⟨rfl, _⟩ := setByte_ok hs
      refine nochange rfl [op, x, y - 1] hset rfl ?_
      intro lF rest
      rcases e with rfl | rfl | rfl | rfl | rfl | rfl <;> cases hdec <;> simp only [adaptIns, if_pos hgt] <;> rfl
    · rename_i hgt
      cases h
      refine nochange rfl [op, x, y] rfl rfl ?_
      intro lF rest
      rcases e with rfl | rfl | rfl | rfl | rfl | rfl <;> cases hdec <;> simp only [adaptIns, if_neg hgt] <;> rfl
  replace h := ite_elim h
  rcases h with ⟨e, h⟩ | ⟨e, h⟩
  · subst e
    obtain ⟨x', hx', h⟩ := except_bind_ok h
    obtain ⟨x, rfl⟩ := is_two hd rfl
    obtain rfl := keep1 rfl hx'
    have hdd : (do let y ← (constMeth l0 x); some (Dec.ins (Ins.pushBlock true y) 2)) = some (Dec.ins j 2) := hdec
    simp only [Option.bind_eq_bind, Option.bind_eq_some_iff, Option.some.injEq, Dec.ins.injEq, and_true] at hdd
    obtain ⟨m, hm, rfl⟩ := hdd
    have hm := constMeth_some hm
    have hat : BlockAt l0 (Ins.pushBlock true m).ids x := ⟨m, hm, m.id_mem⟩
    have hx : x ∉ D := fun hx => hD x hx hat
    have hlx := hl.meth hm
    rw [if_neg hx] at hlx
    rw [hlx] at h
    dsimp only at h
    obtain ⟨m', hm', h⟩ := except_bind_ok h
    cases h
    have hr : (sub m).toOption.getD m.stub = m' := by rw [hm']; rfl
    refine ⟨[Op.pushBlock, x], x :: D, rfl, rfl, ?_, fun _ h => List.mem_cons_of_mem _ h, ?_, ?_⟩
    · intro y
      by_cases hy : y = x
      · subst hy
        rw [List.getElem?_set_self (List.getElem?_eq_some_iff.mp hlx).1, hm]
        simp only [Option.map_some, List.mem_cons, true_or, if_true, hr]
      · rw [List.getElem?_set_ne (fun e => hy e.symm), hl y]
        congr 1
        funext q
        cases q with
        | val _ => rfl
        | meth _ => simp only [List.mem_cons, hy, false_or]
    · intro y hy hn
      rcases List.mem_cons.mp hy with rfl | hy
      · exact hat
      · exact absurd hy hn
    · intro lF DF hF h1 _ rest
      have := hF.meth hm
      rw [if_pos (h1 x (List.mem_cons_self ..))] at this
      show (do some (Dec.ins (.pushBlock true (← constMeth lF x)) 2)) = _
      rw [constMeth_of this]; rfl
  replace h := ite_elim h
  rcases h with ⟨e, h⟩ | ⟨e, h⟩
  · obtain ⟨l', hl', h⟩ := except_bind_ok h
    obtain ⟨x, y, rfl⟩ := is_three hd (by rcases e with rfl | rfl <;> rfl)
    obtain rfl := keep rfl hl'
    split at h
    · rename_i hk
      obtain ⟨idx, hidx, h⟩ := except_bind_ok h
      obtain rfl := keep1 rfl hidx
      obtain ⟨v, hv, h⟩ := except_bind_ok h
      obtain ⟨nw, hnw, h⟩ := except_bind_ok h
      obtain ⟨bs2, hs, h⟩ := except_bind_ok h
      cases h
      obtain ⟨rfl, _⟩ := setByte_ok hs
      have hr : ((getLocal chain x y).bind (inlinedIdx new)).toOption.getD x = nw := by rw [hv]; simp only [Except.bind, hnw]; rfl
      have hset : (pre ++ ([op, x, y] ++ post)).set (pre.length + 1) nw = pre ++ ([op, nw, y] ++ post) := by
        rw [List.set_append_right _ _ (by omega)]
        simp
      refine nochange rfl [op, nw, y] hset rfl ?_
      intro lF rest
      rcases e with rfl | rfl <;> cases hdec <;> simp only [adaptIns, if_pos hk, hr] <;> rfl
    · rename_i hk
      split at h
      · rename_i hgt
        obtain ⟨bs2, hs, h⟩ := except_bind_ok h
        cases h
        obtain ⟨rfl, _⟩ := setByte_ok hs
        have hset : (pre ++ ([op, x, y] ++ post)).set (pre.length + 2) (y - 1) = pre ++ ([op, x, y - 1] ++ post) := by
          rw [List.set_append_right _ _ (by omega)]
          simp
        refine nochange rfl [op, x, y - 1] hset rfl ?_
        intro lF rest
        rcases e with rfl | rfl <;> cases hdec <;> simp only [adaptIns, if_neg hk, if_pos hgt] <;> rfl
      · rename_i hgt
        cases h
        refine nochange rfl [op, x, y] rfl rfl ?_
        intro lF rest
        rcases e with rfl | rfl <;> cases hdec <;> simp only [adaptIns, if_neg hk, if_neg hgt] <;> rfl
  replace h := ite_elim h
  rcases h with ⟨e, h⟩ | ⟨e, h⟩
  · subst e
    obtain ⟨x', hx', h⟩ := except_bind_ok h
    obtain ⟨x, rfl⟩ := is_two hd rfl
    obtain rfl := keep1 rfl hx'
    obtain ⟨y, hy, h⟩ := except_bind_ok h
    obtain ⟨bs2, hs, h⟩ := except_bind_ok h
    cases h
    obtain ⟨rfl, _⟩ := setByte_ok hs
    have hy : y = x - 1 := by
      unfold subAssert at hy
      split at hy <;> cases hy
      rfl
    subst hy
    have hset : (pre ++ ([Op.returnNonLocal, x] ++ post)).set (pre.length + 1) (x - 1) = pre ++ ([Op.returnNonLocal, x - 1] ++ post) := by
      rw [List.set_append_right _ _ (by omega)]
      simp
    refine nochange rfl [Op.returnNonLocal, x - 1] hset rfl ?_
    intro lF rest
    cases hdec
    rfl
  · cases h

end PySOM.BC

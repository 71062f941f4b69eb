import Verif.Lemmas.Quiet
import Verif.Lemmas.Access
/-!
# Levels that exist

Code that runs in a frame around which there are `d` others accesses only these, and returns only from the outermost, and only if that is the frame of a method that catches returns.
-/
set_option autoImplicit false
namespace PySOM.BC
open PySOM

def Triv.fits (d : Nat) : Triv Meth → Prop
  | .fldRead _ l => l ≤ d
  | _ => True

mutual
/-- A block fits into frames of depth `d`; `t` says that the outermost one is that of a method that catches returns. -/
def Meth.fits (t : Bool) : Nat → Meth → Prop
  | d, .bc _ _ _ _ _ _ _ code => code.fits t d
  | d, .triv _ x => x.fits d
def SC.fits (t : Bool) : Nat → SC Meth → Prop
  | _, .nop => True
  | d, .ins i => i.fits t d
  | d, .seq a b => a.fits t d ∧ b.fits t d
  | d, .thenB _ b => b.fits t d
  | d, .ifElse _ a b => a.fits t d ∧ b.fits t d
  | d, .loop _ a b => a.fits t d ∧ b.fits t d
def Ins.fits (t : Bool) : Nat → Ins Meth → Prop
  | d, .pushVar _ _ l => l ≤ d
  | d, .popVar _ _ l => l ≤ d
  | d, .pushFld _ l => l ≤ d
  | d, .popFld _ l => l ≤ d
  | d, .incFld _ l => l ≤ d
  | d, .incFldPush _ l => l ≤ d
  | d, .pushBlock true m => m.fits t (d + 1)
  | _, .pushBlock false m => m.fits false 0
  | d, .retNonLocal l => t = true ∧ l = d
  | _, _ => True
end

theorem SC.fits_ins {t : Bool} {d : Nat} : ∀ (c : SC Meth), c.fits t d → ∀ i ∈ c.instrs, i.fits t d
  | .nop, _, _, hi => nomatch hi
  | .ins i, h, j, hj => by rw [List.mem_singleton.mp hj]; simpa only [SC.fits] using h
  | .seq a b, h, i, hi => by simp only [SC.fits] at h; exact (List.mem_append.mp hi).elim (SC.fits_ins a h.1 i) (SC.fits_ins b h.2 i)
  | .thenB _ b, h, i, hi => by simp only [SC.fits] at h; exact SC.fits_ins b h i hi
  | .ifElse _ a b, h, i, hi => by simp only [SC.fits] at h; exact (List.mem_append.mp hi).elim (SC.fits_ins a h.1 i) (SC.fits_ins b h.2 i)
  | .loop _ a b, h, i, hi => by simp only [SC.fits] at h; exact (List.mem_append.mp hi).elim (SC.fits_ins a h.1 i) (SC.fits_ins b h.2 i)

mutual
theorem Meth.fits_mute : ∀ (d : Nat) (m : Meth), m.fits true d → m.nl = false → m.fits false d
  | d, .bc _ _ _ _ _ _ _ code, h, hn => by simp only [Meth.fits, Meth.nl] at h hn ⊢; exact SC.fits_mute d code h hn
  | d, .triv _ x, h, hn => by simpa only [Meth.fits] using h
theorem SC.fits_mute : ∀ (d : Nat) (c : SC Meth), c.fits true d → c.nl = false → c.fits false d
  | _, .nop, _, _ => by simp only [SC.fits]
  | d, .ins i, h, hn => by simp only [SC.fits, SC.nl] at h hn ⊢; exact Ins.fits_mute d i h hn
  | d, .seq a b, h, hn => by simp only [SC.fits, SC.nl, Bool.or_eq_false_iff] at h hn ⊢; exact ⟨SC.fits_mute d a h.1 hn.1, SC.fits_mute d b h.2 hn.2⟩
  | d, .thenB _ b, h, hn => by simp only [SC.fits, SC.nl] at h hn ⊢; exact SC.fits_mute d b h hn
  | d, .ifElse _ a b, h, hn => by simp only [SC.fits, SC.nl, Bool.or_eq_false_iff] at h hn ⊢; exact ⟨SC.fits_mute d a h.1 hn.1, SC.fits_mute d b h.2 hn.2⟩
  | d, .loop _ a b, h, hn => by simp only [SC.fits, SC.nl, Bool.or_eq_false_iff] at h hn ⊢; exact ⟨SC.fits_mute d a h.1 hn.1, SC.fits_mute d b h.2 hn.2⟩
theorem Ins.fits_mute : ∀ (d : Nat) (i : Ins Meth), i.fits true d → i.nl = false → i.fits false d
  | d, .pushVar _ _ l, h, _ => by simpa only [Ins.fits] using h
  | d, .popVar _ _ l, h, _ => by simpa only [Ins.fits] using h
  | d, .pushFld _ l, h, _ => by simpa only [Ins.fits] using h
  | d, .popFld _ l, h, _ => by simpa only [Ins.fits] using h
  | d, .incFld _ l, h, _ => by simpa only [Ins.fits] using h
  | d, .incFldPush _ l, h, _ => by simpa only [Ins.fits] using h
  | d, .pushBlock true m, h, hn => by simp only [Ins.fits, Ins.nl] at h hn ⊢; exact Meth.fits_mute (d + 1) m h hn
  | _, .pushBlock false m, h, _ => by simpa only [Ins.fits] using h
  | d, .retNonLocal l, h, hn => by simp only [Ins.nl] at hn; cases hn
  | _, .dup, _, _ => by simp only [Ins.fits]
  | _, .pop, _, _ => by simp only [Ins.fits]
  | _, .pushConst _, _, _ => by simp only [Ins.fits]
  | _, .pushGlobal _, _, _ => by simp only [Ins.fits]
  | _, .send _ _, _, _ => by simp only [Ins.fits]
  | _, .superSend _ _, _, _ => by simp only [Ins.fits]
  | _, .retLocal, _, _ => by simp only [Ins.fits]
  | _, .retSelf, _, _ => by simp only [Ins.fits]
  | _, .retFld _, _, _ => by simp only [Ins.fits]
  | _, .inc, _, _ => by simp only [Ins.fits]
  | _, .dec, _, _ => by simp only [Ins.fits]
end

/-! ## Compiled code fits -/

theorem denotes_length {chain : List Scope} {a : Bool} {i l : Nat} (h : (denotes chain a i l).isSome) : l < chain.length := by
  unfold denotes at h
  split at h
  · cases h
  · rename_i s hs
    exact (List.getElem?_eq_some_iff.mp hs).1

/-- The levels at which code of depth `k` may be. -/
def AtLvl (t : Bool) (k q : Nat) : Prop := if t = true then q = k else k < q

theorem AtLvl.some (t : Bool) (k : Nat) : ∃ q, AtLvl t k q := by
  cases t
  · exact ⟨k + 1, by simp [AtLvl]⟩
  · exact ⟨k, by simp [AtLvl]⟩

mutual
theorem Meth.fits_of {t : Bool} : ∀ (k : Nat) (m : Meth) (chain : List Scope), (∀ q, AtLvl t k (q + 1) → Sound q m) → (t = true → 1 ≤ k) → Known (m.acc chain) → chain.length = k → m.fits t k
  | k, .bc id lits bytes loops args locals stack code, chain, hs, hk, ha, hl => by
    simp only [Meth.acc] at ha
    simp only [Meth.fits]
    refine SC.fits_of k code (Scope.block args locals :: chain) (fun q hq i hi => ?_) ha (by simp [hl])
    obtain ⟨q, rfl⟩ : ∃ q', q = q' + 1 := by
      refine ⟨q - 1, ?_⟩
      cases t with
      | false => have : k < q := by simpa [AtLvl] using hq
                 omega
      | true => have : q = k := by simpa [AtLvl] using hq
                have := hk rfl
                omega
    cases hs q hq with
    | bc _ _ _ _ _ _ _ _ _ enc ty std size small ends ins ids inner closed => exact ⟨ins i hi, fun m e => inner m (e ▸ hi), fun m e => closed m (e ▸ hi)⟩
  | k, .triv id x, chain, hs, hk, ha, hl => by
    simp only [Meth.fits]
    cases x with
    | fldRead i l =>
      simp only [Meth.acc, Triv.acc, known_one] at ha
      have := denotes_length ha
      simp only [List.length_cons] at this
      simp only [Triv.fits]; omega
    | _ => trivial
theorem SC.fits_of {t : Bool} : ∀ (k : Nat) (c : SC Meth) (chain : List Scope), (∀ q, AtLvl t k q → ∀ i ∈ c.instrs, Fine q i) → Known (c.acc chain) → chain.length = k + 1 → c.fits t k
  | _, .nop, _, _, _, _ => by simp only [SC.fits]
  | k, .ins i, chain, hs, ha, hl => by
    simp only [SC.acc, SC.fits] at ha ⊢
    exact Ins.fits_of k i chain (fun q hq => hs q hq i (List.mem_singleton.mpr rfl)) ha hl
  | k, .seq a b, chain, hs, ha, hl => by
    simp only [SC.acc, SC.fits, known_append] at ha ⊢
    exact ⟨SC.fits_of k a chain (fun q hq i hi => hs q hq i (List.mem_append_left _ hi)) ha.1 hl, SC.fits_of k b chain (fun q hq i hi => hs q hq i (List.mem_append_right _ hi)) ha.2 hl⟩
  | k, .thenB _ b, chain, hs, ha, hl => by
    simp only [SC.acc, SC.fits] at ha ⊢
    exact SC.fits_of k b chain hs ha hl
  | k, .ifElse _ a b, chain, hs, ha, hl => by
    simp only [SC.acc, SC.fits, known_append] at ha ⊢
    exact ⟨SC.fits_of k a chain (fun q hq i hi => hs q hq i (List.mem_append_left _ hi)) ha.1 hl, SC.fits_of k b chain (fun q hq i hi => hs q hq i (List.mem_append_right _ hi)) ha.2 hl⟩
  | k, .loop _ a b, chain, hs, ha, hl => by
    simp only [SC.acc, SC.fits, known_append] at ha ⊢
    exact ⟨SC.fits_of k a chain (fun q hq i hi => hs q hq i (List.mem_append_left _ hi)) ha.1 hl, SC.fits_of k b chain (fun q hq i hi => hs q hq i (List.mem_append_right _ hi)) ha.2 hl⟩
theorem Ins.fits_of {t : Bool} : ∀ (k : Nat) (i : Ins Meth) (chain : List Scope), (∀ q, AtLvl t k q → Fine q i) → Known (i.acc chain) → chain.length = k + 1 → i.fits t k
  | k, .pushVar _ _ l, chain, _, ha, hl => by
    simp only [Ins.acc, known_one] at ha; have := denotes_length ha; simp only [Ins.fits]; omega
  | k, .popVar _ _ l, chain, _, ha, hl => by
    simp only [Ins.acc, known_one] at ha; have := denotes_length ha; simp only [Ins.fits]; omega
  | k, .pushFld _ l, chain, _, ha, hl => by
    simp only [Ins.acc, known_one] at ha; have := denotes_length ha; simp only [Ins.fits]; omega
  | k, .popFld _ l, chain, _, ha, hl => by
    simp only [Ins.acc, known_one] at ha; have := denotes_length ha; simp only [Ins.fits]; omega
  | k, .incFld _ l, chain, _, ha, hl => by
    simp only [Ins.acc] at ha; have := denotes_length (ha _ (List.mem_cons_self ..)); simp only [Ins.fits]; omega
  | k, .incFldPush _ l, chain, _, ha, hl => by
    simp only [Ins.acc] at ha; have := denotes_length (ha _ (List.mem_cons_self ..)); simp only [Ins.fits]; omega
  | k, .pushBlock true m, chain, hs, ha, hl => by
    simp only [Ins.acc, Ins.fits] at ha ⊢
    refine Meth.fits_of (k + 1) m chain (fun q hq => (hs q ?_).inner m rfl) (fun _ => by omega) ha hl
    simp only [AtLvl] at hq ⊢
    split
    · rename_i h; rw [if_pos h] at hq; omega
    · rename_i h; rw [if_neg h] at hq; omega
  | k, .pushBlock false m, chain, hs, ha, hl => by
    simp only [Ins.acc, Ins.fits] at ha ⊢
    obtain ⟨q0, hq0⟩ := AtLvl.some t k
    exact Meth.fits_of 0 m [] (fun q hq => (hs q0 hq0).closed m rfl q) (fun h => nomatch h) ha rfl
  | k, .retNonLocal l, chain, hs, ha, hl => by
    simp only [Ins.fits]
    cases t with
    | true => exact ⟨rfl, (hs k (by simp [AtLvl])).ok⟩
    | false =>
      have h1 : l = k + 1 := (hs (k + 1) (by simp [AtLvl])).ok
      have h2 : l = k + 2 := (hs (k + 2) (by simp [AtLvl])).ok
      omega
  | _, .dup, _, _, _, _ => by simp only [Ins.fits]
  | _, .pop, _, _, _, _ => by simp only [Ins.fits]
  | _, .pushConst _, _, _, _, _ => by simp only [Ins.fits]
  | _, .pushGlobal _, _, _, _, _ => by simp only [Ins.fits]
  | _, .send _ _, _, _, _, _ => by simp only [Ins.fits]
  | _, .superSend _ _, _, _, _, _ => by simp only [Ins.fits]
  | _, .retLocal, _, _, _, _ => by simp only [Ins.fits]
  | _, .retSelf, _, _, _, _ => by simp only [Ins.fits]
  | _, .retFld _, _, _, _, _ => by simp only [Ins.fits]
  | _, .inc, _, _, _, _ => by simp only [Ins.fits]
  | _, .dec, _, _, _, _ => by simp only [Ins.fits]
end

end PySOM.BC

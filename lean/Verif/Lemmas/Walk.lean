import Verif.Lemmas.Body
import Verif.Props.Jumps
/-!
# Instruction boundaries of encoded structured code
-/
set_option autoImplicit false
namespace PySOM.BC
open PySOM

section
variable {M X : Type}

theorem bytecodeLength_pos {op n : Nat} (h : bytecodeLength op = some n) : 1 ≤ n := by
  have key : ∀ i, i < 128 → ∀ n, lengths[i]? = some n → 1 ≤ n := by decide +kernel
  by_cases ho : op < 128
  · exact key op ho n h
  · have : lengths[op]? = none := by
      rw [List.getElem?_eq_none_iff]
      have : lengths.length ≤ 128 := by decide +kernel
      omega
    rw [bytecodeLength, this] at h
    cases h

theorem decode_pos {lits : List (Lit M)} {bs : List Nat} {d : Dec M} (h : decode lits bs = some d) : 1 ≤ d.len := by
  cases bs with
  | nil => cases h
  | cons op rest => exact bytecodeLength_pos (C44_lengths_agree lits op rest d h)

/-- Going from instruction to instruction. -/
inductive Walk (lits : List (Lit M)) (B : List Nat) : Nat → Nat → Prop where
  | refl (p : Nat) : Walk lits B p p
  | step (p q : Nat) (d : Dec M) (h : decode lits (B.drop p) = some d) (hl : p + d.len ≤ B.length) (hs : Walk lits B (p + d.len) q) :
      Walk lits B p q

theorem Walk.trans {lits : List (Lit M)} {B : List Nat} {p q r : Nat} (h1 : Walk lits B p q) (h2 : Walk lits B q r) : Walk lits B p r := by
  induction h1 with
  | refl p => exact h2
  | step p q d h hl hs ih => exact .step p _ d h hl (ih h2)

theorem Walk.le {lits : List (Lit M)} {B : List Nat} {p q : Nat} (h : Walk lits B p q) : p ≤ q := by
  induction h with
  | refl p => exact Nat.le_refl _
  | step p q d h hl hs ih => omega

/-- The boundaries are linearly ordered. -/
theorem Walk.linear {lits : List (Lit M)} {B : List Nat} {p q r : Nat} (h1 : Walk lits B p q) (h2 : Walk lits B p r) :
    Walk lits B q r ∨ Walk lits B r q := by
  induction h1 with
  | refl p => exact .inl h2
  | step p q d h hl hs ih =>
    cases h2 with
    | refl => exact .inr (.step _ _ d h hl hs)
    | step _ _ d' h' hl' hs' =>
      rw [h] at h'
      cases h'
      exact ih hs'

theorem Walk.linear' {lits : List (Lit M)} {B : List Nat} {p q r : Nat} (h1 : Walk lits B p q) (h2 : Walk lits B p r) (hle : q ≤ r) :
    Walk lits B q r := by
  rcases h1.linear h2 with h | h
  · exact h
  · have := h.le
    have : q = r := by omega
    subst this
    exact .refl _

theorem At.walk {lits : List (Lit M)} {B : List Nat} {p : Nat} {bs : List Nat} {d : Dec M} (hat : At B p bs) (hd : Is lits d bs) (hl : d.len = bs.length) :
    Walk lits B p (p + bs.length) := by
  have hd' := hat.decode hd
  rw [← hl]
  refine .step _ _ d hd' ?_ (.refl _)
  obtain ⟨pre, post, rfl, rfl⟩ := hat
  simp only [List.length_append]
  omega

theorem walk_assoc {lits : List (Lit M)} {B : List Nat} {p q r : Nat} (h : Walk lits B p q) (e : q = r) : Walk lits B p r := e ▸ h

/-- Structured code is a sequence of whole instructions. -/
theorem Enc.walk {lits : List (Lit M)} {sc : SC M} {bs : List Nat} (he : Enc lits sc bs) :
    ∀ (B : List Nat) (p : Nat), At B p bs → Walk lits B p (p + bs.length) := by
  induction he with
  | nop => intro B p _; exact .refl _
  | ins i bs h => intro B p hat; exact hat.walk h rfl
  | seq a b ba bb _ _ iha ihb =>
    intro B p hat
    exact walk_assoc ((iha B p hat.left).trans (ihb B _ hat.right)) (by simp only [List.length_append]; omega)
  | thenB c body j bb hj _ ih =>
    intro B p hat
    exact walk_assoc ((hat.left.walk (hj.2 lits) (by rw [hj.1]; rfl)).trans (ih B _ hat.right)) (by simp only [List.length_append]; omega)
  | ifElse c a b j ba k bb hj _ hk _ iha ihb =>
    intro B p hat
    exact walk_assoc ((((hat.left.walk (hj.2 lits) (by rw [hj.1]; rfl)).trans (iha B _ hat.right.left)).trans
      (hat.right.right.left.walk (hk.2 lits) (by rw [hk.1]; rfl))).trans (ihb B _ hat.right.right.right))
      (by simp only [List.length_append]; omega)
  | loop c cond body bc j bb k _ hj _ hk ihc ihb =>
    intro B p hat
    exact walk_assoc ((((ihc B _ hat.left).trans (hat.right.left.walk (hj.2 lits) (by rw [hj.1]; rfl))).trans (ihb B _ hat.right.right.left)).trans
      (hat.right.right.right.walk (hk.2 lits) (by rw [hk.1]; rfl)))
      (by simp only [List.length_append]; omega)

/-- Where the instruction at `p` may jump to. -/
def Dec.target {M : Type} (p : Nat) : Dec M → Option Int
  | .ins _ _ => none
  | .jump o => some (p + o)
  | .jumpTop _ o => some (p + o)
  | .jumpPop _ o => some (p + o)
  | .jumpBack o => some ((p : Int) - o)

/-- Jumps of structured code stay inside it and go to instruction boundaries. -/
theorem Enc.targets {lits : List (Lit M)} {sc : SC M} {bs : List Nat} (he : Enc lits sc bs) :
    ∀ (B : List Nat) (p : Nat), At B p bs → ∀ (q : Nat) (d : Dec M) (t : Int), Walk lits B p q → q < p + bs.length → decode lits (B.drop q) = some d →
      d.target q = some t → ∃ r : Nat, t = r ∧ Walk lits B p r ∧ r ≤ p + bs.length := by
  have single : ∀ (B : List Nat) (p : Nat) (j : List Nat) (dj : Dec M), At B p j → Is lits dj j → dj.len = j.length → ∀ (q : Nat) (d : Dec M),
      Walk lits B p q → q < p + j.length → decode lits (B.drop q) = some d → q = p ∧ d = dj := by
    intro B p j dj hat hd hl q d hw hq hdq
    have hd' := hat.decode hd
    cases hw with
    | refl => rw [hd'] at hdq; cases hdq; exact ⟨rfl, rfl⟩
    | step _ _ d' h' _ hs =>
      rw [hd'] at h'
      cases h'
      have := hs.le
      omega
  induction he with
  | nop => intro B p _ q d t hw hq; have := hw.le; simp only [List.length_nil] at hq; omega
  | ins i bs h =>
    intro B p hat q d t hw hq hd ht
    obtain ⟨_, rfl⟩ := single B p bs _ hat h rfl q d hw hq hd
    cases ht
  | seq a b ba bb ha hb iha ihb =>
    intro B p hat q d t hw hq hd ht
    have wa := ha.walk B p hat.left
    rw [List.length_append] at hq ⊢
    by_cases hlt : q < p + ba.length
    · obtain ⟨r, hr, hr1, hr2⟩ := iha B p hat.left q d t hw hlt hd ht
      exact ⟨r, hr, hr1, by omega⟩
    · obtain ⟨r, hr, hr1, hr2⟩ := ihb B _ hat.right q d t (wa.linear' hw (by omega)) (by omega) hd ht
      exact ⟨r, hr, wa.trans hr1, by omega⟩
  | thenB c body j bb hj hb ih =>
    intro B p hat q d t hw hq hd ht
    have wj := hat.left.walk (hj.2 lits) (by rw [hj.1]; rfl)
    have wb := hb.walk B _ hat.right
    have hj1 := hj.1
    rw [List.length_append] at hq ⊢
    by_cases hlt : q < p + j.length
    · obtain ⟨rfl, rfl⟩ := single B p j _ hat.left (hj.2 lits) (by rw [hj.1]; rfl) q d hw hlt hd
      simp only [Dec.target, Option.some.injEq] at ht
      exact ⟨q + j.length + bb.length, by omega, wj.trans wb, by omega⟩
    · obtain ⟨r, hr, hr1, hr2⟩ := ih B _ hat.right q d t (wj.linear' hw (by omega)) (by omega) hd ht
      exact ⟨r, hr, wj.trans hr1, by omega⟩
  | ifElse c a b j ba k bb hj ha hk hb iha ihb =>
    intro B p hat q d t hw hq hd ht
    have wj := hat.left.walk (hj.2 lits) (by rw [hj.1]; rfl)
    have wa := wj.trans (ha.walk B _ hat.right.left)
    have wk := wa.trans (hat.right.right.left.walk (hk.2 lits) (by rw [hk.1]; rfl))
    have wb := wk.trans (hb.walk B _ hat.right.right.right)
    have hj1 := hj.1
    have hk1 := hk.1
    simp only [List.length_append] at hq ⊢
    by_cases h1 : q < p + j.length
    · obtain ⟨rfl, rfl⟩ := single B p j _ hat.left (hj.2 lits) (by rw [hj.1]; rfl) q d hw h1 hd
      simp only [Dec.target, Option.some.injEq] at ht
      exact ⟨_, by omega, wk, by omega⟩
    · by_cases h2 : q < p + j.length + ba.length
      · obtain ⟨r, hr, hr1, hr2⟩ := iha B _ hat.right.left q d t (wj.linear' hw (by omega)) (by omega) hd ht
        exact ⟨r, hr, wj.trans hr1, by omega⟩
      · by_cases h3 : q < p + j.length + ba.length + k.length
        · obtain ⟨rfl, rfl⟩ := single B _ k _ hat.right.right.left (hk.2 lits) (by rw [hk.1]; rfl) q d (wa.linear' hw (by omega)) h3 hd
          simp only [Dec.target, Option.some.injEq] at ht
          exact ⟨_, by omega, wb, by omega⟩
        · obtain ⟨r, hr, hr1, hr2⟩ := ihb B _ hat.right.right.right q d t (wk.linear' hw (by omega)) (by omega) hd ht
          exact ⟨r, hr, wk.trans hr1, by omega⟩
  | loop c cond body bc j bb k hc hj hb hk ihc ihb =>
    intro B p hat q d t hw hq hd ht
    have wc := hc.walk B _ hat.left
    have wj := wc.trans (hat.right.left.walk (hj.2 lits) (by rw [hj.1]; rfl))
    have wb := wj.trans (hb.walk B _ hat.right.right.left)
    have wk := wb.trans (hat.right.right.right.walk (hk.2 lits) (by rw [hk.1]; rfl))
    have hj1 := hj.1
    have hk1 := hk.1
    simp only [List.length_append] at hq ⊢
    by_cases h1 : q < p + bc.length
    · obtain ⟨r, hr, hr1, hr2⟩ := ihc B _ hat.left q d t hw h1 hd ht
      exact ⟨r, hr, hr1, by omega⟩
    · by_cases h2 : q < p + bc.length + j.length
      · obtain ⟨rfl, rfl⟩ := single B _ j _ hat.right.left (hj.2 lits) (by rw [hj.1]; rfl) q d (wc.linear' hw (by omega)) h2 hd
        simp only [Dec.target, Option.some.injEq] at ht
        exact ⟨_, by omega, wk, by omega⟩
      · by_cases h3 : q < p + bc.length + j.length + bb.length
        · obtain ⟨r, hr, hr1, hr2⟩ := ihb B _ hat.right.right.left q d t (wj.linear' hw (by omega)) (by omega) hd ht
          exact ⟨r, hr, wj.trans hr1, by omega⟩
        · obtain ⟨rfl, rfl⟩ := single B _ k _ hat.right.right.right (hk.2 lits) (by rw [hk.1]; rfl) q d (wb.linear' hw (by omega)) (by omega) hd
          simp only [Dec.target, Option.some.injEq] at ht
          exact ⟨p, by omega, .refl _, by omega⟩

theorem Enc.endsRet_pos {lits : List (Lit M)} {sc : SC M} {bs : List Nat} (he : Enc lits sc bs) (hr : sc.endsRet = true) : 1 ≤ bs.length := by
  induction he with
  | nop => cases hr
  | ins i bs h => have := decode_pos (h []); exact this
  | seq a b ba bb ha hb iha ihb => have := ihb hr; rw [List.length_append]; omega
  | thenB => cases hr
  | ifElse => cases hr
  | loop => cases hr

theorem Enc.targets_lt {lits : List (Lit M)} {sc : SC M} {bs : List Nat} (he : Enc lits sc bs) (hr : sc.endsRet = true) :
    ∀ (B : List Nat) (p : Nat), At B p bs → ∀ (q : Nat) (d : Dec M) (t : Int), Walk lits B p q → q < p + bs.length → decode lits (B.drop q) = some d →
      d.target q = some t → ∃ r : Nat, t = r ∧ Walk lits B p r ∧ r < p + bs.length := by
  induction he with
  | nop => cases hr
  | ins i bs h =>
    intro B p hat q d t hw hq hd ht
    have hd' := hat.decode h
    cases hw with
    | refl => rw [hd'] at hd; cases hd; cases ht
    | step _ _ d' h' _ hs =>
      rw [hd'] at h'
      cases h'
      have := hs.le
      simp only [Dec.len] at this
      omega
  | seq a b ba bb ha hb iha ihb =>
    intro B p hat q d t hw hq hd ht
    have wa := ha.walk B p hat.left
    have hp := hb.endsRet_pos hr
    rw [List.length_append] at hq ⊢
    by_cases hlt : q < p + ba.length
    · obtain ⟨r, hr, hr1, hr2⟩ := ha.targets B p hat.left q d t hw hlt hd ht
      exact ⟨r, hr, hr1, by omega⟩
    · obtain ⟨r, hr, hr1, hr2⟩ := ihb hr B _ hat.right q d t (wa.linear' hw (by omega)) (by omega) hd ht
      exact ⟨r, hr, wa.trans hr1, by omega⟩
  | thenB => cases hr
  | ifElse => cases hr
  | loop => cases hr

theorem genBody_endsRet (I : Inliner M X) (isBlock : Bool) (lvl : Nat) : ∀ (b : Body M) (st : Bool × X), (genBody I isBlock lvl b st).endsRet = true
  | .done, st => by cases isBlock <;> simp [genBody, SC.endsRet]
  | .last e, st => by cases isBlock <;> simp [genBody, SC.endsRet]
  | .exit e, st => by
    cases isBlock
    · simp only [genBody, Bool.false_eq_true, if_false]
      unfold genReturn
      split
      · split <;> simp [SC.endsRet]
      · simp [SC.endsRet]
    · simp [genBody, SC.endsRet]
  | .exitSelf, st => by simp [genBody, SC.endsRet]
  | .stmt e rest, st => by
    by_cases hd : rest = .done
    · subst hd
      cases isBlock <;> simp [genBody, SC.endsRet]
    · rw [genBody]
      · simp only [SC.endsRet]
        exact genBody_endsRet I isBlock lvl rest _
      · exact hd

end
end PySOM.BC

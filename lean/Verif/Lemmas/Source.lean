import Verif.Lemmas.Struct
import Verif.Lemmas.GenCode
import Verif.Spec.Source
/-!
# Structured code and the meaning of source expressions
-/
set_option autoImplicit false
namespace PySOM.BC
open PySOM

section
variable {M X W E : Type}

/-! ## Inversion of evaluation -/

theorem seval_nop {A : World M W E} {s : List Val} {w : W} {o : Out W E} : SEval A .nop s w o ↔ o = .ok s w := by
  constructor
  · intro h; cases h; rfl
  · rintro rfl; exact .nop s w

theorem seval_ins {A : World M W E} {i : Ins M} {s : List Val} {w : W} {o : Out W E} : SEval A (.ins i) s w o ↔ InsEval A i s w o := by
  constructor
  · intro h; cases h; assumption
  · intro h; exact .ins i s w o h

theorem seval_seq {A : World M W E} {a b : SC M} {s : List Val} {w : W} {o : Out W E} :
    SEval A (.seq a b) s w o ↔ (∃ s' w', SEval A a s w (.ok s' w') ∧ SEval A b s' w' o) ∨ (o.stops ∧ SEval A a s w o) := by
  constructor
  · intro h
    cases h with
    | seq _ _ _ s' _ w' _ ha hb => exact .inl ⟨s', w', ha, hb⟩
    | seqStop _ _ _ _ _ ho ha => exact .inr ⟨ho, ha⟩
  · rintro (⟨s', w', ha, hb⟩ | ⟨ho, ha⟩)
    · exact .seq a b s s' w w' o ha hb
    · exact .seqStop a b s w o ho ha

theorem seval_thenB {A : World M W E} {c : JCond} {b : SC M} {v : Val} {s : List Val} {w : W} {o : Out W E} :
    SEval A (.thenB c b) (v :: s) w o ↔ if c.holds v = true then o = .ok (c.top v :: s) w else SEval A b s w o := by
  constructor
  · intro h
    cases h with
    | thenJump _ _ _ _ _ hc => rw [if_pos hc]
    | thenBody _ _ _ _ _ _ hc hb => rw [if_neg (by simp [hc])]; exact hb
  · intro h
    by_cases hc : c.holds v = true
    · rw [if_pos hc] at h; subst h; exact .thenJump c b v s w hc
    · rw [if_neg hc] at h; exact .thenBody c b v s w o (by simpa using hc) h

theorem seval_ifElse {A : World M W E} {c : JCond} {a b : SC M} {v : Val} {s : List Val} {w : W} {o : Out W E} :
    SEval A (.ifElse c a b) (v :: s) w o ↔ if c.holds v = true then SEval A b s w o else SEval A a s w o := by
  constructor
  · intro h
    cases h with
    | ifFirst _ _ _ _ _ _ _ hc ha => rw [if_neg (by simp [hc])]; exact ha
    | ifSecond _ _ _ _ _ _ _ hc hb => rw [if_pos hc]; exact hb
  · intro h
    by_cases hc : c.holds v = true
    · rw [if_pos hc] at h; exact .ifSecond c a b v s w o hc h
    · rw [if_neg hc] at h; exact .ifFirst c a b v s w o (by simpa using hc) h

theorem seval_assoc {A : World M W E} {a b c : SC M} {s : List Val} {w : W} {o : Out W E} :
    SEval A (.seq (.seq a b) c) s w o ↔ SEval A (.seq a (.seq b c)) s w o := by
  simp only [seval_seq]
  constructor
  · rintro (⟨s', w', ⟨s1, w1, ha, hb⟩ | ⟨ho, _⟩, hc⟩ | ⟨ho, ⟨s1, w1, ha, hb⟩ | ⟨_, ha⟩⟩)
    · exact .inl ⟨s1, w1, ha, .inl ⟨s', w', hb, hc⟩⟩
    · exact ho.elim
    · exact .inl ⟨s1, w1, ha, .inr ⟨ho, hb⟩⟩
    · exact .inr ⟨ho, ha⟩
  · rintro (⟨s1, w1, ha, ⟨s', w', hb, hc⟩ | ⟨ho, hb⟩⟩ | ⟨ho, ha⟩)
    · exact .inl ⟨s', w', .inl ⟨s1, w1, ha, hb⟩, hc⟩
    · exact .inr ⟨ho, .inl ⟨s1, w1, ha, hb⟩⟩
    · exact .inr ⟨ho, .inr ⟨ho, ha⟩⟩

/-! ## The part of the stack below does not matter -/

def Out.frame (s : List Val) : Out W E → Out W E
  | .ok t w => .ok (t ++ s) w
  | o => o

def Next.frame (s : List Val) : Next → Next
  | .push t => .push (t ++ s)
  | .drop t => .drop (t ++ s)
  | .ret => .ret

def Eff.frame (s : List Val) : Eff M → Eff M
  | .pure t => .pure (t ++ s)
  | .act a n => .act a (n.frame s)
  | .ret v => .ret v
  | .underflow => .underflow

theorem Ins.eff_frame (i : Ins M) (t s : List Val) {d : Nat} (h : i.ty t.length = some d) : i.eff (t ++ s) = (i.eff t).frame s := by
  have key : ∀ (n : Nat), n ≤ t.length → (t ++ s).take n = t.take n ∧ (t ++ s).drop n = t.drop n ++ s := fun n hn =>
    ⟨List.take_append_of_le_length hn, List.drop_append_of_le_length hn⟩
  cases i with
  | send sel n =>
    simp only [Ins.ty] at h
    by_cases hn : n ≤ t.length
    · simp only [Ins.eff, if_pos hn, if_pos (show n ≤ (t ++ s).length by rw [List.length_append]; omega), key n hn, Eff.frame, Next.frame]
    · rw [if_neg hn] at h; cases h
  | superSend sel n =>
    simp only [Ins.ty] at h
    by_cases hn : n ≤ t.length
    · simp only [Ins.eff, if_pos hn, if_pos (show n ≤ (t ++ s).length by rw [List.length_append]; omega), key n hn, Eff.frame, Next.frame]
    · rw [if_neg hn] at h; cases h
  | _ => cases t <;> first | rfl | (simp [Ins.ty] at h)

theorem InsEval.frame {A : World M W E} {i : Ins M} {t s : List Val} {w : W} {d : Nat} (hd : i.ty t.length = some d) (o : Out W E) :
    InsEval A i (t ++ s) w o ↔ ∃ o', InsEval A i t w o' ∧ o = o'.frame s := by
  have e := i.eff_frame t s hd
  constructor
  · intro h
    cases h with
    | pure s' h =>
      rw [e] at h
      cases he : i.eff t <;> rw [he] at h <;> cases h
      exact ⟨_, .pure _ he, rfl⟩
    | ret v h =>
      rw [e] at h
      cases he : i.eff t <;> rw [he] at h <;> cases h
      exact ⟨_, .ret _ he, rfl⟩
    | act a n v w' h ha =>
      rw [e] at h
      cases he : i.eff t <;> rw [he] at h <;> cases h
      rename_i n
      refine ⟨_, .act _ _ _ _ he ha, ?_⟩
      cases n <;> rfl
    | raise a n e' w' h ha =>
      rw [e] at h
      cases he : i.eff t <;> rw [he] at h <;> cases h
      exact ⟨_, .raise _ _ _ _ he ha, rfl⟩
  · rintro ⟨o', h, rfl⟩
    cases h with
    | pure s' h => exact .pure _ (by rw [e, h]; rfl)
    | ret v h => exact .ret _ (by rw [e, h]; rfl)
    | act a n v w' h ha =>
      have := InsEval.act (A := A) (i := i) (s := t ++ s) (w := w) a (n.frame s) v w' (by rw [e, h]; rfl) ha
      cases n <;> exact this
    | raise a n e' w' h ha => exact .raise a (n.frame s) e' w' (by rw [e, h]; rfl) ha

theorem Out.frame_stops {o : Out W E} {s : List Val} : (o.frame s).stops ↔ o.stops := by cases o <;> exact Iff.rfl
theorem Out.frame_of_stops {o : Out W E} {s : List Val} (h : o.stops) : o.frame s = o := by
  cases o with
  | ok t w => exact h.elim
  | _ => rfl

theorem dep {A : World M W E} {c : SC M} {s s' : List Val} {w w' : W} {d : Nat} (h : SEval A c s w (.ok s' w')) (ht : c.ty s.length = some d) :
    s'.length = d := h.depth d s' w' ht rfl

theorem SEval.frame1 {A : World M W E} {c : SC M} {t : List Val} {w : W} {o : Out W E} (h : SEval A c t w o) (s : List Val) :
    ∀ d, c.ty t.length = some d → SEval A c (t ++ s) w (o.frame s) := by
  induction h with
  | nop t w => intro d _; exact .nop _ _
  | ins i t w o h => intro d hd; exact .ins _ _ _ _ ((InsEval.frame hd _).mpr ⟨o, h, rfl⟩)
  | seq a b t t' w w' o ha hb iha ihb =>
    intro d hd
    simp only [SC.ty] at hd
    obtain ⟨d1, h1, h2⟩ := Option.bind_eq_some_iff.mp hd
    have hl := dep ha h1
    exact .seq _ _ _ _ _ _ _ (iha _ h1) (ihb d (by rw [hl]; exact h2))
  | seqStop a b t w o ho ha iha =>
    intro d hd
    simp only [SC.ty] at hd
    obtain ⟨d1, h1, h2⟩ := Option.bind_eq_some_iff.mp hd
    exact .seqStop _ _ _ _ _ (Out.frame_stops.mpr ho) (iha _ h1)
  | thenJump c b v t w hc => intro d _; exact .thenJump _ _ _ _ _ hc
  | thenBody c b v t w o hc hb ih =>
    intro d hd
    simp only [SC.ty] at hd
    split at hd
    · rename_i h; exact .thenBody _ _ _ _ _ _ hc (ih _ h.2)
    · cases hd
  | ifFirst c a b v t w o hc ha ih =>
    intro d hd
    simp only [SC.ty] at hd
    split at hd
    · exact .ifFirst _ _ _ _ _ _ _ hc (ih d hd)
    · cases hd
  | ifSecond c a b v t w o hc hb ih =>
    intro d hd
    simp only [SC.ty] at hd
    split at hd
    · rename_i h; exact .ifSecond _ _ _ _ _ _ _ hc (ih d (h.2 ▸ hd))
    · cases hd
  | loopExit c cond body v t t' w w' hcond hc ih =>
    intro d hd
    simp only [SC.ty] at hd
    split at hd
    · rename_i h; exact .loopExit _ _ _ v _ _ _ _ (ih _ h.1) hc
    · cases hd
  | loopCondStop c cond body t w o ho hcond ih =>
    intro d hd
    simp only [SC.ty] at hd
    split at hd
    · rename_i h; exact .loopCondStop _ _ _ _ _ _ (Out.frame_stops.mpr ho) (ih _ h.1)
    · cases hd
  | loopBodyStop c cond body v t t' w w' o ho hcond hc hbody ihc ihb =>
    intro d hd
    simp only [SC.ty] at hd
    split at hd
    · rename_i h
      have hl := dep hcond h.1
      simp only [List.length_cons] at hl
      exact .loopBodyStop _ _ _ v _ _ _ _ _ (Out.frame_stops.mpr ho) (ihc _ h.1) hc (ihb _ (by rw [show t'.length = t.length by omega]; exact h.2))
    · cases hd
  | loopNext c cond body v t t' t'' w w' w'' o hcond hc hbody hrest ihc ihb ihr =>
    intro d hd
    have hd' := hd
    simp only [SC.ty] at hd
    split at hd
    · rename_i h
      have hl := dep hcond h.1
      simp only [List.length_cons] at hl
      have hb2 : body.ty t'.length = some t.length := by rw [show t'.length = t.length by omega]; exact h.2
      have hl2 := dep hbody hb2
      exact .loopNext _ _ _ v _ _ _ _ _ _ _ (ihc _ h.1) hc (ihb _ hb2) (ihr d (by rw [hl2]; exact hd'))
    · cases hd

theorem SEval.frame2 {A : World M W E} {c : SC M} {u : List Val} {w : W} {o : Out W E} (h : SEval A c u w o) (s : List Val) :
    ∀ t d, u = t ++ s → c.ty t.length = some d → ∃ o', SEval A c t w o' ∧ o = o'.frame s := by
  induction h with
  | nop u w => rintro t d rfl _; exact ⟨_, .nop _ _, rfl⟩
  | ins i u w o h =>
    rintro t d rfl hd
    obtain ⟨o', h1, h2⟩ := (InsEval.frame hd _).mp h
    exact ⟨o', .ins _ _ _ _ h1, h2⟩
  | seq a b u u' w w' o ha hb iha ihb =>
    rintro t d rfl hd
    simp only [SC.ty] at hd
    obtain ⟨d1, h1, h2⟩ := Option.bind_eq_some_iff.mp hd
    obtain ⟨oa, ea, fa⟩ := iha t d1 rfl h1
    cases oa with
    | ok t' w1 =>
      cases fa
      have hl := dep ea h1
      obtain ⟨ob, eb, fb⟩ := ihb t' d rfl (by rw [hl]; exact h2)
      exact ⟨ob, .seq _ _ _ _ _ _ _ ea eb, fb⟩
    | ret v w1 => cases fa
    | exc e w1 => cases fa
  | seqStop a b u w o ho ha iha =>
    rintro t d rfl hd
    simp only [SC.ty] at hd
    obtain ⟨d1, h1, h2⟩ := Option.bind_eq_some_iff.mp hd
    obtain ⟨oa, ea, fa⟩ := iha t d1 rfl h1
    exact ⟨oa, .seqStop _ _ _ _ _ (by rw [fa] at ho; exact Out.frame_stops.mp ho) ea, fa⟩
  | thenJump c b v u w hc =>
    intro t d hu hd
    cases t with
    | nil => simp [SC.ty] at hd
    | cons x t => cases hu; exact ⟨_, .thenJump _ _ _ _ _ hc, rfl⟩
  | thenBody c b v u w o hc hb ih =>
    intro t d hu hd
    simp only [SC.ty] at hd
    split at hd
    · rename_i h
      cases t with
      | nil => simp at h
      | cons x t =>
        cases hu
        obtain ⟨o', e, f⟩ := ih t _ rfl h.2
        exact ⟨o', .thenBody _ _ _ _ _ _ hc e, f⟩
    · cases hd
  | ifFirst c a b v u w o hc ha ih =>
    intro t d hu hd
    simp only [SC.ty] at hd
    split at hd
    · rename_i h
      cases t with
      | nil => simp at h
      | cons x t =>
        cases hu
        obtain ⟨o', e, f⟩ := ih t _ rfl hd
        exact ⟨o', .ifFirst _ _ _ _ _ _ _ hc e, f⟩
    · cases hd
  | ifSecond c a b v u w o hc hb ih =>
    intro t d hu hd
    simp only [SC.ty] at hd
    split at hd
    · rename_i h
      cases t with
      | nil => simp at h
      | cons x t =>
        cases hu
        obtain ⟨o', e, f⟩ := ih t _ rfl (h.2 ▸ hd)
        exact ⟨o', .ifSecond _ _ _ _ _ _ _ hc e, f⟩
    · cases hd
  | loopExit c cond body v u u' w w' hcond hc ih =>
    rintro t d rfl hd
    simp only [SC.ty] at hd
    split at hd
    · rename_i h
      obtain ⟨o', e, f⟩ := ih t _ rfl h.1
      cases o' with
      | ok t' w1 =>
        have hl := dep e h.1
        cases t' with
        | nil => simp at hl
        | cons x t' => cases f; exact ⟨_, .loopExit _ _ _ _ _ _ _ _ e hc, rfl⟩
      | ret v w1 => cases f
      | exc e w1 => cases f
    · cases hd
  | loopCondStop c cond body u w o ho hcond ih =>
    rintro t d rfl hd
    simp only [SC.ty] at hd
    split at hd
    · rename_i h
      obtain ⟨o', e, f⟩ := ih t _ rfl h.1
      exact ⟨o', .loopCondStop _ _ _ _ _ _ (by rw [f] at ho; exact Out.frame_stops.mp ho) e, f⟩
    · cases hd
  | loopBodyStop c cond body v u u' w w' o ho hcond hc hbody ihc ihb =>
    rintro t d rfl hd
    simp only [SC.ty] at hd
    split at hd
    · rename_i h
      obtain ⟨o', e, f⟩ := ihc t _ rfl h.1
      cases o' with
      | ok t' w1 =>
        have hl := dep e h.1
        cases t' with
        | nil => simp at hl
        | cons x t' =>
          cases f
          simp only [List.length_cons] at hl
          obtain ⟨ob, eb, fb⟩ := ihb t' _ rfl (by rw [show t'.length = t.length by omega]; exact h.2)
          exact ⟨ob, .loopBodyStop _ _ _ _ _ _ _ _ _ (by rw [fb] at ho; exact Out.frame_stops.mp ho) e hc eb, fb⟩
      | ret v w1 => cases f
      | exc e w1 => cases f
    · cases hd
  | loopNext c cond body v u u' u'' w w' w'' o hcond hc hbody hrest ihc ihb ihr =>
    rintro t d rfl hd
    have hd' := hd
    simp only [SC.ty] at hd
    split at hd
    · rename_i h
      obtain ⟨o', e, f⟩ := ihc t _ rfl h.1
      cases o' with
      | ok t' w1 =>
        have hl := dep e h.1
        cases t' with
        | nil => simp at hl
        | cons x t' =>
          cases f
          simp only [List.length_cons] at hl
          have hb2 : body.ty t'.length = some t.length := by rw [show t'.length = t.length by omega]; exact h.2
          obtain ⟨ob, eb, fb⟩ := ihb t' _ rfl hb2
          cases ob with
          | ok t'' w2 =>
            cases fb
            have hl2 := dep eb hb2
            obtain ⟨oc, ec, fc⟩ := ihr t'' d rfl (by rw [hl2]; exact hd')
            exact ⟨oc, .loopNext _ _ _ _ _ _ _ _ _ _ _ e hc eb ec, fc⟩
          | ret v w1 => cases fb
          | exc e w1 => cases fb
      | ret v w1 => cases f
      | exc e w1 => cases f
    · cases hd

/-! ## Code that computes -/

/-- `c` is typed as an expression: its meaning is what it does on an empty stack. -/
theorem sem_of_typed (A : World M W E) (c : SC M) (h : c.ty 0 = some 1) : Sem A c [] (fun w r w' => SEval A c [] w (r.out [] w')) := by
  intro s w o
  constructor
  · intro hs
    obtain ⟨o', h1, h2⟩ := hs.frame2 s [] 1 rfl h
    cases o' with
    | ok t w' =>
      have hl := dep h1 h
      cases t with
      | nil => simp at hl
      | cons v t =>
        cases t with
        | nil => exact ⟨.val v, w', h1, h2⟩
        | cons _ _ => simp at hl
    | ret v w' => exact ⟨.ret v, w', h1, h2⟩
    | exc e w' => exact ⟨.exc e, w', h1, h2⟩
  · rintro ⟨r, w', h1, rfl⟩
    have := h1.frame1 s 1 h
    cases r <;> exact this

theorem Sem.congr {A : World M W E} {c : SC M} {pre : List Val} {R R' : Src.Rel W E} (h : Sem A c pre R) (e : ∀ w r w', R w r w' ↔ R' w r w') : Sem A c pre R' := by
  intro s w o
  rw [h s w o]
  constructor
  · rintro ⟨r, w', h1, h2⟩; exact ⟨r, w', (e _ _ _).mp h1, h2⟩
  · rintro ⟨r, w', h1, h2⟩; exact ⟨r, w', (e _ _ _).mpr h1, h2⟩

theorem Src.Res.out_stops {r : Src.Res E} {s : List Val} {w : W} : (r.out s w).stops ↔ r.stops := by cases r <;> exact Iff.rfl

theorem Src.Res.out_stack {r : Src.Res E} {s t : List Val} {w : W} (h : r.stops) : r.out s w = r.out t w := by
  cases r with
  | val v => exact h.elim
  | _ => rfl

theorem Sem.seqPre {A : World M W E} {a b : SC M} {pre1 pre : List Val} {R : Src.Rel W E} {k : Val → Src.Rel W E} (ha : Sem A a pre1 R)
    (hb : ∀ v, Sem A b (v :: pre) (k v)) : Sem A (.seq a b) (pre1 ++ pre) (Src.bind R k) := by
  intro s w o
  rw [seval_seq, List.append_assoc]
  constructor
  · rintro (⟨s', w', h1, h2⟩ | ⟨ho, h1⟩)
    · obtain ⟨r, w1, hr, e⟩ := (ha (pre ++ s) w _).mp h1
      cases r with
      | val v =>
        cases e
        obtain ⟨r', w2, hr', e'⟩ := (hb v s w' o).mp h2
        exact ⟨r', w2, .inl ⟨v, w', hr, hr'⟩, e'⟩
      | ret v => cases e
      | exc e' => cases e
    · obtain ⟨r, w1, hr, rfl⟩ := (ha (pre ++ s) w _).mp h1
      have hs := Src.Res.out_stops.mp ho
      exact ⟨r, w1, .inr ⟨hr, hs⟩, Src.Res.out_stack hs⟩
  · rintro ⟨r, w', ⟨v, w1, h1, h2⟩ | ⟨h1, hs⟩, rfl⟩
    · exact .inl ⟨v :: (pre ++ s), w1, (ha (pre ++ s) w _).mpr ⟨.val v, w1, h1, rfl⟩, (hb v s w1 _).mpr ⟨r, w', h2, rfl⟩⟩
    · exact .inr ⟨Src.Res.out_stops.mpr hs, (ha (pre ++ s) w _).mpr ⟨r, w', h1, Src.Res.out_stack hs⟩⟩

theorem Sem.seq {A : World M W E} {a b : SC M} {pre : List Val} {R : Src.Rel W E} {k : Val → Src.Rel W E} (ha : Sem A a [] R)
    (hb : ∀ v, Sem A b (v :: pre) (k v)) : Sem A (.seq a b) pre (Src.bind R k) := Sem.seqPre ha hb

/-- Code that does not change the stack, then more code. -/
theorem Sem.assoc {A : World M W E} {a b c : SC M} {pre : List Val} {R : Src.Rel W E} (h : Sem A (.seq a (.seq b c)) pre R) : Sem A (.seq (.seq a b) c) pre R := by
  intro s w o
  rw [seval_assoc]
  exact h s w o

theorem Sem.nopSeq {A : World M W E} {b : SC M} {pre : List Val} {R : Src.Rel W E} (h : Sem A b pre R) : Sem A (.seq .nop b) pre R := by
  intro s w o
  rw [seval_seq]
  constructor
  · rintro (⟨s', w', h1, h2⟩ | ⟨ho, h1⟩)
    · cases seval_nop.mp h1; exact (h s w o).mp h2
    · cases seval_nop.mp h1; exact ho.elim
  · intro hr
    exact .inl ⟨_, _, .nop _ _, (h s w o).mpr hr⟩

theorem sem_act {A : World M W E} {i : Ins M} {pre : List Val} {a : Act M} (h : ∀ s, i.eff (pre ++ s) = .act a (.push s)) : Sem A (.ins i) pre (Src.act A a) := by
  intro s w o
  rw [seval_ins]
  constructor
  · intro hi
    cases hi with
    | pure s' h' => rw [h] at h'; cases h'
    | ret v h' => rw [h] at h'; cases h'
    | act a n v w' h' ha => rw [h] at h'; cases h'; exact ⟨.val v, w', .inl ⟨v, rfl, ha⟩, rfl⟩
    | raise a n e w' h' ha => rw [h] at h'; cases h'; exact ⟨.exc e, w', .inr ⟨e, rfl, ha⟩, rfl⟩
  · rintro ⟨r, w', ⟨v, rfl, ha⟩ | ⟨e, rfl, ha⟩, rfl⟩
    · exact .act _ _ _ _ (h s) ha
    · exact .raise _ _ _ _ (h s) ha

theorem sem_const {A : World M W E} (v : Val) : Sem A (.ins (.pushConst v)) [] (Src.pure v) := by
  intro s w o
  rw [seval_ins]
  constructor
  · intro hi
    cases hi with
    | pure s' h' => cases h'; exact ⟨.val v, w, ⟨rfl, rfl⟩, rfl⟩
    | ret v h' => cases h'
    | act a n v w' h' ha => cases h'
    | raise a n e w' h' ha => cases h'
  · rintro ⟨r, w', ⟨rfl, rfl⟩, rfl⟩
    exact .pure _ rfl

theorem sem_nop {A : World M W E} (v : Val) : Sem A .nop [v] (Src.pure v) := by
  intro s w o
  rw [seval_nop]
  constructor
  · rintro rfl; exact ⟨.val v, w, ⟨rfl, rfl⟩, rfl⟩
  · rintro ⟨r, w', ⟨rfl, rfl⟩, rfl⟩; rfl

/-- An action whose value is dropped, then more code. -/
theorem Sem.drop {A : World M W E} {i : Ins M} {b : SC M} {p pre : List Val} {a : Act M} {R : Src.Rel W E}
    (h : ∀ s, i.eff (p ++ s) = .act a (.drop s)) (hb : Sem A b pre R) : Sem A (.seq (.ins i) b) (p ++ pre) (Src.bind (Src.act A a) fun _ => R) := by
  intro s w o
  rw [seval_seq, List.append_assoc]
  constructor
  · rintro (⟨s', w', h1, h2⟩ | ⟨ho, h1⟩)
    · rw [seval_ins] at h1
      generalize hoo : Out.ok s' w' = oo at h1
      cases h1 with
      | pure s' h' => rw [h] at h'; cases h'
      | ret v h' => cases hoo
      | act a n u w1 h' ha =>
        rw [h] at h'
        cases h'
        cases hoo
        obtain ⟨r, w2, hr, e⟩ := (hb s w' o).mp h2
        exact ⟨r, w2, .inl ⟨u, w', .inl ⟨u, rfl, ha⟩, hr⟩, e⟩
      | raise a n e w' h' ha => cases hoo
    · rw [seval_ins] at h1
      cases h1 with
      | pure s' h' => exact ho.elim
      | ret v h' => rw [h] at h'; cases h'
      | act a n u w1 h' ha => rw [h] at h'; cases h'; exact ho.elim
      | raise a n e w' h' ha => rw [h] at h'; cases h'; exact ⟨.exc e, w', .inr ⟨.inr ⟨e, rfl, ha⟩, trivial⟩, rfl⟩
  · rintro ⟨r, w', ⟨u, w1, ⟨u', e1, ha⟩ | ⟨e', e1, ha⟩, h2⟩ | ⟨⟨u', e1, ha⟩ | ⟨e', e1, ha⟩, hs⟩, rfl⟩
    · cases e1
      exact .inl ⟨pre ++ s, w1, seval_ins.mpr (.act _ _ _ _ (h _) ha), (hb s w1 _).mpr ⟨r, w', h2, rfl⟩⟩
    · cases e1
    · subst e1; exact hs.elim
    · subst e1
      exact .inr ⟨trivial, seval_ins.mpr (.raise _ _ _ _ (h _) ha)⟩

theorem Sem.dup {A : World M W E} {b : SC M} {v : Val} {pre : List Val} {R : Src.Rel W E} (hb : Sem A b (v :: v :: pre) R) : Sem A (.seq (.ins .dup) b) (v :: pre) R := by
  intro s w o
  rw [seval_seq, ← hb s w o]
  constructor
  · rintro (⟨s', w', h1, h2⟩ | ⟨ho, h1⟩)
    · rw [seval_ins] at h1
      generalize hoo : Out.ok s' w' = oo at h1
      cases h1 with
      | pure s' h' => cases h'; cases hoo; exact h2
      | ret v h' => cases hoo
      | act a n u w1 h' ha => cases h'
      | raise a n e w' h' ha => cases hoo
    · rw [seval_ins] at h1
      cases h1 with
      | pure s' h' => exact ho.elim
      | ret v h' => cases h'
      | act a n u w1 h' ha => cases h'
      | raise a n e w' h' ha => cases h'
  · intro h2
    exact .inl ⟨_, w, seval_ins.mpr (.pure _ rfl), h2⟩

theorem Sem.pop {A : World M W E} {b : SC M} {v : Val} {pre : List Val} {R : Src.Rel W E} (hb : Sem A b pre R) : Sem A (.seq (.ins .pop) b) (v :: pre) R := by
  intro s w o
  rw [seval_seq, ← hb s w o]
  constructor
  · rintro (⟨s', w', h1, h2⟩ | ⟨ho, h1⟩)
    · rw [seval_ins] at h1
      generalize hoo : Out.ok s' w' = oo at h1
      cases h1 with
      | pure s' h' => cases h'; cases hoo; exact h2
      | ret v h' => cases hoo
      | act a n u w1 h' ha => cases h'
      | raise a n e w' h' ha => cases hoo
    · rw [seval_ins] at h1
      cases h1 with
      | pure s' h' => exact ho.elim
      | ret v h' => cases h'
      | act a n u w1 h' ha => cases h'
      | raise a n e w' h' ha => cases h'
  · intro h2
    exact .inl ⟨_, w, seval_ins.mpr (.pure _ rfl), h2⟩

theorem Sem.constSeq {A : World M W E} {b : SC M} {v : Val} {pre : List Val} {R : Src.Rel W E} (hb : Sem A b (v :: pre) R) : Sem A (.seq (.ins (.pushConst v)) b) pre R := by
  intro s w o
  rw [seval_seq, ← hb s w o]
  constructor
  · rintro (⟨s', w', h1, h2⟩ | ⟨ho, h1⟩)
    · rw [seval_ins] at h1
      generalize hoo : Out.ok s' w' = oo at h1
      cases h1 with
      | pure s' h' => cases h'; cases hoo; exact h2
      | ret v h' => cases hoo
      | act a n u w1 h' ha => cases h'
      | raise a n e w' h' ha => cases hoo
    · rw [seval_ins] at h1
      cases h1 with
      | pure s' h' => exact ho.elim
      | ret v h' => cases h'
      | act a n u w1 h' ha => cases h'
      | raise a n e w' h' ha => cases h'
  · intro h2
    exact .inl ⟨_, w, seval_ins.mpr (.pure _ rfl), h2⟩

/-! ## Literals -/

mutual
theorem sem_lit (A : World M W E) : ∀ (l : LitT), Sem A (litSC l) [] (Src.lit A l)
  | .val v => by simp only [litSC, Src.lit]; exact sem_const v
  | .arr es => by
    simp only [litSC, Src.lit]
    refine Sem.seq (sem_act fun _ => rfl) fun c => ?_
    refine Sem.constSeq ?_
    exact Sem.seqPre (pre1 := [.int es.length, c]) (pre := []) (sem_act fun _ => rfl) fun a => sem_fill A es 1 a
theorem sem_fill (A : World M W E) : ∀ (es : LitTs) (i : Nat) (a : Val), Sem A (litsSC es i) [a] (Src.fill A es i a)
  | .nil, i, a => by simp only [litsSC, Src.fill]; exact sem_nop a
  | .cons e es, i, a => by
    simp only [litsSC, Src.fill]
    refine Sem.assoc (Sem.constSeq (Sem.assoc (Sem.seq (sem_lit A e) fun v => ?_)))
    exact Sem.seqPre (pre1 := [v, .int i, a]) (pre := []) (sem_act fun _ => rfl) fun a' => sem_fill A es (i + 1) a'
end

/-! ## Laws of sequencing -/

theorem Src.bind_assoc (p : Src.Rel W E) (k k' : Val → Src.Rel W E) : Src.bind (Src.bind p k) k' = Src.bind p fun v => Src.bind (k v) k' := by
  funext w r w'
  apply propext
  simp only [Src.bind]
  constructor
  · rintro (⟨v, w1, ⟨u, w2, h1, h2⟩ | ⟨h1, hs⟩, h3⟩ | ⟨⟨u, w2, h1, h2⟩ | ⟨h1, _⟩, hs⟩)
    · exact .inl ⟨u, w2, h1, .inl ⟨v, w1, h2, h3⟩⟩
    · exact hs.elim
    · exact .inl ⟨u, w2, h1, .inr ⟨h2, hs⟩⟩
    · exact .inr ⟨h1, hs⟩
  · rintro (⟨u, w2, h1, ⟨v, w1, h2, h3⟩ | ⟨h2, hs⟩⟩ | ⟨h1, hs⟩)
    · exact .inl ⟨v, w1, .inl ⟨u, w2, h1, h2⟩, h3⟩
    · exact .inr ⟨.inl ⟨u, w2, h1, h2⟩, hs⟩
    · exact .inr ⟨.inr ⟨h1, hs⟩, hs⟩

theorem Src.pure_bind (v : Val) (k : Val → Src.Rel W E) : Src.bind (Src.pure v) k = k v := by
  funext w r w'
  apply propext
  simp only [Src.bind, Src.pure]
  constructor
  · rintro (⟨v', w1, ⟨h1, rfl⟩, h2⟩ | ⟨⟨rfl, rfl⟩, hs⟩)
    · cases h1; exact h2
    · exact hs.elim
  · intro h
    exact .inl ⟨v, w, ⟨rfl, rfl⟩, h⟩

/-! ## Expressions -/

theorem sem_dups {A : World M W E} {c : SC M} {v : Val} {R : Src.Rel W E} : ∀ (n : Nat) (pre : List Val), Sem A c (List.replicate n v ++ v :: pre) R →
    Sem A (.seq (dupsSC n) c) (v :: pre) R
  | 0, pre, h => by simp only [dupsSC]; exact Sem.nopSeq h
  | n + 1, pre, h => by
    simp only [dupsSC]
    refine Sem.assoc (Sem.dup (sem_dups n (v :: pre) ?_))
    have e : List.replicate (n + 1) v ++ v :: pre = List.replicate n v ++ v :: v :: pre := by
      rw [List.replicate_succ', List.append_assoc]; rfl
    rw [← e]
    exact h

theorem sem_pops {A : World M W E} {lvl : Nat} {v : Val} : ∀ (ts : List Tgt), Sem A (popsSC lvl ts) (List.replicate ts.length v ++ [v]) (Src.stores A lvl v ts)
  | [] => by simp only [popsSC, Src.stores]; exact sem_nop v
  | t :: ts => by
    simp only [popsSC, Src.stores]
    have ih := sem_pops (A := A) (lvl := lvl) (v := v) ts
    cases t with
    | var n a i l => exact Sem.drop (p := [v]) (fun s => rfl) ih
    | fld n i => exact Sem.drop (p := [v]) (fun s => rfl) ih

/-- The meaning of inlined blocks: what their code does. -/
def blocksOf (A : World M W E) (I : Inliner M X) (lvl : Nat) : Src.Blocks M X W E where
  body m x := fun w r w' => SEval A (I.code m lvl x) [] w (r.out [] w')
  env m x := I.env m lvl x

theorem blocksOf_means {A : World M W E} {I : Inliner M X} (hI : I.OK) (lvl : Nat) : Means A I lvl (blocksOf A I lvl) :=
  ⟨fun m x hg => sem_of_typed A _ (hI.typed m lvl x 0 hg), fun _ _ => rfl⟩

theorem sem_thenB {A : World M W E} {c : JCond} {b : SC M} {v : Val} {R : Src.Rel W E} (hb : Sem A b [] R) :
    Sem A (.thenB c b) [v] (if c.holds v then Src.pure (c.top v) else R) := by
  intro s w o
  show SEval A (.thenB c b) (v :: s) w o ↔ _
  rw [seval_thenB]
  by_cases hc : c.holds v = true
  · simp only [if_pos hc]
    constructor
    · rintro rfl; exact ⟨.val _, w, ⟨rfl, rfl⟩, rfl⟩
    · rintro ⟨r, w', ⟨rfl, rfl⟩, rfl⟩; rfl
  · simp only [if_neg hc]
    exact hb s w o

theorem sem_ifElse {A : World M W E} {c : JCond} {a b : SC M} {v : Val} {R1 R2 : Src.Rel W E} (ha : Sem A a [] R1) (hb : Sem A b [] R2) :
    Sem A (.ifElse c a b) [v] (if c.holds v then R2 else R1) := by
  intro s w o
  show SEval A (.ifElse c a b) (v :: s) w o ↔ _
  rw [seval_ifElse]
  by_cases hc : c.holds v = true
  · simp only [if_pos hc]; exact hb s w o
  · simp only [if_neg hc]; exact ha s w o

def Src.Res.outDrop (s : List Val) (w : W) : Src.Res E → Out W E
  | .val _ => .ok s w
  | .ret v => .ret v w
  | .exc e => .exc e w

theorem Src.Res.outDrop_stops {r : Src.Res E} {s : List Val} {w : W} (h : r.stops) (t : List Val) : r.out t w = r.outDrop s w := by
  cases r with
  | val v => exact h.elim
  | _ => rfl

theorem seval_pop {A : World M W E} {v : Val} {s : List Val} {w : W} {o : Out W E} : SEval A (.ins .pop) (v :: s) w o ↔ o = .ok s w := by
  rw [seval_ins]
  constructor
  · intro h
    cases h with
    | pure s' h' => cases h'; rfl
    | ret v h' => cases h'
    | act a n u w1 h' ha => cases h'
    | raise a n e w' h' ha => cases h'
  · rintro rfl; exact .pure _ rfl

theorem seval_thenPop {A : World M W E} {body : SC M} {R : Src.Rel W E} (hb : Sem A body [] R) {s : List Val} {w : W} {o : Out W E} :
    SEval A (.seq body (.ins .pop)) s w o ↔ ∃ r w', R w r w' ∧ o = r.outDrop s w' := by
  rw [seval_seq]
  constructor
  · rintro (⟨s', w', h1, h2⟩ | ⟨ho, h1⟩)
    · obtain ⟨r, w1, hr, e⟩ := (hb s w _).mp h1
      cases r with
      | val v => cases e; exact ⟨.val v, w', hr, seval_pop.mp h2⟩
      | ret v => cases e
      | exc e' => cases e
    · obtain ⟨r, w1, hr, rfl⟩ := (hb s w _).mp h1
      exact ⟨r, w1, hr, Src.Res.outDrop_stops (Src.Res.out_stops.mp ho) _⟩
  · rintro ⟨r, w', hr, rfl⟩
    cases r with
    | val v => exact .inl ⟨_, w', (hb s w _).mpr ⟨.val v, w', hr, rfl⟩, seval_pop.mpr rfl⟩
    | ret v => exact .inr ⟨trivial, (hb s w _).mpr ⟨.ret v, w', hr, rfl⟩⟩
    | exc e => exact .inr ⟨trivial, (hb s w _).mpr ⟨.exc e, w', hr, rfl⟩⟩

theorem loop_fwd {A : World M W E} {c : JCond} {cond body : SC M} {R1 R2 : Src.Rel W E} (hc : Sem A cond [] R1) (hb : Sem A body [] R2)
    {L : SC M} {s : List Val} {w : W} {o : Out W E} (h : SEval A L s w o) : L = .loop c cond (.seq body (.ins .pop)) →
    ∃ r w', Src.While c.holds R1 R2 w r w' ∧ o = r.outDrop s w' := by
  induction h with
  | loopExit _ _ _ v s s' w w' hcond hcc _ =>
    intro e; cases e
    obtain ⟨r, w1, hr, e⟩ := (hc s w _).mp hcond
    cases r with
    | val v => cases e; exact ⟨.val .nil, w', .exit _ _ _ hr hcc, rfl⟩
    | ret v => cases e
    | exc e' => cases e
  | loopCondStop _ _ _ s w o ho hcond _ =>
    intro e; cases e
    obtain ⟨r, w1, hr, rfl⟩ := (hc s w _).mp hcond
    have hs := Src.Res.out_stops.mp ho
    exact ⟨r, w1, .condStop _ _ _ hr hs, Src.Res.outDrop_stops hs _⟩
  | loopBodyStop _ _ _ v s s' w w' o ho hcond hcc hbody _ _ =>
    intro e; cases e
    obtain ⟨r, w1, hr, e⟩ := (hc s w _).mp hcond
    cases r with
    | val v =>
      cases e
      obtain ⟨r2, w2, hr2, rfl⟩ := (seval_thenPop hb).mp hbody
      cases r2 with
      | val u => exact ho.elim
      | ret u => exact ⟨_, w2, .bodyStop _ _ _ _ _ hr hcc hr2 trivial, rfl⟩
      | exc u => exact ⟨_, w2, .bodyStop _ _ _ _ _ hr hcc hr2 trivial, rfl⟩
    | ret v => cases e
    | exc e' => cases e
  | loopNext _ _ _ v s s' s'' w w' w'' o hcond hcc hbody hrest _ _ ih =>
    intro e
    have e2 := e
    cases e
    obtain ⟨r, w1, hr, e⟩ := (hc s w _).mp hcond
    cases r with
    | val v =>
      cases e
      obtain ⟨r2, w2, hr2, e3⟩ := (seval_thenPop hb).mp hbody
      cases r2 with
      | val u =>
        cases e3
        obtain ⟨r3, w3, hr3, e4⟩ := ih e2
        exact ⟨r3, w3, .next _ _ _ _ _ _ _ hr hcc hr2 hr3, e4⟩
      | ret u => cases e3
      | exc u => cases e3
    | ret v => cases e
    | exc e' => cases e
  | _ => intro e; cases e

theorem loop_bwd {A : World M W E} {c : JCond} {cond body : SC M} {R1 R2 : Src.Rel W E} (hc : Sem A cond [] R1) (hb : Sem A body [] R2)
    {w w' : W} {r : Src.Res E} (h : Src.While c.holds R1 R2 w r w') (s : List Val) :
    SEval A (.loop c cond (.seq body (.ins .pop))) s w (r.outDrop s w') := by
  induction h with
  | exit w w1 v h1 hs => exact .loopExit _ _ _ v _ _ _ _ ((hc s w _).mpr ⟨_, _, h1, rfl⟩) hs
  | condStop w w1 r h1 hr =>
    rw [← Src.Res.outDrop_stops (s := s) hr s]
    exact .loopCondStop _ _ _ _ _ _ (Src.Res.out_stops.mpr hr) ((hc s w _).mpr ⟨_, _, h1, rfl⟩)
  | bodyStop w w1 w2 v r h1 hs h2 hr =>
    refine .loopBodyStop _ _ _ v _ s _ w1 _ ?_ ((hc s w _).mpr ⟨_, _, h1, rfl⟩) hs ((seval_thenPop hb).mpr ⟨_, _, h2, rfl⟩)
    rw [← Src.Res.outDrop_stops (s := s) hr s]
    exact Src.Res.out_stops.mpr hr
  | next w w1 w2 w3 v u r h1 hs h2 h3 ih =>
    exact .loopNext _ _ _ v _ s s _ w1 w2 _ ((hc s w _).mpr ⟨_, _, h1, rfl⟩) hs ((seval_thenPop hb).mpr ⟨_, _, h2, rfl⟩) ih

theorem while_val {R1 R2 : Src.Rel W E} {stop : Val → Bool} {w w' : W} {r : Src.Res E} (h : Src.While stop R1 R2 w r w') : r.stops ∨ r = .val .nil := by
  induction h with
  | exit => exact .inr rfl
  | condStop w w1 r h1 hr => exact .inl hr
  | bodyStop w w1 w2 v r h1 hs h2 hr => exact .inl hr
  | next w w1 w2 w3 v u r h1 hs h2 h3 ih => exact ih

theorem sem_loop {A : World M W E} {c : JCond} {cond body : SC M} {R1 R2 : Src.Rel W E} (hc : Sem A cond [] R1) (hb : Sem A body [] R2) :
    Sem A (.seq (.loop c cond (.seq body (.ins .pop))) (.ins (.pushConst .nil))) [] (Src.While c.holds R1 R2) := by
  intro s w o
  rw [seval_seq]
  constructor
  · rintro (⟨s', w', h1, h2⟩ | ⟨ho, h1⟩)
    · obtain ⟨r, w1, hr, e⟩ := loop_fwd hc hb h1 rfl
      obtain ⟨r2, w2, ⟨rfl, rfl⟩, rfl⟩ := (sem_const .nil s' w' o).mp h2
      cases r with
      | val v =>
        cases e
        rcases while_val hr with h | h
        · exact h.elim
        · cases h; exact ⟨_, _, hr, rfl⟩
      | ret v => cases e
      | exc e' => cases e
    · obtain ⟨r, w1, hr, rfl⟩ := loop_fwd hc hb h1 rfl
      cases r with
      | val v => exact ho.elim
      | ret v => exact ⟨_, _, hr, rfl⟩
      | exc v => exact ⟨_, _, hr, rfl⟩
  · rintro ⟨r, w', hr, rfl⟩
    have hl := loop_bwd hc hb hr s
    cases r with
    | val v =>
      rcases while_val hr with h | h
      · exact h.elim
      · cases h
        exact .inl ⟨_, _, hl, (sem_const .nil s w' _).mpr ⟨_, _, ⟨rfl, rfl⟩, rfl⟩⟩
    | ret v => exact .inr ⟨trivial, hl⟩
    | exc v => exact .inr ⟨trivial, hl⟩

theorem sem_while {A : World M W E} (b : Bool) {cond body : SC M} {R1 R2 : Src.Rel W E} (hc : Sem A cond [] R1) (hb : Sem A body [] R2) :
    Sem A (.seq (.loop (if b then .onFalse else .onTrue) cond (.seq body (.ins .pop))) (.ins (.pushConst .nil))) []
      (Src.While (fun v => decide (v = if b then .fls else .tru)) R1 R2) := by
  have := sem_loop (c := if b then .onFalse else .onTrue) hc hb
  have e : (if b then JCond.onFalse else JCond.onTrue).holds = fun v => decide (v = if b then Val.fls else Val.tru) := by
    cases b <;> rfl
  rw [e] at this
  exact this

theorem sem_andOr {A : World M W E} (b : Bool) {body : SC M} {R : Src.Rel W E} {v : Val} (hb : Sem A body [] R) :
    Sem A (.ifElse (if b then .onTrue else .onFalse) body (.ins (.pushConst (if b then .tru else .fls)))) [v]
      (if v = (if b then .tru else .fls) then Src.pure (if b then .tru else .fls) else R) := by
  have := sem_ifElse (v := v) (c := if b then .onTrue else .onFalse) hb (sem_const (A := A) (if b then .tru else .fls))
  cases b
  · simpa [JCond.holds] using this
  · simpa [JCond.holds] using this

theorem send_eff (sel : Sel) (n : Nat) (v : Val) (vs s : List Val) (hn : n = vs.length + 1) :
    (Ins.send (M := M) sel n).eff (vs.reverse ++ [v] ++ s) = .act (.send sel (v :: vs)) (.push s) ∧
    (Ins.superSend (M := M) sel n).eff (vs.reverse ++ [v] ++ s) = .act (.superSend sel (v :: vs)) (.push s) := by
  have hl : (vs.reverse ++ [v]).length = n := by simp [hn]
  have h1 : (vs.reverse ++ [v] ++ s).take n = vs.reverse ++ [v] := by rw [← hl]; exact List.take_left
  have h2 : (vs.reverse ++ [v] ++ s).drop n = s := by rw [← hl]; exact List.drop_left
  have h3 : n ≤ (vs.reverse ++ [v] ++ s).length := by rw [List.length_append (as := vs.reverse ++ [v]), hl]; omega
  simp only [Ins.eff, h1, h2, if_pos h3]
  simp

theorem inc_eq {A : World M W E} {P : Src.Arith W E} (hP : Src.IncIsPlus A P) (v : Val) : Src.act A (.inc v) = P.plus v := by
  funext w r w'; exact propext (hP.1 v w r w')

theorem dec_eq {A : World M W E} {P : Src.Arith W E} (hP : Src.IncIsPlus A P) (v : Val) : Src.act A (.dec v) = P.minus v := by
  funext w r w'; exact propext (hP.2 v w r w')

theorem incFld_eq {A : World M W E} {P : Src.Arith W E} (hP : Src.IncFieldIsPlus A P) (i l : Nat) : Src.act A (.incFld i l) = Src.incField A P i l := by
  funext w r w'; exact propext (hP i l w r w')

theorem fusable_some {t : Tgt} {ts : List Tgt} {e : Ex M} {i : Nat} (h : fusable t ts e = some i) : ts = [] ∧ ∃ n n', t = .fld n i ∧ e = .inc (.fld n' i) := by
  unfold fusable at h
  split at h
  · split at h
    · rename_i hij; cases h; subst hij; exact ⟨rfl, _, _, rfl, rfl⟩
    · cases h
  · cases h

theorem ex_incField {A : World M W E} {P : Src.Arith W E} {B : Src.Blocks M X W E} {lvl i : Nat} {n n' : Sel} {x : X} :
    Src.ex A P B lvl (.asg (.fld n i) [] (.inc (.fld n' i))) x = Src.incField A P i lvl := by
  simp only [Src.ex, Src.stores, Src.store, Src.bind_assoc, Src.incField]

mutual
/-- The code of an expression does what the expression means. -/
theorem sem_ex {A : World M W E} {P : Src.Arith W E} {I : Inliner M X} (lvl : Nat) {B : Src.Blocks M X W E} (hB : Means A I lvl B) (e : Ex M) : ∀ (st : Bool × X), e.wf (I.good lvl) →
    Src.needsEx (Src.IncIsPlus A P) (Src.IncFieldIsPlus A P) e →
    Sem A (genEx I lvl e st).1 [] (Src.ex A P B lvl e st.2) ∧ (genEx I lvl e st).2.2 = Src.envEx B e st.2 := by
  have blk := hB.body
  intro st hw hN
  cases e with
  | lit l => simp only [genEx, Src.ex, Src.envEx]; exact ⟨sem_lit A l, trivial⟩
  | glob n =>
    simp only [genEx, Src.ex, Src.envEx, globIns, Src.glob, and_true]
    show Sem A (.ins (if n = "nil".toList then _ else if n = "true".toList then _ else if n = "false".toList then _ else _)) _ _
    split
    · exact sem_const _
    · split
      · exact sem_const _
      · split
        · exact sem_const _
        · exact sem_act fun _ => rfl
  | var a i l => simp only [genEx, Src.ex, Src.envEx]; exact ⟨sem_act fun _ => rfl, trivial⟩
  | fld n i => simp only [genEx, Src.ex, Src.envEx]; exact ⟨sem_act fun _ => rfl, trivial⟩
  | blk c m => simp only [genEx, Src.ex, Src.envEx]; exact ⟨sem_act fun _ => rfl, trivial⟩
  | asg t ts e =>
    simp only [Ex.wf] at hw
    simp only [Src.needsEx] at hN
    obtain ⟨h1, h2⟩ := sem_ex lvl hB e st hw hN.2
    simp only [genEx, Src.envEx]
    have plain : Sem A (.seq (genEx I lvl e st).1 (.seq (dupsSC (ts.length + 1)) (popsSC lvl (t :: ts)))) []
        (Src.ex A P B lvl (.asg t ts e) st.2) := by
      simp only [Src.ex]
      exact Sem.seq h1 fun v => sem_dups (ts.length + 1) [] (sem_pops (t :: ts))
    unfold genAsg
    split
    · rename_i i hf _
      refine ⟨?_, h2⟩
      obtain ⟨rfl, n, n', rfl, rfl⟩ := fusable_some hf
      rcases hN.1 with hN | hN
      · rw [hf] at hN; cases hN
      · rw [ex_incField, ← incFld_eq hN]
        exact sem_act fun _ => rfl
    · exact ⟨plain, h2⟩
  | inc e =>
    simp only [Ex.wf] at hw
    simp only [Src.needsEx] at hN
    obtain ⟨h1, h2⟩ := sem_ex lvl hB e st hw hN.2
    simp only [genEx, Src.envEx, Src.ex]
    refine ⟨Sem.seq h1 fun v => ?_, h2⟩
    rw [← inc_eq hN.1 v]
    exact sem_act fun _ => rfl
  | dec e =>
    simp only [Ex.wf] at hw
    simp only [Src.needsEx] at hN
    obtain ⟨h1, h2⟩ := sem_ex lvl hB e st hw hN.2
    simp only [genEx, Src.envEx, Src.ex]
    refine ⟨Sem.seq h1 fun v => ?_, h2⟩
    rw [← dec_eq hN.1 v]
    exact sem_act fun _ => rfl
  | superSend sel r as =>
    simp only [Ex.wf] at hw
    simp only [Src.needsEx] at hN
    obtain ⟨n1, n2⟩ := hN
    obtain ⟨h1, h2⟩ := sem_ex lvl hB r st hw.1 n1
    obtain ⟨h3, h4⟩ := sem_exs lvl hB as (genEx I lvl r st).2 hw.2.1 n2
    simp only [genEx, Src.envEx, Src.ex]
    rw [h2] at h3 h4
    refine ⟨Sem.seq h1 fun v => h3 [v] _ _ fun vs hvs => ?_, h4⟩
    exact sem_act fun s => (send_eff sel _ v vs s (by rw [hw.2.2, hvs])).2
  | send sel r as =>
    simp only [Ex.wf] at hw
    simp only [Src.needsEx] at hN
    obtain ⟨n1, n2⟩ := hN
    obtain ⟨h1, h2⟩ := sem_ex lvl hB r st hw.1 n1
    obtain ⟨h3, h4⟩ := sem_exs lvl hB as (genEx I lvl r st).2 hw.2.1 n2
    rw [h2] at h3 h4
    simp only [genEx, Src.envEx, Src.ex]
    have wa := hw.2.1
    have wr := hw.1
    cases hin : inlined? sel r as with
    | none =>
      simp only [genSend]
      refine ⟨Sem.seq h1 fun v => h3 [v] _ _ fun vs hvs => ?_, h4⟩
      exact sem_act fun s => (send_eff sel _ v vs s (by rw [hw.2.2, hvs])).1
    | some i =>
      unfold inlined? at hin
      split at hin <;> cases hin
      · simp only [Exs.wf, Ex.wf, and_true] at wa
        simp only [genSend, Src.inlined, Src.inlinedEnv, h2, hB.env]
        exact ⟨Sem.seq h1 fun v => sem_thenB (blk _ _ wa), trivial⟩
      · simp only [Exs.wf, Ex.wf, and_true] at wa
        simp only [genSend, Src.inlined, Src.inlinedEnv, h2, hB.env]
        exact ⟨Sem.seq h1 fun v => sem_ifElse (blk _ _ wa.1) (blk _ _ wa.2), trivial⟩
      · simp only [Exs.wf, Ex.wf, and_true] at wa wr
        simp only [genSend, Src.inlined, Src.inlinedEnv, h2, hB.env]
        exact ⟨sem_while _ (blk _ _ wr) (blk _ _ wa), trivial⟩
      · simp only [Exs.wf, Ex.wf, and_true] at wa
        simp only [genSend, Src.inlined, Src.inlinedEnv, h2, hB.env]
        exact ⟨Sem.seq h1 fun v => sem_andOr _ (blk _ _ wa), trivial⟩
/-- Arguments. -/
theorem sem_exs {A : World M W E} {P : Src.Arith W E} {I : Inliner M X} (lvl : Nat) {B : Src.Blocks M X W E} (hB : Means A I lvl B) (es : Exs M) : ∀ (st : Bool × X), es.wf (I.good lvl) →
    Src.needsExs (Src.IncIsPlus A P) (Src.IncFieldIsPlus A P) es →
    (∀ (pre : List Val) (c : SC M) (k : List Val → Src.Rel W E), (∀ vs, vs.length = es.length → Sem A c (vs.reverse ++ pre) (k vs)) →
      Sem A (.seq (genExs I lvl es st).1 c) pre (Src.exs A P B lvl es st.2 k)) ∧
    (genExs I lvl es st).2.2 = Src.envExs B es st.2 := by
  intro st hw hN
  cases es with
  | nil =>
    simp only [genExs, Src.exs, Src.envExs]
    exact ⟨fun pre c k h => Sem.nopSeq (h [] rfl), trivial⟩
  | cons e es =>
    simp only [Exs.wf] at hw
    have n1 : Src.needsEx (Src.IncIsPlus A P) (Src.IncFieldIsPlus A P) e := by
      simp only [Src.needsExs] at hN; exact hN.1
    have n2 : Src.needsExs (Src.IncIsPlus A P) (Src.IncFieldIsPlus A P) es := by
      simp only [Src.needsExs] at hN; exact hN.2
    obtain ⟨h1, h2⟩ := sem_ex lvl hB e st hw.1 n1
    obtain ⟨h3, h4⟩ := sem_exs lvl hB es (genEx I lvl e st).2 hw.2 n2
    rw [h2] at h3 h4
    simp only [genExs, Src.exs, Src.envExs]
    refine ⟨fun pre c k h => Sem.assoc (Sem.seq h1 fun v => h3 (v :: pre) c _ fun vs hvs => ?_), h4⟩
    have := h (v :: vs) (by simp only [List.length_cons, Exs.length, hvs])
    rw [List.reverse_cons, List.append_assoc] at this
    exact this
end

/-! ## Statements and bodies -/

theorem sem_ret {A : World M W E} {i : Ins M} {pre : List Val} {a : Act M} (h : ∀ s, i.eff (pre ++ s) = .act a .ret) :
    Sem A (.ins i) pre (Src.bind (Src.act A a) Src.answer) := by
  intro s w o
  rw [seval_ins]
  constructor
  · intro h1
    cases h1 with
    | pure s' h' => rw [h] at h'; cases h'
    | ret v h' => rw [h] at h'; cases h'
    | act a n u w1 h' ha => rw [h] at h'; cases h'; exact ⟨.ret u, w1, .inl ⟨u, w1, .inl ⟨u, rfl, ha⟩, rfl, rfl⟩, rfl⟩
    | raise a n e w1 h' ha => rw [h] at h'; cases h'; exact ⟨.exc e, w1, .inr ⟨.inr ⟨e, rfl, ha⟩, trivial⟩, rfl⟩
  · rintro ⟨r, w', ⟨u, w1, ⟨u', e1, ha⟩ | ⟨e', e1, ha⟩, rfl, rfl⟩ | ⟨⟨u', e1, ha⟩ | ⟨e', e1, ha⟩, hs⟩, rfl⟩
    · cases e1
      exact .act _ _ _ _ (h s) ha
    · cases e1
    · subst e1; exact hs.elim
    · subst e1
      exact .raise _ _ _ _ (h s) ha

theorem sem_retLocal {A : World M W E} (v : Val) (pre : List Val) : Sem A (.ins .retLocal) (v :: pre) (Src.answer v) := by
  intro s w o
  rw [seval_ins]
  constructor
  · intro h1
    cases h1 with
    | pure s' h' => cases h'
    | ret v h' => cases h'; exact ⟨.ret _, w, ⟨rfl, rfl⟩, rfl⟩
    | act a n u w1 h' ha => cases h'
    | raise a n e w1 h' ha => cases h'
  · rintro ⟨r, w', ⟨rfl, rfl⟩, rfl⟩
    exact .ret _ rfl

theorem sem_retSelf {A : World M W E} (pre : List Val) : Sem A (.ins .retSelf) pre (Src.bind (Src.act A .self) Src.answer) :=
  sem_ret fun _ => rfl

/-- Without its value, an assignment does the same. -/
theorem sem_effOnly {A : World M W E} {P : Src.Arith W E} {I : Inliner M X} (lvl : Nat) {B : Src.Blocks M X W E} (hB : Means A I lvl B) (e : Ex M) (st : Bool × X) (hw : e.wf (I.good lvl))
    (hN : Src.needsEx (Src.IncIsPlus A P) (Src.IncFieldIsPlus A P) e) {c k : SC M} {R : Src.Rel W E} (hc : effOnly I lvl e st = some c) (hk : Sem A k [] R) :
    Sem A (.seq c k) [] (Src.bind (Src.ex A P B lvl e st.2) fun _ => R) := by
  unfold effOnly at hc
  split at hc
  · rename_i t e'
    split at hc
    · cases hc
      simp only [Ex.wf] at hw
      unfold genAsgEff
      split
      · rename_i i hf
        obtain ⟨_, n, n', rfl, rfl⟩ := fusable_some hf
        simp only [Src.needsEx] at hN
        rcases hN.1 with hN | hN
        · rw [hf] at hN; cases hN
        · rw [ex_incField, ← incFld_eq hN]
          exact Sem.drop (p := []) (fun s => rfl) hk
      · simp only [Src.needsEx] at hN
        obtain ⟨h1, _⟩ := sem_ex lvl hB e' st hw hN.2
        simp only [Src.ex, Src.bind_assoc]
        refine Sem.assoc (Sem.seq h1 fun v => ?_)
        simp only [Src.stores, Src.bind_assoc, Src.pure_bind]
        cases t with
        | var n a i l => exact Sem.drop (p := [v]) (fun s => rfl) hk
        | fld n i => exact Sem.drop (p := [v]) (fun s => rfl) hk
    · cases hc
  · cases hc

theorem sem_stmt {A : World M W E} {P : Src.Arith W E} {I : Inliner M X} (lvl : Nat) {B : Src.Blocks M X W E} (hB : Means A I lvl B) (e : Ex M) (st : Bool × X) (hw : e.wf (I.good lvl))
    (hN : Src.needsEx (Src.IncIsPlus A P) (Src.IncFieldIsPlus A P) e) {k : SC M} {R : Src.Rel W E} (hk : Sem A k [] R) :
    Sem A (.seq (genStmt I lvl e st).1 k) [] (Src.bind (Src.ex A P B lvl e st.2) fun _ => R) := by
  unfold genStmt
  cases hc : effOnly I lvl e st with
  | some c => exact sem_effOnly lvl hB e st hw hN hc hk
  | none => exact Sem.assoc (Sem.seq (sem_ex lvl hB e st hw hN).1 fun v => Sem.pop hk)

theorem sem_return {A : World M W E} {P : Src.Arith W E} {I : Inliner M X} (lvl : Nat) {B : Src.Blocks M X W E} (hB : Means A I lvl B) (e : Ex M) (st : Bool × X) (hw : e.wf (I.good lvl))
    (hN : Src.needsEx (Src.IncIsPlus A P) (Src.IncFieldIsPlus A P) e) :
    Sem A (genReturn I lvl e st) [] (Src.bind (Src.ex A P B lvl e st.2) Src.answer) := by
  have plain : Sem A (.seq (genEx I lvl e st).1 (.ins .retLocal)) [] (Src.bind (Src.ex A P B lvl e st.2) Src.answer) :=
    Sem.seq (sem_ex lvl hB e st hw hN).1 fun v => sem_retLocal v []
  unfold genReturn
  split
  · split
    · rename_i hh
      simp only [Src.ex, hh.2.1]
      exact sem_ret fun _ => rfl
    · exact plain
  · exact plain

/-- The code of a body does what the body means. -/
theorem sem_body {A : World M W E} {P : Src.Arith W E} {I : Inliner M X} (isBlock : Bool) (lvl : Nat) {B : Src.Blocks M X W E} (hB : Means A I lvl B) : ∀ (b : Body M) (st : Bool × X), b.wf (I.good lvl) →
    Src.needsBody (Src.IncIsPlus A P) (Src.IncFieldIsPlus A P) b →
    Sem A (genBody I isBlock lvl b st) [] (Src.body A P B isBlock lvl b st.2)
  | .done, st, _, _ => by
    cases isBlock
    · simp only [genBody, Src.body, Bool.false_eq_true, if_false]; exact sem_retSelf []
    · simp only [genBody, Src.body, if_true]; exact Sem.constSeq (sem_retLocal _ _)
  | .exitSelf, st, _, _ => by simp only [genBody, Src.body]; exact sem_retSelf []
  | .last e, st, hw, hN => by
    simp only [Body.wf] at hw
    simp only [Src.needsBody] at hN
    cases isBlock
    · simp only [genBody, Src.body, Bool.false_eq_true, if_false]
      cases hc : effOnly I lvl e st with
      | some c => exact sem_effOnly lvl hB e st hw hN hc (sem_retSelf [])
      | none => exact Sem.seq (sem_ex lvl hB e st hw hN).1 fun v => sem_retSelf _
    · simp only [genBody, Src.body, if_true]
      exact Sem.seq (sem_ex lvl hB e st hw hN).1 fun v => sem_retLocal v _
  | .exit e, st, hw, hN => by
    simp only [Body.wf] at hw
    simp only [Src.needsBody] at hN
    cases isBlock
    · simp only [genBody, Src.body, Bool.false_eq_true, if_false]
      exact sem_return lvl hB e st hw hN
    · simp only [genBody, Src.body, if_true]
      exact Sem.seq (sem_ex lvl hB e st hw hN).1 fun v => sem_ret fun _ => rfl
  | .stmt e rest, st, hw, hN => by
    simp only [Body.wf] at hw
    have n1 : Src.needsEx (Src.IncIsPlus A P) (Src.IncFieldIsPlus A P) e := by
      simp only [Src.needsBody] at hN; exact hN.1
    have n2 : Src.needsBody (Src.IncIsPlus A P) (Src.IncFieldIsPlus A P) rest := by
      simp only [Src.needsBody] at hN; exact hN.2
    have h2 : (genStmt I lvl e st).2.2 = Src.envEx B e st.2 := (sem_ex lvl hB e st hw.1 n1).2
    have general : Sem A (.seq (genStmt I lvl e st).1 (genBody I isBlock lvl rest (genStmt I lvl e st).2)) []
        (Src.bind (Src.ex A P B lvl e st.2) fun _ => Src.body A P B isBlock lvl rest (Src.envEx B e st.2)) := by
      have := sem_body isBlock lvl hB rest (genStmt I lvl e st).2 hw.2 n2
      rw [h2] at this
      exact sem_stmt lvl hB e st hw.1 n1 this
    cases rest with
    | done =>
      cases isBlock
      · simp only [genBody, Src.body, Bool.false_eq_true, if_false]
        exact sem_stmt lvl hB e st hw.1 n1 (sem_retSelf [])
      · simp only [genBody, Src.body, if_true]
        exact Sem.seq (sem_ex lvl hB e st hw.1 n1).1 fun v => sem_retLocal v _
    | last e' => exact general
    | stmt e' r => exact general
    | exit e' => exact general
    | exitSelf => exact general

end
end PySOM.BC

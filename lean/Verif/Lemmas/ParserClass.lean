import Verif.Lemmas.ParserMethod
import Verif.Spec.GrammarClass
/-! # Class definitions: the parser and the grammar -/
set_option autoImplicit false
namespace PySOM.Parse
open PySOM.Lex PySOM.Parse.Grammar

theorem fieldsDecl_eq (n : Nat) (s : PSt) : fieldsDecl n s = localsDecl n s := rfl

/-- The first token of a method. -/
def MStart (t : Tok) : Prop := IsId t ∨ t.sym = .keyword ∨ IsOp t

theorem atMethod_iff {t : Tok} {r : List Tok} {b : Bool} : PSt.atMethod ⟨t :: r, b⟩ = true ↔ MStart t := by
  simp only [PSt.atMethod, Bool.or_eq_true, isIdent_iff, isBinOp_iff, MStart, beq_iff_eq, or_assoc]

theorem atMethod_nil {b : Bool} : PSt.atMethod ⟨[], b⟩ = false := by cases b <;> decide

theorem method_start {D : Dialect} {ts : List Tok} {m : Method} (h : GMethod D ts m) : ∃ t tl, ts = t :: tl ∧ MStart t := by
  have key : ∀ {ps x xs}, Pattern ps x xs → ∃ t tl, ps = t :: tl ∧ MStart t := by
    intro ps x xs h
    cases h with
    | unary h => exact ⟨_, _, rfl, .inl h⟩
    | binary h _ => exact ⟨_, _, rfl, .inr (.inr h)⟩
    | keyword h =>
      cases h with
      | one h _ => exact ⟨_, _, rfl, .inr (.inl h)⟩
      | cons h _ _ => exact ⟨_, _, rfl, .inr (.inl h)⟩
  cases h with
  | prim h _ _ => obtain ⟨t, tl, rfl, k⟩ := key h; exact ⟨t, _, rfl, k⟩
  | body h _ _ _ _ _ => obtain ⟨t, tl, rfl, k⟩ := key h; exact ⟨t, _, rfl, k⟩

theorem methods_ok {e : Engine} {ts : List Tok} {ms : List Method} (h : GMethods (part e) ts ms) (rest : List Tok) (hr : ∀ t ∈ rest.head?, ¬ MStart t) :
    Ev fun n => methods e n ⟨ts ++ rest, false⟩ = .ok (ms, ⟨rest, false⟩) := by
  induction h with
  | nil =>
    refine .of fun n => ?_
    have : PSt.atMethod ⟨rest, false⟩ = false := by
      cases rest with
      | nil => exact atMethod_nil
      | cons t tl => exact Bool.eq_false_iff.mpr (mt atMethod_iff.mp (hr t rfl))
    simp only [List.nil_append, methods, this]
    rfl
  | @cons ts us m ms h _ ih =>
    refine ((method_ok h (us ++ rest)).and ih).step fun n ⟨k1, k2⟩ => ?_
    obtain ⟨t, tl, rfl, hs⟩ := method_start h
    rw [List.append_assoc]
    have : PSt.atMethod ⟨t :: tl ++ (us ++ rest), false⟩ = true := atMethod_iff.mpr hs
    simp only [methods, this, if_true, k1, k2, bind, Except.bind]
    rfl

theorem side_ok {e : Engine} {ts : List Tok} {xs : List Name} {ms : List Method} (h : GSide (part e) true ts xs ms) (rest : List Tok)
    (hr : ∀ t ∈ rest.head?, ¬ MStart t) :
    ∃ us, Ev fun n => fieldsDecl n ⟨ts ++ rest, false⟩ = .ok (xs, ⟨us ++ rest, false⟩) ∧ methods e n ⟨us ++ rest, false⟩ = .ok (ms, ⟨rest, false⟩) := by
  cases h with
  | @mk fs us _ _ hf hm hs =>
    refine ⟨us, Ev.and ?_ (methods_ok hm rest hr)⟩
    cases hf with
    | none =>
      refine .of fun n => ?_
      have : PSt.sym ⟨us ++ rest, false⟩ ≠ .or := by
        refine sym_ne (by decide) fun t ht => ?_
        cases us with
        | nil =>
          intro ho
          refine hr t ht (.inr (.inr ?_))
          simp [IsOp, ho]
        | cons u us =>
          cases ht
          exact hs rfl rfl _ rfl
      simp only [List.nil_append, fieldsDecl, if_neg this]
    | @some o c ts _ ho hc hi =>
      have k := locals_ok hi (c :: (us ++ rest)) false (fun t ht => by cases ht; simp [IsId, hc])
      refine k.mono fun n k => ?_
      rw [show o :: (ts ++ [c]) ++ us ++ rest = o :: (ts ++ c :: (us ++ rest)) by simp]
      simp only [fieldsDecl, sym_cons, ho, if_true, k, bind, Except.bind, PSt.advance, List.tail_cons, expect_cons hc]
      rfl

theorem mstart_sep {t : Tok} (h : t.sym = .separator) : ¬ MStart t := by simp [MStart, IsId, IsOp, h]
theorem mstart_end {t : Tok} (h : t.sym = .endTerm) : ¬ MStart t := by simp [MStart, IsId, IsOp, h]

theorem classdef_ok {e : Engine} {ts : List Tok} {d : ClassText} (h : GClass (part e) true ts d) (rest : List Tok) :
    Ev fun n => classdef e n ⟨ts ++ rest, false⟩ = .ok (d, ⟨rest, false⟩) := by
  cases h with
  | @mk n q o c ss ts us sup xs ms cls hn hq hsup ho hi hc hcl =>
    rw [show n :: q :: (ss ++ o :: (ts ++ (us ++ [c]))) ++ rest = n :: q :: (ss ++ o :: (ts ++ (us ++ c :: rest))) by simp]
    have hsup' : superclass ⟨ss ++ o :: (ts ++ (us ++ c :: rest)), false⟩ = (sup, ⟨o :: (ts ++ (us ++ c :: rest)), false⟩) := by
      cases hsup with
      | none => simp [superclass, ho]
      | some h => simp [superclass, h]
    have hh : ∀ t ∈ (us ++ c :: rest).head?, ¬ MStart t := by
      intro t ht
      cases hc with
      | none => cases ht; exact mstart_end hcl
      | some hp _ => cases ht; exact mstart_sep hp
    obtain ⟨vs, k⟩ := side_ok hi (us ++ c :: rest) hh
    cases hc with
    | none =>
      refine k.mono fun n ⟨k1, k2⟩ => ?_
      have hx : ¬ (c.sym = .separator) := by rw [hcl]; decide
      simp only [List.nil_append] at hsup' k1 k2
      simp only [classdef, expect_cons hn, expect_cons hq, bind, Except.bind, hsup', expect_cons ho, k1, k2, List.nil_append, sym_cons, if_neg hx,
        expect_cons hcl]
      rfl
    | @some p cs ys ns hp hcs =>
      obtain ⟨ws, k'⟩ := side_ok hcs (c :: rest) (fun t ht => by cases ht; exact mstart_end hcl)
      refine (k.and k').mono fun n ⟨⟨k1, k2⟩, k3, k4⟩ => ?_
      simp only [List.cons_append] at hsup' k1 k2
      simp only [classdef, expect_cons hn, expect_cons hq, bind, Except.bind, hsup', expect_cons ho, k1, k2, List.cons_append, sym_cons, hp, if_true, PSt.advance,
        List.tail_cons, k3, k4, expect_cons hcl]
      rfl

/-! ## Without the constructs that the parsers get wrong -/

theorem Grammar.GMethods.plain {e : Engine} {ts : List Tok} {ms : List Method} (h : GMethods som ts ms) (hp : Plain e ts) : GMethods (part e) ts ms := by
  induction h with
  | nil => exact .nil
  | cons h _ ih => exact .cons (h.plain hp.left) (ih hp.right)

theorem Grammar.GSide.plain {e : Engine} {f : Bool} {ts : List Tok} {xs : List Name} {ms : List Method} (h : GSide som f ts xs ms) (hp : Plain e ts) :
    GSide (part e) f ts xs ms := by
  cases h with
  | mk h1 h2 h3 => exact .mk h1 (h2.plain hp.right) h3

theorem Grammar.GClass.plain {e : Engine} {f : Bool} {ts : List Tok} {d : ClassText} (h : GClass som f ts d) (hp : Plain e ts) : GClass (part e) f ts d := by
  cases h with
  | mk h1 h2 h3 h4 h5 h6 h7 =>
    have hp := hp.tail.tail.right.tail
    refine .mk h1 h2 h3 h4 (h5.plain hp.left) ?_ h7
    have hp := hp.right.left
    cases h6 with
    | none => exact .none
    | some k1 k2 => exact .some k1 (k2.plain hp.tail)

/-! ## What is parsed is a class definition -/

theorem Legal.right {ts us : List Tok} (h : Legal (ts ++ us)) : Legal us := fun t ht => h t (List.mem_append_right _ ht)

theorem methods_sound {e : Engine} : ∀ (n : Nat) (s s' : PSt) (ms : List Method), methods e n s = .ok (ms, s') → s.sup = false → NoSuper s.toks → Legal s.toks →
    Took s s' fun ts => GMethods (taken e) ts ms := by
  intro n
  induction n with
  | zero => intro s s' ms h; cases h
  | succ n ih =>
    intro s s' ms h hb hs hl
    simp only [methods] at h
    by_cases h1 : s.atMethod = true
    · rw [if_pos h1] at h
      obtain ⟨⟨m, s1⟩, k1, h⟩ := bindInv h
      obtain ⟨⟨ns, s2⟩, k2, h⟩ := bindInv h
      cases h
      obtain ⟨ts, e1, b1, g1⟩ := method_sound k1 hb hs hl
      rw [e1] at hs hl
      obtain ⟨us, e2, b2, g2⟩ := ih _ _ _ k2 (by rw [b1, hb]) hs.right hl.right
      exact ⟨ts ++ us, by rw [e1, e2]; simp, by rw [b2, b1], .cons g1 g2⟩
    · rw [if_neg h1] at h
      cases h
      exact ⟨[], rfl, rfl, .nil⟩

theorem side_sound {e : Engine} {n : Nat} {s s1 s' : PSt} {xs : List Name} {ms : List Method} (h1 : fieldsDecl n s = .ok (xs, s1))
    (h2 : methods e n s1 = .ok (ms, s')) (hb : s.sup = false) (hs : NoSuper s.toks) (hl : Legal s.toks) :
    Took s s' fun ts => GSide (taken e) true ts xs ms := by
  obtain ⟨fs, e1, b1, g1⟩ := localsDecl_sound h1
  have hfirst : fs = [] → s.sym ≠ .or := by
    rintro rfl ho
    simp only [fieldsDecl, if_pos ho] at h1
    obtain ⟨⟨ys, s2⟩, k1, h1⟩ := bindInv h1
    obtain ⟨s3, k2, h1⟩ := bindInv h1
    cases h1
    obtain ⟨us, e2, _, _⟩ := locals_sound _ _ _ _ k1
    obtain ⟨c, e3, _, _⟩ := expect_inv (by decide) k2
    have h4 : s.toks.tail = us ++ c :: s1.toks := by rw [← e3, ← e2]
    have h5 := congrArg List.length h4
    rw [e1] at h5
    simp at h5
    omega
  rw [e1] at hs hl
  obtain ⟨ts, e2, b2, g2⟩ := methods_sound n _ _ _ h2 (by rw [b1, hb]) hs.right hl.right
  refine ⟨fs ++ ts, by rw [e1, e2]; simp, by rw [b2, b1], .mk g1 g2 fun _ hf t ht ho => ?_⟩
  refine hfirst hf ?_
  subst hf
  rw [List.nil_append, e2] at e1
  cases ts with
  | nil => cases ht
  | cons u us =>
    cases ht
    simp only [PSt.sym, e1, List.cons_append]
    exact ho

theorem classdef_sound {e : Engine} {n : Nat} {s s' : PSt} {d : ClassText} (h : classdef e n s = .ok (d, s')) (hb : s.sup = false) (hs : NoSuper s.toks)
    (hl : Legal s.toks) : Took s s' fun ts => GClass (taken e) true ts d := by
  simp only [classdef] at h
  obtain ⟨s1, k1, h⟩ := bindInv h
  obtain ⟨s2, k2, h⟩ := bindInv h
  obtain ⟨q1, e1, h1, b1⟩ := expect_inv (by decide) k1
  obtain ⟨q2, e2, h2, b2⟩ := expect_inv (by decide) k2
  obtain ⟨ss, e3, b3, g3⟩ : Took s2 (superclass s2).2 fun ts => GSuper ts (superclass s2).1 := by
    rcases s2 with ⟨_ | ⟨t, r⟩, b⟩
    · exact ⟨[], rfl, rfl, .none⟩
    · by_cases hi : t.sym = .identifier
      · refine ⟨[t], ?_, ?_, ?_⟩ <;> simp [superclass, hi, GSuper.some hi]
      · refine ⟨[], ?_, ?_, ?_⟩ <;> simp [superclass, hi, GSuper.none]
  obtain ⟨s3, k3, h⟩ := bindInv h
  obtain ⟨q4, e4, h4, b4⟩ := expect_inv (by decide) k3
  obtain ⟨⟨fs, s4⟩, k4, h⟩ := bindInv h
  obtain ⟨⟨ms, s5⟩, k5, h⟩ := bindInv h
  have htxt : s.text = q1.text := by simp only [PSt.text, e1]
  rw [e1, e2, e3, e4] at hs hl
  have hs := hs.tail.tail.right.tail
  have hl : Legal s3.toks := fun t ht => hl t (by simp [ht])
  obtain ⟨ts, e5, b5, g5⟩ := side_sound k4 k5 (by rw [b4, b3, b2, b1, hb]) hs hl
  simp only at h
  by_cases h6 : s5.sym = .separator
  · rw [if_pos h6] at h
    obtain ⟨⟨cfs, s6⟩, k6, h⟩ := bindInv h
    obtain ⟨⟨cms, s7⟩, k7, h⟩ := bindInv h
    obtain ⟨s8, k8, h⟩ := bindInv h
    cases h
    obtain ⟨q8, e8, h8, b8⟩ := expect_inv (by decide) k8
    rw [e5] at hs hl
    rcases s5 with ⟨_ | ⟨p, r⟩, b⟩
    · cases h6
    have hs := hs.right
    obtain ⟨us, e7, b7, g7⟩ := side_sound k6 k7 (by show b = false; rw [show b = _ from b5, b4, b3, b2, b1, hb]) hs.tail (fun t ht => hl.right t (List.mem_cons_of_mem _ ht))
    refine ⟨q1 :: q2 :: (ss ++ q4 :: (ts ++ (p :: us ++ [q8]))), ?_, ?_, ?_⟩
    · rw [e1, e2, e3, e4, e5, show r = us ++ s7.toks from e7, e8]; simp
    · rw [b8, b7, show b = _ from b5, b4, b3, b2, b1]
    · rw [htxt]
      exact .mk h1 h2 g3 h4 g5 (.some h6 g7) h8
  · rw [if_neg h6] at h
    obtain ⟨s8, k8, h⟩ := bindInv h
    cases h
    obtain ⟨q8, e8, h8, b8⟩ := expect_inv (by decide) k8
    refine ⟨q1 :: q2 :: (ss ++ q4 :: (ts ++ ([] ++ [q8]))), ?_, ?_, ?_⟩
    · rw [e1, e2, e3, e4, e5, e8]; simp
    · rw [b8, b5, b4, b3, b2, b1]
    · rw [htxt]
      exact .mk h1 h2 g3 h4 g5 .none h8

end PySOM.Parse

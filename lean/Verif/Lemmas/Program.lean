import Verif.Spec.Program
import Verif.Lemmas.Closed
import Verif.Lemmas.Access
/-!
# Sources compile to methods whose blocks are compiled blocks
-/
set_option autoImplicit false
namespace PySOM.BC
open PySOM

/-- What compiling the blocks gives. -/
structure Built (n lvl : Nat) (sids : List Nat) (wf : Prop) (quiet : Prop) (nofld : Prop) (bs : List (Bool × Meth)) : Prop where
  wf : wf
  ids : (idsOf bs).Sublist sids
  blocks : ∀ c m, (c, m) ∈ bs → Compiled n lvl m
  closed : ∀ m, (false, m) ∈ bs → Closed m
  quiet : quiet → nofld ∧ AllClosed bs

theorem Built.leaf {n lvl : Nat} {wf quiet nofld : Prop} (hw : wf) (hq : quiet → nofld) : Built n lvl [] wf quiet nofld [] :=
  ⟨hw, List.Sublist.refl _, fun _ _ h => (nomatch h), fun _ h => (nomatch h), fun h => ⟨hq h, fun _ _ h => nomatch h⟩⟩

theorem Built.both {n lvl : Nat} {i1 i2 : List Nat} {w1 w2 q1 q2 f1 f2 w q f : Prop} {b1 b2 : List (Bool × Meth)} (h1 : Built n lvl i1 w1 q1 f1 b1)
    (h2 : Built n lvl i2 w2 q2 f2 b2) (hw : w1 → w2 → w) (hq : q → q1 ∧ q2) (hf : f1 → f2 → f) : Built n lvl (i1 ++ i2) w q f (b1 ++ b2) where
  wf := hw h1.wf h2.wf
  ids := by rw [idsOf_append]; exact h1.ids.append h2.ids
  blocks := fun c m hm => (List.mem_append.mp hm).elim (h1.blocks c m) (h2.blocks c m)
  closed := fun m hm => (List.mem_append.mp hm).elim (h1.closed m) (h2.closed m)
  quiet := fun h => ⟨hf (h1.quiet (hq h).1).1 (h2.quiet (hq h).2).1, AllClosed.append.mpr ⟨(h1.quiet (hq h).1).2, (h2.quiet (hq h).2).2⟩⟩

theorem Built.conv {n lvl : Nat} {i : List Nat} {w1 q1 f1 w q f : Prop} {b : List (Bool × Meth)} (h : Built n lvl i w1 q1 f1 b)
    (hw : w1 → w) (hq : q → q1) (hf : f1 → f) : Built n lvl i w q f b :=
  ⟨hw h.wf, h.ids, h.blocks, h.closed, fun x => ⟨hf (h.quiet (hq x)).1, (h.quiet (hq x)).2⟩⟩

section
variable (known : Sel → Bool) (n : Nat)

theorem Exs.build_length : ∀ (lvl : Nat) (es : Exs SBlock) (es' : Exs Meth), es.build known n lvl = .ok es' → es'.length = es.length
  | _, .nil, _, h => by simp only [Exs.build] at h; cases h; rfl
  | lvl, .cons e es, _, h => by
    simp only [Exs.build] at h
    obtain ⟨e1, h1, h⟩ := except_bind_ok h
    obtain ⟨es1, h2, h⟩ := except_bind_ok h
    cases h
    simp only [Exs.length, Exs.build_length lvl es es1 h2]

theorem Body.build_fits (isBlock : Bool) : ∀ (lvl : Nat) (b : Body SBlock) (b' : Body Meth), b.build known n lvl = .ok b' → b.fits isBlock → b'.fits isBlock
  | _, .done, _, h, hf => by simp only [Body.build] at h; cases h; exact hf
  | _, .exitSelf, _, h, hf => by simp only [Body.build] at h; cases h; exact hf
  | _, .last e, _, h, hf => by simp only [Body.build] at h; obtain ⟨e1, h1, h⟩ := except_bind_ok h; cases h; exact hf
  | _, .exit e, _, h, hf => by simp only [Body.build] at h; obtain ⟨e1, h1, h⟩ := except_bind_ok h; cases h; exact hf
  | lvl, .stmt e r, _, h, hf => by
    simp only [Body.build] at h
    obtain ⟨e1, h1, h⟩ := except_bind_ok h
    obtain ⟨r1, h2, h⟩ := except_bind_ok h
    cases h
    simp only [Body.fits] at hf ⊢
    exact Body.build_fits isBlock lvl r r1 h2 hf

theorem or_false_split {a b : Bool} (h : (a || b) = false) : a = false ∧ b = false := by cases a <;> cases b <;> simp_all

/-- The same depth for every part. -/
abbrev QuietAt (f : Nat → Bool) : Prop := ∃ d, f d = false

mutual
theorem Ex.build_ok : ∀ (lvl : Nat) (e : Ex SBlock) (e' : Ex Meth), e.Wf → e.sids.Nodup → e.build known n lvl = .ok e' →
    Built n lvl e.sids (e'.wf fun _ => True) (QuietAt fun d => e.outside known d) e'.noFld e'.blks
  | lvl, .lit l, _, hw, hi, h => by
    simp only [Ex.build] at h; cases h; simp only [Ex.wf, Ex.Wf, Ex.sids, Ex.noFld, Ex.blks] at hw ⊢
    exact .leaf hw fun _ => trivial
  | lvl, .glob s, _, hw, hi, h => by
    simp only [Ex.build] at h; cases h; simp only [Ex.wf, Ex.sids, Ex.noFld, Ex.blks]
    exact .leaf trivial fun _ => trivial
  | lvl, .var a i l, _, hw, hi, h => by
    simp only [Ex.build] at h; cases h; simp only [Ex.wf, Ex.sids, Ex.noFld, Ex.blks]
    exact .leaf trivial fun _ => trivial
  | lvl, .fld s i, _, hw, hi, h => by
    simp only [Ex.build] at h; cases h; simp only [Ex.wf, Ex.sids, Ex.noFld, Ex.blks, Ex.outside]
    exact .leaf trivial fun ⟨_, h⟩ => by cases h
  | lvl, .blk c s, _, hw, hi, h => by
    simp only [Ex.build] at h
    obtain ⟨m, h1, h⟩ := except_bind_ok h
    cases h
    simp only [Ex.Wf, Ex.sids, Ex.wf, Ex.noFld, Ex.blks, Ex.outside] at hw hi ⊢
    obtain ⟨k1, k2, k3⟩ := SBlock.compile_ok lvl s m hw hi h1
    refine ⟨trivial, ?_, ?_, ?_, ?_⟩
    · simpa [idsOf] using k1
    · intro c' m' hm; cases List.mem_singleton.mp hm; exact k2
    · intro m' hm
      have := List.mem_singleton.mp hm
      simp only [Prod.mk.injEq] at this
      obtain ⟨e, rfl⟩ := this
      refine k3 ⟨0, ?_⟩
      cases s
      exact e.symm
    · rintro ⟨d, hd⟩
      refine ⟨trivial, AllClosed.one.mpr (k3 ⟨d + 1, ?_⟩)⟩
      cases s
      simpa only [SBlock.outside] using hd
  | lvl, .asg t ts e, _, hw, hi, h => by
    simp only [Ex.build] at h
    obtain ⟨e1, h1, h⟩ := except_bind_ok h
    cases h
    simp only [Ex.Wf, Ex.sids, Ex.wf, Ex.noFld, Ex.blks, Ex.outside] at hw hi ⊢
    exact (Ex.build_ok lvl e e1 hw hi h1).conv id (fun ⟨d, h⟩ => ⟨d, (or_false_split (or_false_split h).1).1⟩) id
  | lvl, .inc e, _, hw, hi, h => by
    simp only [Ex.build] at h
    obtain ⟨e1, h1, h⟩ := except_bind_ok h
    cases h
    simp only [Ex.Wf, Ex.sids, Ex.wf, Ex.noFld, Ex.blks, Ex.outside] at hw hi ⊢
    exact Ex.build_ok lvl e e1 hw hi h1
  | lvl, .dec e, _, hw, hi, h => by
    simp only [Ex.build] at h
    obtain ⟨e1, h1, h⟩ := except_bind_ok h
    cases h
    simp only [Ex.Wf, Ex.sids, Ex.wf, Ex.noFld, Ex.blks, Ex.outside] at hw hi ⊢
    exact Ex.build_ok lvl e e1 hw hi h1
  | lvl, .send sel r as, _, hw, hi, h => by
    simp only [Ex.build] at h
    obtain ⟨r1, h1, h⟩ := except_bind_ok h
    obtain ⟨as1, h2, h⟩ := except_bind_ok h
    cases h
    simp only [Ex.Wf, Ex.sids, Ex.wf, Ex.noFld, Ex.blks, Ex.outside] at hw hi ⊢
    rw [List.nodup_append] at hi
    exact (Ex.build_ok lvl r r1 hw.1 hi.1 h1).both (Exs.build_ok lvl as as1 hw.2.1 hi.2.1 h2)
      (fun a b => ⟨a, b, by rw [hw.2.2, Exs.build_length known n lvl as as1 h2]⟩)
      (fun ⟨d, h⟩ => ⟨⟨d, (or_false_split h).1⟩, ⟨d, (or_false_split h).2⟩⟩) fun a b => ⟨a, b⟩
  | lvl, .superSend sel r as, _, hw, hi, h => by
    simp only [Ex.build] at h
    obtain ⟨r1, h1, h⟩ := except_bind_ok h
    obtain ⟨as1, h2, h⟩ := except_bind_ok h
    cases h
    simp only [Ex.Wf, Ex.sids, Ex.wf, Ex.noFld, Ex.blks, Ex.outside] at hw hi ⊢
    rw [List.nodup_append] at hi
    exact (Ex.build_ok lvl r r1 hw.1 hi.1 h1).both (Exs.build_ok lvl as as1 hw.2.1 hi.2.1 h2)
      (fun a b => ⟨a, b, by rw [hw.2.2, Exs.build_length known n lvl as as1 h2]⟩)
      (fun ⟨d, h⟩ => ⟨⟨d, (or_false_split h).1⟩, ⟨d, (or_false_split h).2⟩⟩) fun a b => ⟨a, b⟩
theorem Exs.build_ok : ∀ (lvl : Nat) (es : Exs SBlock) (es' : Exs Meth), es.Wf → es.sids.Nodup → es.build known n lvl = .ok es' →
    Built n lvl es.sids (es'.wf fun _ => True) (QuietAt fun d => es.outside known d) es'.noFld es'.blks
  | lvl, .nil, _, hw, hi, h => by
    simp only [Exs.build] at h; cases h; simp only [Exs.wf, Exs.sids, Exs.noFld, Exs.blks]
    exact .leaf trivial fun _ => trivial
  | lvl, .cons e es, _, hw, hi, h => by
    simp only [Exs.build] at h
    obtain ⟨e1, h1, h⟩ := except_bind_ok h
    obtain ⟨es1, h2, h⟩ := except_bind_ok h
    cases h
    simp only [Exs.Wf, Exs.sids, Exs.wf, Exs.noFld, Exs.blks, Exs.outside] at hw hi ⊢
    rw [List.nodup_append] at hi
    exact (Ex.build_ok lvl e e1 hw.1 hi.1 h1).both (Exs.build_ok lvl es es1 hw.2 hi.2.1 h2) (fun a b => ⟨a, b⟩)
      (fun ⟨d, h⟩ => ⟨⟨d, (or_false_split h).1⟩, ⟨d, (or_false_split h).2⟩⟩) fun a b => ⟨a, b⟩
theorem Body.build_ok : ∀ (lvl : Nat) (b : Body SBlock) (b' : Body Meth), b.Wf → b.sids.Nodup → b.build known n lvl = .ok b' →
    Built n lvl b.sids (b'.wf fun _ => True) (QuietAt fun d => b.outside known d) b'.noFld b'.blks
  | lvl, .done, _, hw, hi, h => by
    simp only [Body.build] at h; cases h; simp only [Body.wf, Body.sids, Body.noFld, Body.blks]
    exact .leaf trivial fun _ => trivial
  | lvl, .exitSelf, _, hw, hi, h => by
    simp only [Body.build] at h; cases h; simp only [Body.wf, Body.sids, Body.noFld, Body.blks, Body.outside]
    exact .leaf trivial fun ⟨_, h⟩ => by cases h
  | lvl, .last e, _, hw, hi, h => by
    simp only [Body.build] at h
    obtain ⟨e1, h1, h⟩ := except_bind_ok h
    cases h
    simp only [Body.Wf, Body.sids, Body.wf, Body.noFld, Body.blks, Body.outside] at hw hi ⊢
    exact Ex.build_ok lvl e e1 hw hi h1
  | lvl, .exit e, _, hw, hi, h => by
    simp only [Body.build] at h
    obtain ⟨e1, h1, h⟩ := except_bind_ok h
    cases h
    simp only [Body.Wf, Body.sids, Body.wf, Body.noFld, Body.blks, Body.outside] at hw hi ⊢
    have hb := Ex.build_ok lvl e e1 hw hi h1
    exact ⟨hb.wf, hb.ids, hb.blocks, hb.closed, fun ⟨d, h⟩ => by cases h⟩
  | lvl, .stmt e r, _, hw, hi, h => by
    simp only [Body.build] at h
    obtain ⟨e1, h1, h⟩ := except_bind_ok h
    obtain ⟨r1, h2, h⟩ := except_bind_ok h
    cases h
    simp only [Body.Wf, Body.sids, Body.wf, Body.noFld, Body.blks, Body.outside] at hw hi ⊢
    rw [List.nodup_append] at hi
    exact (Ex.build_ok lvl e e1 hw.1 hi.1 h1).both (Body.build_ok lvl r r1 hw.2 hi.2.1 h2) (fun a b => ⟨a, b⟩)
      (fun ⟨d, h⟩ => ⟨⟨d, (or_false_split h).1⟩, ⟨d, (or_false_split h).2⟩⟩) fun a b => ⟨a, b⟩
theorem SBlock.compile_ok : ∀ (lvl : Nat) (s : SBlock) (m : Meth), s.Wf → s.sids.Nodup → s.compile known n lvl = .ok m →
    m.ids.Sublist s.sids ∧ Compiled n lvl m ∧ ((QuietAt fun d => (match s with | .mk _ _ _ b => b.outside known d)) → Closed m)
  | lvl, .mk id args env b, m, hw, hi, h => by
    simp only [SBlock.compile] at h
    obtain ⟨b1, h1, h⟩ := except_bind_ok h
    simp only [SBlock.Wf, SBlock.sids, List.nodup_cons] at hw hi ⊢
    have hb := Body.build_ok (lvl + 1) b b1 hw.1 hi.2 h1
    have hf := Body.build_fits known n true (lvl + 1) b b1 h1 hw.2
    have hids := hi.2.sublist hb.ids
    have hok : BlksOK (lvl + 1) b1.blks := ⟨fun c m hm => (hb.blocks c m hm).good, fun m hm => (hb.closed m hm).sound _ (hb.blocks _ m hm).good.1⟩
    refine ⟨?_, .mk lvl id args env b1 m hb.wf hf hids hb.blocks hb.closed h, ?_⟩
    · rcases compileBlock_cases hb.wf hf hok h with ⟨t, ht, rfl⟩ | ⟨g, C, _, _, rfl⟩
      · simp only [Meth.ids]
        exact List.cons_sublist_cons.mpr (List.nil_sublist _)
      · simp only [Meth.ids]
        exact List.cons_sublist_cons.mpr ((genBody_piece n (lvl + 1) b1 (false, env) hb.wf hf hok).ids.trans hb.ids)
    · intro hq
      exact compileBlock_closed hb.wf hf hok (hb.quiet hq).1 (hb.quiet hq).2 h
end
end

/-- A method of the source is compiled from a body whose blocks are compiled blocks. -/
theorem SMethod.compile_sourced {known : Sel → Bool} {n : Nat} {s : SMethod} {g : G Meth (List Nat)} (hw : s.Wf) (h : s.compile known n = .ok g) :
    ∃ b, s.body.build known n 0 = .ok b ∧ Sourced n 0 false b ∧ BC.compile (inlineMeth n) false 0 s.env b = .ok g := by
  obtain ⟨b, hb, h⟩ := except_bind_ok h
  have hB := s.body.build_ok known n 0 b hw.body hw.ids hb
  exact ⟨b, hb, ⟨hB.wf, s.body.build_fits known n false 0 b hb hw.fits, hw.ids.sublist hB.ids, hB.blocks, hB.closed⟩, h⟩

end PySOM.BC

import Verif.Lemmas.AstWhole
import Verif.Spec.Machine
/-!
# Different blocks of a program have different identities
-/
set_option autoImplicit false
namespace PySOM.BC
open PySOM

/-! ## Trees of blocks -/

section
variable {B : Type} {makes : B → List (Bool × B)} {id : B → Nat} {ids : B → List Nat} {ok : B → Prop}

/-- The identities of a list of blocks. -/
def idsIn (ids : B → List Nat) (xs : List (Bool × B)) : List Nat := xs.flatMap fun p => ids p.2

theorem idsIn_append (xs ys : List (Bool × B)) : idsIn ids (xs ++ ys) = idsIn ids xs ++ idsIn ids ys := by simp only [idsIn, List.flatMap_append]

/-- Identities are collected from the blocks that blocks create. -/
def Collects (makes : B → List (Bool × B)) (id : B → Nat) (ids : B → List Nat) (ok : B → Prop) : Prop :=
  ∀ m, ok m → ids m = id m :: idsIn ids (makes m) ∧ ∀ p ∈ makes m, ok p.2

theorem mem_idsIn {xs : List (Bool × B)} {p : Bool × B} (h : p ∈ xs) {x : Nat} (hx : x ∈ ids p.2) : x ∈ idsIn ids xs := List.mem_flatMap.mpr ⟨p, h, hx⟩

theorem comes_id (hc : Collects makes id ids ok) {xs : List (Bool × B)} (hx : ∀ p ∈ xs, ok p.2) {m : B} (h : Comes makes xs m) : ok m ∧ ∀ x ∈ ids m, x ∈ idsIn ids xs := by
  induction h with
  | here c m h => exact ⟨hx _ h, fun x hx => mem_idsIn h hx⟩
  | deeper m c m' _ h' ih =>
    obtain ⟨e, hi⟩ := hc m ih.1
    refine ⟨hi _ h', fun x hx => ih.2 x ?_⟩
    rw [e]
    exact List.mem_cons_of_mem _ (mem_idsIn h' hx)

theorem comes_cases {xs : List (Bool × B)} {m : B} (h : Comes makes xs m) : ∃ p ∈ xs, m = p.2 ∨ Comes makes (makes p.2) m := by
  induction h with
  | here c m h => exact ⟨_, h, .inl rfl⟩
  | deeper m c m' _ h' ih =>
    obtain ⟨p, hp, rfl | hm⟩ := ih
    · exact ⟨p, hp, .inr (.here c m' h')⟩
    · exact ⟨p, hp, .inr (.deeper m c m' hm h')⟩

/-- Two elements of a list whose identities are all different have no identity in common, unless they are the same. -/
theorem same_of_mem {xs : List (Bool × B)} (hn : (idsIn ids xs).Nodup) {p q : Bool × B} (hp : p ∈ xs) (hq : q ∈ xs) {x : Nat} (h1 : x ∈ ids p.2) (h2 : x ∈ ids q.2) : p = q := by
  induction xs with
  | nil => cases hp
  | cons y ys ih =>
    have e : idsIn ids (y :: ys) = ids y.2 ++ idsIn ids ys := rfl
    rw [e, List.nodup_append] at hn
    rcases List.mem_cons.mp hp with rfl | hp1 <;> rcases List.mem_cons.mp hq with rfl | hq1
    · rfl
    · exact absurd rfl (hn.2.2 x h1 x (mem_idsIn hq1 h2))
    · exact absurd rfl (hn.2.2 x h2 x (mem_idsIn hp1 h1))
    · exact ih hn.2.1 hp1 hq1

theorem comes_unique (hc : Collects makes id ids ok) : ∀ (n : Nat) (xs : List (Bool × B)), (idsIn ids xs).length ≤ n → (idsIn ids xs).Nodup → (∀ p ∈ xs, ok p.2) →
    ∀ m m', Comes makes xs m → Comes makes xs m' → id m = id m' → m = m' := by
  intro n
  induction n with
  | zero =>
    intro xs hl hn hx m m' h _ _
    obtain ⟨p, hp, _⟩ := comes_cases h
    have : id p.2 ∈ idsIn ids xs := mem_idsIn hp (by rw [(hc _ (hx p hp)).1]; exact List.mem_cons_self)
    rw [List.eq_nil_of_length_eq_zero (Nat.le_zero.mp hl)] at this
    cases this
  | succ n ih =>
    intro xs hl hn hx m m' h h' e
    have self : ∀ {m}, ok m → id m ∈ ids m := fun h => by rw [(hc _ h).1]; exact List.mem_cons_self
    have inside : ∀ {p : Bool × B} {m}, p ∈ xs → (m = p.2 ∨ Comes makes (makes p.2) m) → id m ∈ ids p.2 := by
      rintro p m hp (rfl | h)
      · exact self (hx p hp)
      · obtain ⟨e, hi⟩ := hc _ (hx p hp)
        have := comes_id hc hi h
        rw [e]
        exact List.mem_cons_of_mem _ (this.2 _ (self this.1))
    obtain ⟨p, hp, h⟩ := comes_cases h
    obtain ⟨q, hq, h'⟩ := comes_cases h'
    have hpq : p = q := same_of_mem hn hp hq (inside hp h) (by rw [e]; exact inside hq h')
    subst hpq
    obtain ⟨e1, hi⟩ := hc _ (hx p hp)
    have hsub : (ids p.2).Sublist (idsIn ids xs) := by
      obtain ⟨l, r, rfl⟩ := List.append_of_mem hp
      rw [idsIn_append, show idsIn ids (p :: r) = ids p.2 ++ idsIn ids r from rfl]
      exact (List.sublist_append_left _ _).trans (List.sublist_append_right _ _)
    have hnp := hn.sublist hsub
    rw [e1, List.nodup_cons] at hnp
    rcases h with rfl | h <;> rcases h' with rfl | h'
    · rfl
    · have := comes_id hc hi h'
      exact absurd (this.2 _ (self this.1)) (by rw [← e]; exact hnp.1)
    · have := comes_id hc hi h
      exact absurd (this.2 _ (self this.1)) (by rw [e]; exact hnp.1)
    · refine ih (makes p.2) ?_ hnp.2 hi m m' h h' e
      have := hsub.length_le
      rw [e1, List.length_cons] at this
      omega

/-- Several methods whose blocks all have different identities. -/
theorem distinct_of {ι M : Type} (hc : Collects makes id ids ok) {ms : ι → M} {first : M → List (Bool × B)} {src : ι → List Nat} (hs : ∀ i, (idsIn ids (first (ms i))).Sublist (src i))
    (hn : ∀ i, (src i).Nodup) (hd : ∀ i i' x, x ∈ src i → x ∈ src i' → i = i') (hx : ∀ i, ∀ p ∈ first (ms i), ok p.2) : Mach.Distinct makes id ms first := by
  intro i i' m m' h h' e
  have mem : ∀ {i m}, Comes makes (first (ms i)) m → id m ∈ src i := by
    intro i m h
    have := comes_id hc (hx i) h
    exact (hs i).subset (this.2 _ (by rw [(hc _ this.1).1]; exact List.mem_cons_self))
  have := hd i i' (id m) (mem h) (by rw [e]; exact mem h')
  subst this
  exact comes_unique hc _ _ (Nat.le_refl _) ((hn i).sublist (hs i)) (hx i) m m' h h' e
end

/-! ## Bytecode -/

theorem Ins.ids_blk (i : Ins Meth) : i.ids = idsIn Meth.ids i.blk?.toList := by
  cases i <;> simp [Ins.ids, Ins.blk?, idsIn]

theorem SC.ids_blks : ∀ c : SC Meth, c.ids = idsIn Meth.ids c.blks
  | .nop => rfl
  | .ins i => by rw [SC.ids, SC.blks_ins, Ins.ids_blk]
  | .seq a b => by rw [SC.ids, SC.blks_seq, idsIn_append, SC.ids_blks a, SC.ids_blks b]
  | .thenB _ b => by rw [SC.ids, SC.blks_thenB, SC.ids_blks b]
  | .ifElse _ a b => by rw [SC.ids, SC.blks_ifElse, idsIn_append, SC.ids_blks a, SC.ids_blks b]
  | .loop _ a b => by rw [SC.ids, SC.blks_loop, idsIn_append, SC.ids_blks a, SC.ids_blks b]

theorem meth_collects : Collects Meth.makes Meth.id Meth.ids (fun m => ∃ l, Sound l m) := by
  rintro m ⟨l, h⟩
  cases m with
  | triv id t => exact ⟨rfl, fun p hp => nomatch hp⟩
  | bc id lits bytes loops args locals stack code =>
    rw [Meth.makes_code h]
    refine ⟨by rw [Meth.ids, SC.ids_blks]; rfl, fun p hp => ?_⟩
    obtain ⟨c, m⟩ := p
    have hm := SC.mem_blks.mp hp
    cases h with
    | bc _ _ _ _ _ _ _ _ _ enc ty std size small ends ins ids inn closed =>
      cases c with
      | true => exact ⟨_, inn m hm⟩
      | false => exact ⟨0, closed m hm 0⟩

theorem effOnly_ids {n lvl : Nat} {e : Ex Meth} {st : Bool × List Nat} {c : SC Meth} (hw : e.wf fun _ => True) (hb : BlksOK lvl e.blks)
    (h : effOnly (inliner n) lvl e st = some c) : c.ids.Sublist (idsOf e.blks) := by
  unfold effOnly at h
  split at h
  · split at h
    · cases h
      simp only [Ex.wf, Ex.blks] at hw hb ⊢
      exact (genAsgEff_piece (genEx_piece n lvl _ st hw hb)).ids
    · cases h
  · cases h

theorem genMethod_ids (n : Nat) : ∀ (b : Body Meth) (st : Bool × List Nat), b.wf (fun _ => True) → BlksOK 0 b.blks →
    (genBody (inliner n) false 0 b st).ids.Sublist (idsOf b.blks) := by
  intro b
  induction b with
  | done => intro st _ _; simp [genBody, SC.ids, Ins.ids]
  | exitSelf => intro st _ _; simp [genBody, SC.ids, Ins.ids]
  | last e =>
    intro st hw hb
    simp only [Body.wf, Body.blks, genBody, Bool.false_eq_true, if_false] at hw hb ⊢
    cases he : effOnly (inliner n) 0 e st with
    | some c => simpa [SC.ids, Ins.ids] using effOnly_ids hw hb he
    | none => simpa [SC.ids, Ins.ids] using (genEx_piece n 0 e st hw hb).ids
  | exit e =>
    intro st hw hb
    simp only [Body.wf, Body.blks, genBody, Bool.false_eq_true, if_false] at hw hb ⊢
    have plain : (SC.seq (genEx (inliner n) 0 e st).1 (.ins .retLocal)).ids.Sublist (idsOf e.blks) := by
      simpa [SC.ids, Ins.ids] using (genEx_piece n 0 e st hw hb).ids
    unfold genReturn
    split
    · split
      · simp [SC.ids, Ins.ids]
      · exact plain
    · exact plain
  | stmt e rest ih =>
    intro st hw hb
    simp only [Body.wf, Body.blks] at hw hb ⊢
    rw [idsOf_append]
    by_cases hr : rest = .done
    · subst hr
      simp only [genBody, Bool.false_eq_true, if_false]
      simpa [SC.ids, Ins.ids, Body.blks, idsOf] using (genStmt_piece hw.1 hb.left).ids
    · have hgb : genBody (inliner n) false 0 (.stmt e rest) st =
          .seq (genStmt (inliner n) 0 e st).1 (genBody (inliner n) false 0 rest (genStmt (inliner n) 0 e st).2) := by
        cases rest with
        | done => exact absurd rfl hr
        | _ => simp only [genBody]
      rw [hgb, SC.ids]
      exact (genStmt_piece hw.1 hb.left).ids.append (ih _ hw.2 hb.right)

/-- The blocks of a compiled method are those of its source, with their identities. -/
theorem method_ids {known : Sel → Bool} {n : Nat} {s : SMethod} {g : G Meth (List Nat)} {C : Code Meth} (hw : s.Wf) (hc : s.compile known n = .ok g) (hC : assemble g = .ok C) :
    (idsIn Meth.ids C.makes).Sublist s.body.sids ∧ ∀ p ∈ C.makes, ∃ l, Sound l p.2 := by
  obtain ⟨b, hb, hs, hg⟩ := SMethod.compile_sourced hw hc
  have hB := s.body.build_ok known n 0 b hw.body hw.ids hb
  have hcode : C.makes = (genBody (inliner n) false 0 b (false, s.env)).blks := by
    obtain ⟨_, rfl⟩ := assemble_ok hC
    exact Code.makes_enc (compile_ok (inliner_ok n) hs.good (by decide) hg).1
  rw [hcode]
  refine ⟨by rw [← SC.ids_blks]; exact (genMethod_ids n b _ hs.wf hs.blksOK).trans hB.ids, fun p hp => ?_⟩
  obtain ⟨c, m⟩ := p
  have hf := (genMethod_fine n b (false, s.env) hs.wf hs.blksOK _ (SC.mem_blks.mp hp)).resolve_left (by intro h; cases h)
  cases c with
  | true => exact ⟨_, hf.inner m rfl⟩
  | false => exact ⟨0, hf.closed m rfl 0⟩

/-! ## Trees -/

mutual
/-- The identities of the blocks of a tree and of those in them. -/
def Node.ids : Node → List Nat
  | .writeArg _ _ e => e.ids
  | .writeLoc _ _ _ e => e.ids
  | .fldW _ _ e => e.ids
  | .inc e => e.ids
  | .blk _ m => m.ids
  | .send _ r as => r.ids ++ as.ids
  | .superSend _ r as => r.ids ++ as.ids
  | .inl1 _ r a => r.ids ++ a.ids
  | .inl2 _ r a b => r.ids ++ (a.ids ++ b.ids)
  | .while _ c b => c.ids ++ b.ids
  | .seq es => es.ids
  | .retNL _ e => e.ids
  | .retL e => e.ids
  | _ => []
def Nodes.ids : Nodes → List Nat
  | .nil => []
  | .cons e es => e.ids ++ es.ids
def AMeth.ids : AMeth → List Nat
  | .ast id _ _ body => id :: body.ids
  | .triv id _ => [id]
end

mutual
theorem Node.ids_blks : ∀ t : Node, t.ids = idsIn AMeth.ids t.blks
  | .lit _ => rfl
  | .globK _ => rfl
  | .globU _ _ => rfl
  | .readArg _ _ => rfl
  | .readLoc _ _ _ => rfl
  | .self _ => rfl
  | .writeArg _ _ e => e.ids_blks
  | .writeLoc _ _ _ e => e.ids_blks
  | .fld _ _ => rfl
  | .fldW _ _ e => e.ids_blks
  | .fldInc _ _ => rfl
  | .inc e => e.ids_blks
  | .blk c m => by simp [Node.ids, Node.blks, idsIn]
  | .send _ r as => by rw [Node.ids, Node.blks, idsIn_append, r.ids_blks, as.ids_blks]
  | .superSend _ r as => by rw [Node.ids, Node.blks, idsIn_append, r.ids_blks, as.ids_blks]
  | .inl1 _ r a => by rw [Node.ids, Node.blks, idsIn_append, r.ids_blks, a.ids_blks]
  | .inl2 _ r a b => by rw [Node.ids, Node.blks, idsIn_append, idsIn_append, r.ids_blks, a.ids_blks, b.ids_blks]
  | .while _ c b => by rw [Node.ids, Node.blks, idsIn_append, c.ids_blks, b.ids_blks]
  | .seq es => es.ids_blks
  | .retNL _ e => e.ids_blks
  | .retL e => e.ids_blks
theorem Nodes.ids_blks : ∀ t : Nodes, t.ids = idsIn AMeth.ids t.blks
  | .nil => rfl
  | .cons e es => by rw [Nodes.ids, Nodes.blks, idsIn_append, e.ids_blks, es.ids_blks]
end

theorem ameth_collects : Collects AMeth.makes AMeth.id AMeth.ids (fun _ => True) := by
  intro m _
  refine ⟨?_, fun _ _ => trivial⟩
  cases m with
  | ast id args ls body => rw [AMeth.ids, body.ids_blks]; rfl
  | triv id t => rfl

/-- The same identities. -/
def Keeps (xs ys : List Nat) : Prop := ys = xs

theorem Keeps.nil : Keeps [] [] := rfl

theorem Keeps.append {xs ys xs' ys' : List Nat} (h : Keeps xs ys) (h' : Keeps xs' ys') : Keeps (xs ++ xs') (ys ++ ys') := by rw [Keeps] at h h' ⊢; rw [h, h']

section
variable {new : List Nat}
mutual
theorem Node.ids_adapt : ∀ (k : Nat) (t t' : Node), t.adapt k new = .ok t' → Keeps t.ids t'.ids
  | k, .lit v, t', h => by simp only [Node.adapt] at h; cases h; exact .nil
  | k, .globK n, t', h => by simp only [Node.adapt] at h; cases h; exact .nil
  | k, .globU n l, t', h => by simp only [Node.adapt] at h; cases h; exact .nil
  | k, .readArg i l, t', h => by
    simp only [Node.adapt] at h
    split at h
    · cases h; exact .nil
    · split at h <;> cases h
      exact .nil
  | k, .readLoc i s l, t', h => by
    simp only [Node.adapt] at h
    split at h
    · cases h; exact .nil
    · split at h
      · obtain ⟨j, hj, h3⟩ := except_bind_ok h
        cases h3; exact .nil
      · cases h; exact .nil
  | k, .self l, t', h => by
    simp only [Node.adapt] at h
    obtain ⟨l', h1, h2⟩ := except_bind_ok h
    cases h2; exact .nil
  | k, .writeArg i l e, t', h => by
    simp only [Node.adapt] at h
    obtain ⟨e', h1, h2⟩ := except_bind_ok h
    have ih := Node.ids_adapt k e e' h1
    split at h2
    · cases h2; exact ih
    · split at h2 <;> cases h2
      exact ih
  | k, .writeLoc i s l e, t', h => by
    simp only [Node.adapt] at h
    obtain ⟨e', h1, h2⟩ := except_bind_ok h
    have ih := Node.ids_adapt k e e' h1
    split at h2
    · cases h2; exact ih
    · split at h2
      · obtain ⟨j, hj, h5⟩ := except_bind_ok h2
        cases h5
        exact ih
      · cases h2
        exact ih
  | k, .fld i l, t', h => by
    simp only [Node.adapt] at h
    obtain ⟨l', h1, h2⟩ := except_bind_ok h
    cases h2; exact .nil
  | k, .fldW i l e, t', h => by
    simp only [Node.adapt] at h
    obtain ⟨e', h0, h3⟩ := except_bind_ok h
    obtain ⟨l', h1, h2⟩ := except_bind_ok h3
    cases h2
    exact Node.ids_adapt k e e' h0
  | k, .fldInc i l, t', h => by
    simp only [Node.adapt] at h
    obtain ⟨l', h1, h2⟩ := except_bind_ok h
    cases h2; exact .nil
  | k, .inc e, t', h => by
    simp only [Node.adapt] at h
    obtain ⟨e', h1, h2⟩ := except_bind_ok h
    cases h2
    exact Node.ids_adapt k e e' h1
  | k, .blk true m, t', h => by
    simp only [Node.adapt] at h
    obtain ⟨m', h1, h2⟩ := except_bind_ok h
    cases h2
    exact AMeth.ids_adapt (k + 1) m m' h1
  | k, .blk false m, t', h => by simp only [Node.adapt] at h; cases h; exact (rfl : Keeps _ _)
  | k, .send sel r as, t', h => by
    simp only [Node.adapt] at h
    obtain ⟨r', h1, h2⟩ := except_bind_ok h
    obtain ⟨as', h3, h4⟩ := except_bind_ok h2
    cases h4
    exact (Node.ids_adapt k r r' h1).append (Nodes.ids_adapt k as as' h3)
  | k, .superSend sel r as, t', h => by
    simp only [Node.adapt] at h
    obtain ⟨r', h1, h2⟩ := except_bind_ok h
    obtain ⟨as', h3, h4⟩ := except_bind_ok h2
    cases h4
    exact (Node.ids_adapt k r r' h1).append (Nodes.ids_adapt k as as' h3)
  | k, .inl1 x r a, t', h => by
    simp only [Node.adapt] at h
    obtain ⟨r', h1, h2⟩ := except_bind_ok h
    obtain ⟨a', h3, h4⟩ := except_bind_ok h2
    cases h4
    exact (Node.ids_adapt k r r' h1).append (Node.ids_adapt k a a' h3)
  | k, .inl2 x r a b, t', h => by
    simp only [Node.adapt] at h
    obtain ⟨r', h1, h2⟩ := except_bind_ok h
    obtain ⟨a', h3, h4⟩ := except_bind_ok h2
    obtain ⟨b', h5, h6⟩ := except_bind_ok h4
    cases h6
    exact (Node.ids_adapt k r r' h1).append ((Node.ids_adapt k a a' h3).append (Node.ids_adapt k b b' h5))
  | k, .while x c b, t', h => by
    simp only [Node.adapt] at h
    obtain ⟨r', h1, h2⟩ := except_bind_ok h
    obtain ⟨a', h3, h4⟩ := except_bind_ok h2
    cases h4
    exact (Node.ids_adapt k c r' h1).append (Node.ids_adapt k b a' h3)
  | k, .seq es, t', h => by
    simp only [Node.adapt] at h
    obtain ⟨es', h1, h2⟩ := except_bind_ok h
    cases h2
    exact Nodes.ids_adapt k es es' h1
  | k, .retNL l e, t', h => by
    simp only [Node.adapt] at h
    obtain ⟨e', h1, h2⟩ := except_bind_ok h
    have ih := Node.ids_adapt k e e' h1
    split at h2
    · cases h2
    · split at h2 <;> cases h2 <;> exact ih
  | k, .retL e, t', h => by
    simp only [Node.adapt] at h
    obtain ⟨e', h1, h2⟩ := except_bind_ok h
    cases h2
    exact Node.ids_adapt k e e' h1
theorem Nodes.ids_adapt : ∀ (k : Nat) (es es' : Nodes), es.adapt k new = .ok es' → Keeps es.ids es'.ids
  | k, .nil, es', h => by simp only [Nodes.adapt] at h; cases h; exact .nil
  | k, .cons e es, es', h => by
    simp only [Nodes.adapt] at h
    obtain ⟨e', h1, h2⟩ := except_bind_ok h
    obtain ⟨es1, h3, h4⟩ := except_bind_ok h2
    cases h4
    exact (Node.ids_adapt k e e' h1).append (Nodes.ids_adapt k es es1 h3)
theorem AMeth.ids_adapt : ∀ (k : Nat) (m m' : AMeth), m.adapt k new = .ok m' → Keeps m.ids m'.ids
  | k, .ast id args ls body, m', h => by
    simp only [AMeth.adapt] at h
    obtain ⟨b, h1, h2⟩ := except_bind_ok h
    cases h2
    exact congrArg (id :: ·) (Node.ids_adapt k body b h1)
  | _, .triv _ _, _, h => by simp only [AMeth.adapt] at h; cases h
end

mutual
theorem Node.ids_inline : ∀ (t t' : Node) (a : Bool), t.inline new a = .ok t' → Keeps t.ids t'.ids
  | .lit v, t', a, h => by simp only [Node.inline] at h; cases h; exact .nil
  | .globK n, t', a, h => by simp only [Node.inline] at h; cases h; exact .nil
  | .globU n l, t', a, h => by simp only [Node.inline] at h; cases h; exact .nil
  | .inc e, t', a, h => by
    simp only [Node.inline] at h
    obtain ⟨e', h1, h2⟩ := except_bind_ok h
    cases h2
    exact Node.ids_inline e e' _ h1
  | .blk true m, t', a, h => by
    simp only [Node.inline] at h
    obtain ⟨m', h1, h2⟩ := except_bind_ok h
    cases h2
    exact AMeth.ids_adapt 1 m _ h1
  | .blk false m, t', a, h => by simp only [Node.inline] at h; cases h; exact (rfl : Keeps _ _)
  | .send sel r as, t', a, h => by
    simp only [Node.inline] at h
    obtain ⟨r', h1, h2⟩ := except_bind_ok h
    obtain ⟨as', h3, h4⟩ := except_bind_ok h2
    cases h4
    exact (Node.ids_inline r r' _ h1).append (Nodes.ids_inline as as' h3)
  | .superSend sel r as, t', a, h => by
    simp only [Node.inline] at h
    obtain ⟨r', h1, h2⟩ := except_bind_ok h
    obtain ⟨as', h3, h4⟩ := except_bind_ok h2
    cases h4
    exact (Node.ids_inline r r' _ h1).append (Nodes.ids_inline as as' h3)
  | .inl1 x r a, t', _, h => by
    simp only [Node.inline] at h
    obtain ⟨r', h1, h2⟩ := except_bind_ok h
    obtain ⟨a', h3, h4⟩ := except_bind_ok h2
    cases h4
    exact (Node.ids_inline r r' _ h1).append (Node.ids_inline a a' _ h3)
  | .inl2 x r a b, t', _, h => by
    simp only [Node.inline] at h
    obtain ⟨r', h1, h2⟩ := except_bind_ok h
    obtain ⟨a', h3, h4⟩ := except_bind_ok h2
    obtain ⟨b', h5, h6⟩ := except_bind_ok h4
    cases h6
    exact (Node.ids_inline r r' _ h1).append ((Node.ids_inline a a' _ h3).append (Node.ids_inline b b' _ h5))
  | .while x c b, t', _, h => by
    simp only [Node.inline] at h
    obtain ⟨r', h1, h2⟩ := except_bind_ok h
    obtain ⟨a', h3, h4⟩ := except_bind_ok h2
    cases h4
    exact (Node.ids_inline c r' _ h1).append (Node.ids_inline b a' _ h3)
  | .seq es, t', a, h => by
    simp only [Node.inline] at h
    obtain ⟨es', h1, h2⟩ := except_bind_ok h
    cases h2
    exact Nodes.ids_inline es es' h1
  | .retNL l e, t', a, h => by
    simp only [Node.inline] at h
    obtain ⟨e', h1, h2⟩ := except_bind_ok h
    have ih := Node.ids_inline e e' _ h1
    split at h2
    · cases h2
    · split at h2
      · split at h2 <;> cases h2
        exact ih
      · cases h2; exact ih
  | .retL e, t', a, h => by
    simp only [Node.inline] at h
    obtain ⟨e', h1, h2⟩ := except_bind_ok h
    cases h2
    exact Node.ids_inline e e' _ h1
  | .readArg i l, t', a, h => by
    simp only [Node.inline] at h
    split at h <;> cases h
    exact .nil
  | .readLoc i s l, t', a, h => by
    simp only [Node.inline] at h
    split at h
    · obtain ⟨j, hj, h3⟩ := except_bind_ok h
      cases h3; exact .nil
    · cases h; exact .nil
  | .self l, t', a, h => by
    simp only [Node.inline] at h
    split at h
    · split at h <;> cases h
      exact .nil
    · cases h; exact .nil
  | .writeArg i l e, t', a, h => by
    simp only [Node.inline] at h
    obtain ⟨e', h1, h2⟩ := except_bind_ok h
    have ih := Node.ids_inline e e' _ h1
    split at h2 <;> cases h2
    exact ih
  | .writeLoc i s l e, t', a, h => by
    simp only [Node.inline] at h
    obtain ⟨e', h1, h2⟩ := except_bind_ok h
    have ih := Node.ids_inline e e' _ h1
    split at h2
    · obtain ⟨j, hj, h5⟩ := except_bind_ok h2
      cases h5
      exact ih
    · cases h2
      exact ih
  | .fld i l, t', a, h => by simp only [Node.inline] at h; cases h; exact .nil
  | .fldInc i l, t', a, h => by simp only [Node.inline] at h; cases h; exact .nil
  | .fldW i l e, t', a, h => by
    simp only [Node.inline] at h
    obtain ⟨e', h1, h2⟩ := except_bind_ok h
    cases h2
    exact Node.ids_inline e e' _ h1
theorem Nodes.ids_inline : ∀ (es es' : Nodes), es.inline new = .ok es' → Keeps es.ids es'.ids
  | .nil, es', h => by simp only [Nodes.inline] at h; cases h; exact .nil
  | .cons e es, es', h => by
    simp only [Nodes.inline] at h
    obtain ⟨e', h1, h2⟩ := except_bind_ok h
    obtain ⟨es1, h3, h4⟩ := except_bind_ok h2
    cases h4
    exact (Node.ids_inline e e' _ h1).append (Nodes.ids_inline es es1 h3)
end
end

theorem leaf_ids {nd : Node} (h : nd.blks = []) : nd.ids = [] := by rw [nd.ids_blks, h]; rfl

/-- The identities in the tree that takes the place of an inlined block. -/
theorem AMeth.ids_inline {known : Sel → Bool} {lvl : Nat} {env env' : List Nat} {m : AMeth} {t : Node} (h : m.inline known lvl env = .ok (t, env')) : t.ids.Sublist m.ids := by
  cases m with
  | ast id args locals body =>
    simp only [AMeth.inline] at h
    obtain ⟨e, h1, h2⟩ := except_bind_ok h
    obtain ⟨b, h3, h4⟩ := except_bind_ok h2
    cases h4
    rw [show t.ids = body.ids from Node.ids_inline _ _ _ h3]
    exact List.sublist_cons_self _ _
  | triv id t' =>
    have : t.ids = [] := by
      cases t' <;> simp only [AMeth.inline] at h <;> cases h <;> try rfl
      exact leaf_ids (leaf_blks (globNode_leaf _ _))
    rw [this]
    exact List.nil_sublist _

theorem plainSend_ids {sel : Sel} {r : Node} {as : Nodes} {nd : Node} (h : plainSend sel r as = .ok nd) : nd.ids.Sublist (r.ids ++ as.ids) := by
  unfold plainSend at h
  split at h
  · split at h <;> cases h
    · exact List.sublist_append_left _ _
    · exact List.Sublist.refl _
  · cases h
    exact List.Sublist.refl _

theorem blk_ids {c : Bool} {m : AMeth} : (Node.blk c m).ids = m.ids := by rw [Node.ids]

theorem sendNode_ids {known : Sel → Bool} {lvl : Nat} {sel : Sel} {r : Node} {as : Nodes} {env env' : List Nat} {nd : Node} (h : sendNode known lvl sel r as env = .ok (nd, env')) :
    nd.ids.Sublist (r.ids ++ as.ids) := by
  unfold sendNode at h
  split at h
  · obtain ⟨⟨a, e⟩, h1, h2⟩ := except_bind_ok h
    cases h2
    simp only [Node.ids, Nodes.ids, List.append_nil]
    exact (List.Sublist.refl _).append (AMeth.ids_inline h1)
  · obtain ⟨⟨a, e⟩, h1, h2⟩ := except_bind_ok h
    obtain ⟨⟨b, e⟩, h3, h4⟩ := except_bind_ok h2
    cases h4
    simp only [Node.ids, Nodes.ids, List.append_nil]
    exact (List.Sublist.refl _).append ((AMeth.ids_inline h1).append (AMeth.ids_inline h3))
  · obtain ⟨⟨a, e⟩, h1, h2⟩ := except_bind_ok h
    obtain ⟨⟨b, e⟩, h3, h4⟩ := except_bind_ok h2
    cases h4
    simp only [Node.ids, Nodes.ids, List.append_nil]
    exact (AMeth.ids_inline h1).append (AMeth.ids_inline h3)
  · obtain ⟨a, h1, h2⟩ := except_bind_ok h
    cases h2
    exact plainSend_ids h1

section
variable {known : Sel → Bool} {alloc : LitTs → Val}
mutual
theorem Ex.ast_ids : ∀ (outer : List (List Nat)) (e : Ex SBlock) (env : List Nat) (nd : Node) (env2 : List Nat), e.ast known alloc outer env = .ok (nd, env2) → nd.ids.Sublist e.sids
  | outer, .lit (.val v), env, nd, env2, h => by rw [Ex.ast] at h; cases h; exact List.nil_sublist _
  | outer, .lit (.arr es), env, nd, env2, h => by rw [Ex.ast] at h; cases h; exact List.nil_sublist _
  | outer, .glob n, env, nd, env2, h => by
    rw [Ex.ast] at h
    cases h
    rw [leaf_ids (leaf_blks (globNode_leaf _ _))]
    exact List.nil_sublist _
  | outer, .var true i l, env, nd, env2, h => by
    rw [Ex.ast] at h
    cases h
    split <;> exact List.nil_sublist _
  | outer, .var false i l, env, nd, env2, h => by
    rw [Ex.ast] at h
    obtain ⟨a, h1, h2⟩ := except_bind_ok h
    cases h2
    exact List.nil_sublist _
  | outer, .fld _ i, env, nd, env2, h => by rw [Ex.ast] at h; cases h; exact List.nil_sublist _
  | outer, .blk _ s, env, nd, env2, h => by
    rw [Ex.ast] at h
    obtain ⟨a, h1, h2⟩ := except_bind_ok h
    cases h2
    rw [blk_ids, Ex.sids]
    exact SBlock.ast_ids _ s a h1
  | outer, .asg t ts e, env, nd, env2, h => by
    rw [Ex.ast] at h
    obtain ⟨⟨a, x⟩, h1, h2⟩ := except_bind_ok h
    obtain ⟨b, h3, h4⟩ := except_bind_ok h2
    cases h4
    rw [nd.ids_blks, writeNodes_blks h3, ← a.ids_blks]
    exact Ex.ast_ids outer e env a _ h1
  | outer, .inc e, env, nd, env2, h => by
    rw [Ex.ast] at h
    obtain ⟨⟨a, x⟩, h1, h2⟩ := except_bind_ok h
    cases h2
    exact Ex.ast_ids outer e env a _ h1
  | outer, .dec e, env, nd, env2, h => by
    rw [Ex.ast] at h
    obtain ⟨⟨a, x⟩, h1, h2⟩ := except_bind_ok h
    cases h2
    simp only [Node.ids, Nodes.ids, List.append_nil]
    exact Ex.ast_ids outer e env a _ h1
  | outer, .send sel r as, env, nd, env2, h => by
    rw [Ex.ast] at h
    obtain ⟨⟨a, x⟩, h1, h2⟩ := except_bind_ok h
    obtain ⟨⟨b, y⟩, h3, h4⟩ := except_bind_ok h2
    exact (sendNode_ids h4).trans ((Ex.ast_ids outer r env a _ h1).append (Exs.ast_ids outer as _ b _ h3))
  | outer, .superSend sel r as, env, nd, env2, h => by
    rw [Ex.ast] at h
    obtain ⟨⟨a, x⟩, h1, h2⟩ := except_bind_ok h
    obtain ⟨⟨b, y⟩, h3, h4⟩ := except_bind_ok h2
    cases h4
    exact (Ex.ast_ids outer r env a _ h1).append (Exs.ast_ids outer as _ b _ h3)
theorem Exs.ast_ids : ∀ (outer : List (List Nat)) (es : Exs SBlock) (env : List Nat) (nds : Nodes) (env2 : List Nat), es.ast known alloc outer env = .ok (nds, env2) → nds.ids.Sublist es.sids
  | outer, .nil, env, nds, env2, h => by rw [Exs.ast] at h; cases h; exact List.nil_sublist _
  | outer, .cons e es, env, nds, env2, h => by
    rw [Exs.ast] at h
    obtain ⟨⟨a, x⟩, h1, h2⟩ := except_bind_ok h
    obtain ⟨⟨b, y⟩, h3, h4⟩ := except_bind_ok h2
    cases h4
    exact (Ex.ast_ids outer e env a _ h1).append (Exs.ast_ids outer es _ b _ h3)
theorem Body.ast_ids : ∀ (outer : List (List Nat)) (isBlock : Bool) (b : Body SBlock) (env : List Nat) (nds : Nodes) (env2 : List Nat),
    b.ast known alloc isBlock outer env = .ok (nds, env2) → nds.ids.Sublist b.sids
  | outer, isBlock, .done, env, nds, env2, h => by rw [Body.ast] at h; cases h; split <;> exact List.nil_sublist _
  | outer, isBlock, .exitSelf, env, nds, env2, h => by
    rw [Body.ast] at h
    cases h
    cases isBlock <;> exact List.nil_sublist _
  | outer, isBlock, .last e, env, nds, env2, h => by
    rw [Body.ast] at h
    obtain ⟨⟨a, x⟩, h1, h2⟩ := except_bind_ok h
    have ih := Ex.ast_ids outer e env a _ h1
    cases h2
    cases isBlock <;> simpa [Node.ids, Nodes.ids, Body.sids] using ih
  | outer, isBlock, .exit e, env, nds, env2, h => by
    rw [Body.ast] at h
    obtain ⟨⟨a, x⟩, h1, h2⟩ := except_bind_ok h
    have ih := Ex.ast_ids outer e env a _ h1
    cases h2
    cases isBlock <;> simpa [Node.ids, Nodes.ids, Body.sids] using ih
  | outer, isBlock, .stmt e rest, env, nds, env2, h => by
    rw [Body.ast] at h
    obtain ⟨⟨a, x⟩, h1, h2⟩ := except_bind_ok h
    obtain ⟨⟨b, y⟩, h3, h4⟩ := except_bind_ok h2
    cases h4
    exact (Ex.ast_ids outer e env a _ h1).append (Body.ast_ids outer isBlock rest _ b _ h3)
theorem SBlock.ast_ids : ∀ (outer : List (List Nat)) (s : SBlock) (am : AMeth), s.ast known alloc outer = .ok am → am.ids.Sublist s.sids
  | outer, .mk id args env b, am, h => by
    rw [SBlock.ast] at h
    obtain ⟨⟨es, x⟩, h1, h2⟩ := except_bind_ok h
    have ih := Body.ast_ids outer true b env es _ h1
    dsimp only at h2
    rw [SBlock.sids]
    split at h2 <;> cases h2
    · exact (List.nil_sublist _).cons_cons _
    · simp only [AMeth.ids]
      rw [Node.ids_blks, seqNode_blks, ← Nodes.ids_blks]
      exact ih.cons_cons _
end
end

/-- The blocks of the tree of a method are those of its source, with their identities. -/
theorem tree_ids {known : Sel → Bool} {alloc : LitTs → Val} {s : SMethod} {am : AMethod} (h : s.ast known alloc = .ok am) : (idsIn AMeth.ids am.makes).Sublist s.body.sids := by
  rw [SMethod.ast] at h
  obtain ⟨⟨es, x⟩, h1, h2⟩ := except_bind_ok h
  have ih := Body.ast_ids [] false s.body s.env es _ h1
  rw [es.ids_blks, ← seqNode_blks] at ih
  dsimp only at h2
  split at h2
  · cases h2
    exact ih
  · split at h2 <;> cases h2
    · exact List.nil_sublist _
    · exact ih

end PySOM.BC

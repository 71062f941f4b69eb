import Verif.Lemmas.AstTwin
import Verif.Lemmas.AstRun
/-!
# Blocks of trees and of bytecode that come from the same block of the source
-/
set_option autoImplicit false
namespace PySOM.BC
open PySOM

section
variable (I D F C N : Prop) (known : Sel → Bool) (alloc : LitTs → Val) (n : Nat)

/-- Two blocks that come from the same block of the source and have been changed in the same way; `chain` are the variables of the contexts around. -/
inductive Twin : List (List Nat) → Meth → AMeth → Prop where
  | orig (env : List Nat) (outer : List (List Nat)) (s : SBlock) (m : Meth) (am : AMeth) (wf : s.Wf) (ids : s.sids.Nodup) (fair : s.fair I D F C N)
      (bc : s.compile known n outer.length = .ok m) (ast : s.ast known alloc (env :: outer) = .ok am) : Twin (env :: outer) m am
  | mono (ch ch' : List (List Nat)) (m : Meth) (am : AMeth) (h : Twin ch m am) (hp : Within ch ch') : Twin ch' m am
  | adapt (pre : List (List Nat)) (ls env0 new : List Nat) (rest : List (List Nat)) (j : Nat) (m m' : Meth) (am am' : AMeth) (h : Twin (pre ++ ls :: env0 :: rest) m am)
      (hp : env0 <+: new) (hn : new.Nodup) (hb : adapt j (pre.length + 1) (pre ++ [ls]) new m = .ok m') (ha : am.adapt (pre.length + 1) new = .ok am') : Twin (pre ++ new :: rest) m' am'

/-- Blocks as they are created; those without context may have been taken from elsewhere. -/
structure Twins (ch : List (List Nat)) (p : Bool × Meth) (q : Bool × AMeth) : Prop where
  ctx : p.1 = q.1
  here : p.1 = true → Twin I D F C N known alloc n ch p.2 q.2
  far : p.1 = false → ∃ ch0, Twin I D F C N known alloc n ch0 p.2 q.2
end

section
variable {I D F C N : Prop} {known : Sel → Bool} {alloc : LitTs → Val} {n : Nat}

theorem Twins.mono {ch ch' : List (List Nat)} {p : Bool × Meth} {q : Bool × AMeth} (h : Twins I D F C N known alloc n ch p q) (hp : Within ch ch') :
    Twins I D F C N known alloc n ch' p q := ⟨h.ctx, fun h1 => .mono _ _ _ _ (h.here h1) hp, h.far⟩

/-- Blocks that have been moved in the same way. -/
theorem Twins.moved {pre rest : List (List Nat)} {ls env0 new : List Nat} {p p' : Bool × Meth} {q q' : Bool × AMeth}
    (h : Twins I D F C N known alloc n (pre ++ ls :: env0 :: rest) p q) (hb : MovedB (pre.length + 1) (pre ++ [ls]) new p p') (ha : MovedA (pre.length + 1) new q q')
    (hp : env0 <+: new) (hn : new.Nodup) : Twins I D F C N known alloc n (pre ++ new :: rest) p' q' := by
  obtain ⟨c, m⟩ := p
  obtain ⟨c', m'⟩ := p'
  obtain ⟨d, am⟩ := q
  obtain ⟨d', am'⟩ := q'
  obtain ⟨rfl, hb⟩ := hb
  obtain ⟨rfl, ha⟩ := ha
  have hc := h.ctx
  simp only at hc
  subst hc
  refine ⟨rfl, fun hc => ?_, fun hc => ?_⟩
  · simp only at hc
    subst hc
    obtain ⟨j, hb⟩ := hb
    exact .adapt pre ls env0 new rest j m m' am am' (h.here rfl) hp hn hb ha
  · simp only at hc
    subst hc
    simp only [Bool.false_eq_true, if_false] at hb ha
    subst hb ha
    exact h.far rfl

theorem Twin.level {ch : List (List Nat)} {m : Meth} {am : AMeth} (h : Twin I D F C N known alloc n ch m am) : 1 ≤ ch.length := by
  induction h with
  | orig env outer => simp
  | mono ch ch' _ _ _ hp ih => have := hp.1; omega
  | adapt => simp; omega

/-- What twins have in common. -/
structure TwinOK (ch : List (List Nat)) (m : Meth) (am : AMeth) : Prop where
  id : m.id = am.id
  sound : Sound (ch.length - 1) m
  okA : am.okA ch
  loc : ∀ id args ls body, am = .ast id args ls body → m.locals = ls

theorem seqNode_blks (es : Nodes) : (seqNode es).blks = es.blks := by
  rcases es with _ | ⟨e, _ | ⟨f, fs⟩⟩
  · rfl
  · exact (List.append_nil _).symm
  · rfl

theorem triv_blks {nd : Node} {t : ATriv} (h : nd.triv = some t) : nd.blks = [] := by
  rcases triv_cases h with ⟨v, rfl, rfl⟩ | ⟨g, rfl, rfl⟩ | ⟨g, l, rfl, rfl⟩ | ⟨i, l, rfl, rfl⟩ | ⟨i, j, rfl, ⟨l, rfl⟩ | ⟨l, rfl⟩⟩ <;> rfl

theorem adapt_locals {j k : Nat} {outer : List (List Nat)} {new : List Nat} {m m' : Meth} (h : adapt j k outer new m = .ok m') : m'.locals = m.locals := by
  cases j with
  | zero => simp only [adapt] at h; cases h
  | succ j =>
    cases m with
    | triv => simp only [adapt] at h; cases h
    | bc =>
      simp only [adapt] at h
      obtain ⟨_, _, h⟩ := except_bind_ok h
      cases h
      rfl

/-- What compiling a block gives. -/
theorem SBlock.parts {outer : List (List Nat)} {env env0 args : List Nat} {id : Nat} {b : Body SBlock} {m : Meth} {am : AMeth} (hw : (SBlock.mk id args env0 b).Wf)
    (hi : (SBlock.mk id args env0 b).sids.Nodup) (hf : (SBlock.mk id args env0 b).fair I D F C N) (hm : (SBlock.mk id args env0 b).compile known n outer.length = .ok m)
    (ha : (SBlock.mk id args env0 b).ast known alloc (env :: outer) = .ok am) :
    ∃ b1 es env2, b.build known n (outer.length + 1) = .ok b1 ∧ b.ast known alloc true (env :: outer) env0 = .ok (es, env2) ∧
      BodyOK I D F C N n (env :: outer) true b b1 env0 es env2 ∧ impossible ∉ (genBody (inliner n) true (outer.length + 1) b1 (false, env0)).instrs ∧ Sound outer.length m ∧
      ((∃ t, m = .triv id t) ∧ (∃ t, am = .triv id t) ∨
       (∃ lits bytes loops stack, m = .bc id lits bytes loops args env2 stack (genBody (inliner n) true (outer.length + 1) b1 (false, env0))) ∧
        ((∃ t, am = .triv id t) ∧ es.blks = [] ∨ am = .ast id args env2 (seqNode es))) := by
  have hcomp := SBlock.compile_ok known n outer.length _ m hw hi hm
  simp only [SBlock.compile] at hm
  obtain ⟨b1, h1, h2⟩ := except_bind_ok hm
  simp only [SBlock.ast] at ha
  obtain ⟨⟨es, env2⟩, h3, h4⟩ := except_bind_ok ha
  simp only [SBlock.Wf, SBlock.sids, SBlock.fair, List.nodup_cons] at hw hi hf
  have hB := Body.build_ok known n (outer.length + 1) b b1 hw.1 hi.2 h1
  have hok : BlksOK (outer.length + 1) b1.blks := ⟨fun c m hm => (hB.blocks c m hm).good, fun m hm => (hB.closed m hm).sound _ (hB.blocks _ m hm).good.1⟩
  have hS := Body.same (I := I) (D := D) (F := F) (C := C) (N := N) (known := known) (alloc := alloc) (env :: outer) true true b b1 env0 es env2 hw.1 hw.2 hi.2 hf.1 (.inr rfl) hf.2.2 h1 h3
  obtain ⟨hpos, hcases⟩ := compileBlock_full hB.wf (Body.build_fits known n true _ _ _ h1 hw.2) hok h2
  refine ⟨b1, es, env2, h1, h3, hS, hpos, hcomp.2.1.good.1, ?_⟩
  dsimp only at h4
  rcases hcases with ⟨t, ht, rfl⟩ | ⟨_, lits, bytes, loops, stack, rfl⟩
  · left
    refine ⟨⟨t, rfl⟩, ?_⟩
    have := triv_of_leaf (body_triv h1 h3 ht)
    cases hx : (seqNode es).triv with
    | none => rw [hx] at this; cases this
    | some t => rw [hx] at h4; cases h4; exact ⟨t, rfl⟩
  · right
    refine ⟨⟨lits, bytes, loops, stack, ?_⟩, ?_⟩
    · rw [show bodyEnv (inliner n) (outer.length + 1) b1 (false, env0) = env2 from hS.genv false]
    · cases hx : (seqNode es).triv with
      | none => rw [hx] at h4; cases h4; exact .inr rfl
      | some t => rw [hx] at h4; cases h4; exact .inl ⟨⟨t, rfl⟩, by rw [← seqNode_blks]; exact triv_blks hx⟩

theorem Twin.ok {ch : List (List Nat)} {m : Meth} {am : AMeth} (h : Twin I D F C N known alloc n ch m am) : TwinOK ch m am := by
  induction h with
  | orig env outer s m am wf ids fair bc ast =>
    obtain ⟨id, args, env0, b⟩ := s
    obtain ⟨b1, es, env2, h1, h2, h3, h4, h5, h6⟩ := SBlock.parts wf ids fair bc ast
    rcases h6 with ⟨⟨t, rfl⟩, ⟨t', rfl⟩⟩ | ⟨⟨lits, bytes, loops, stack, rfl⟩, ⟨⟨t', rfl⟩, _⟩ | rfl⟩
    · exact ⟨rfl, h5, trivial, fun _ _ _ _ h => nomatch h⟩
    · exact ⟨rfl, h5, trivial, fun _ _ _ _ h => nomatch h⟩
    · refine ⟨rfl, h5, Node.ok_okA ⟨rfl, fun _ ls h => ⟨ls, h, List.prefix_refl _⟩⟩ _ (seqNode_ok h3.ok), fun _ _ _ _ h => ?_⟩
      cases h; rfl
  | mono ch ch' m am _ hp ih =>
    refine ⟨ih.id, hp.1 ▸ ih.sound, ?_, ih.loc⟩
    cases am with
    | triv => trivial
    | ast id args ls body => exact Node.okA_mono (.cons (List.prefix_refl _) hp) _ ih.okA
  | adapt pre ls env0 new rest j m m' am am' _ hp hn hb ha ih =>
    have hl : (pre ++ ls :: env0 :: rest).length - 1 = rest.length + (pre.length + 1) := by simp only [List.length_append, List.length_cons]; omega
    have hs := ih.sound
    rw [hl] at hs
    have hs' := (adapt_sound j (pre.length + 1) rest.length _ new m m' (by omega) hs hb).1
    refine ⟨?_, ?_, ?_, ?_⟩
    · rw [Meth.adapt_id hb, AMeth.adapt_id ha, ih.id]
    · rw [show (pre ++ new :: rest).length - 1 = rest.length + (pre.length + 1) - 1 by simp only [List.length_append, List.length_cons]; omega]
      exact hs'
    · cases am with
      | triv => simp only [AMeth.adapt] at ha; cases ha
      | ast id args lo body =>
        simp only [AMeth.adapt] at ha
        obtain ⟨b, h1, h2⟩ := except_bind_ok ha
        cases h2
        exact Node.okA_adapt (Shift.of (lo :: pre) ls env0 new rest hp) (by simp) (by simp) _ _ ih.okA h1
    · cases am with
      | triv => simp only [AMeth.adapt] at ha; cases ha
      | ast id args lo body =>
        simp only [AMeth.adapt] at ha
        obtain ⟨b, h1, h2⟩ := except_bind_ok ha
        cases h2
        intro _ _ _ _ h
        cases h
        rw [← ih.loc _ _ _ _ rfl]
        exact adapt_locals hb

/-! ## The blocks in the source -/

section
variable (I D F C N known alloc n)
variable (outer : List (List Nat))

/-- A block of the source, and the blocks in it. -/
structure BlkTw (env : List Nat) (m : Meth) (am : AMeth) : Prop where
  twin : Twin I D F C N known alloc n (env :: outer) m am
  inner : Match (Twins I D F C N known alloc n (m.locals :: env :: outer)) m.makes am.makes

structure ExTw (e' : Ex Meth) (env : List Nat) (nd : Node) (env2 : List Nat) : Prop where
  genv : ∀ f, (genEx (inliner n) outer.length e' (f, env)).2.2 = env2
  code : ∀ f, impossible ∉ (genEx (inliner n) outer.length e' (f, env)).1.instrs →
    Match (Twins I D F C N known alloc n (env2 :: outer)) (genEx (inliner n) outer.length e' (f, env)).1.blks nd.blks
  blk : ∀ c m c' am, e' = .blk c m → nd = .blk c' am → BlkTw I D F C N known alloc n outer env m am

inductive ExsTw : Exs Meth → List Nat → Nodes → List Nat → Prop where
  | nil (env : List Nat) : ExsTw .nil env .nil env
  | cons {e' : Ex Meth} {env env1 env2 : List Nat} {nd : Node} {es' : Exs Meth} {nds : Nodes} (h1 : ExTw I D F C N known alloc n outer e' env nd env1)
      (h2 : ExsTw es' env1 nds env2) : ExsTw (.cons e' es') env (.cons nd nds) env2
end

section
variable {outer : List (List Nat)}

theorem ExsTw.code {es : Exs SBlock} {es' : Exs Meth} {env env2 : List Nat} {nds : Nodes} (h : ExsOK I D F C N known n outer es es' env nds env2)
    (ht : ExsTw I D F C N known alloc n outer es' env nds env2) : ∀ f, impossible ∉ (genExs (inliner n) outer.length es' (f, env)).1.instrs →
    Match (Twins I D F C N known alloc n (env2 :: outer)) (genExs (inliner n) outer.length es' (f, env)).1.blks nds.blks := by
  induction h with
  | nil => exact fun _ _ => .nil
  | @cons e e' env env1 env2 nd es es' nds h1 h2 ih =>
    intro f hp
    cases ht with
    | cons t1 t2 =>
      rename_i env1'
      have he : env1' = env1 := by rw [← t1.genv f, h1.genv f]
      subst he
      simp only [genExs, SC.instrs] at hp
      simp only [genExs, SC.blks_seq, Nodes.blks]
      rw [h1.st f] at hp ⊢
      exact ((t1.code f (notMem_left hp)).mono fun _ _ h => h.mono (Within.head h2.pre)).append (ih t2 _ (notMem_right hp))

/-- The blocks of an inlined block. -/
theorem BlkTw.inline {env x x' : List Nat} {m : Meth} {am : AMeth} {t : Node} (h : BlkTw I D F C N known alloc n outer env m am) (hi : am.inline known outer.length x = .ok (t, x'))
    (hx : x' = x ++ m.locals) (hn : x'.Nodup) (hp : env <+: x) (hq : impossible ∉ (inlCode n m outer.length x).instrs) :
    Match (Twins I D F C N known alloc n (x' :: outer)) (inlCode n m outer.length x).blks t.blks := by
  refine h.inner.both (inlCode_blks h.twin.ok.sound hq) (AMeth.makes_inline hi) fun p q p' q' h1 h2 h3 => ?_
  rw [← hx] at h2
  exact h1.moved (pre := []) h2 h3 (hx ▸ hp.trans (List.prefix_append _ _)) hn

theorem fusable_blks {lvl i : Nat} {t : Tgt} {ts : List Tgt} {e' : Ex Meth} {st : Bool × List Nat} (h : fusable t ts e' = some i) : (genEx (inliner n) lvl e' st).1.blks = [] := by
  obtain ⟨_, _, _, _, rfl⟩ := fusable_some h
  rfl

theorem dupsSC_blks : ∀ k, (dupsSC k : SC Meth).blks = []
  | 0 => rfl
  | k + 1 => dupsSC_blks k

theorem popIns_blk (lvl : Nat) (t : Tgt) : (t.popIns lvl : Ins Meth).blk? = none := by cases t <;> rfl

theorem popsSC_blks (lvl : Nat) : ∀ ts, (popsSC lvl ts : SC Meth).blks = []
  | [] => rfl
  | t :: ts => by rw [popsSC, SC.blks_seq, SC.blks_ins, popIns_blk, popsSC_blks lvl ts]; rfl

theorem genAsg_blks {lvl : Nat} {t : Tgt} {ts : List Tgt} {e' : Ex Meth} {st : Bool × List Nat} :
    (genAsg lvl t ts e' (genEx (inliner n) lvl e' st)).1.blks = (genEx (inliner n) lvl e' st).1.blks := by
  unfold genAsg
  split
  · rename_i h _
    rw [fusable_blks h]; rfl
  · rw [SC.blks_seq, SC.blks_seq, dupsSC_blks, popsSC_blks, List.append_nil, List.append_nil]

theorem effOnly_blks {lvl : Nat} {e' : Ex Meth} {st : Bool × List Nat} {c : SC Meth} (h : effOnly (inliner n) lvl e' st = some c) :
    c.blks = (genEx (inliner n) lvl e' st).1.blks := by
  unfold effOnly at h
  split at h
  · rename_i t x
    split at h
    · cases h
      simp only [genEx]
      rw [genAsg_blks]
      unfold genAsgEff
      split
      · rename_i h; rw [fusable_blks h]; rfl
      · rw [SC.blks_seq, SC.blks_ins, popIns_blk]; exact List.append_nil _
    · cases h
  · cases h

theorem genStmt_blks {lvl : Nat} {e' : Ex Meth} {st : Bool × List Nat} : (genStmt (inliner n) lvl e' st).1.blks = (genEx (inliner n) lvl e' st).1.blks := by
  unfold genStmt
  cases he : effOnly (inliner n) lvl e' st with
  | none => exact (SC.blks_seq _ _).trans (List.append_nil _)
  | some c => exact effOnly_blks he

theorem genReturn_blks {lvl : Nat} {e' : Ex Meth} {st : Bool × List Nat} : (genReturn (inliner n) lvl e' st).blks = (genEx (inliner n) lvl e' st).1.blks := by
  unfold genReturn
  split
  · split
    · rfl
    · exact (SC.blks_seq _ _).trans (List.append_nil _)
  · exact (SC.blks_seq _ _).trans (List.append_nil _)

theorem writeNode_blks {chain : List (List Nat)} {lvl : Nat} {e nd : Node} {t : Tgt} (h : writeNode chain lvl e t = .ok nd) : nd.blks = e.blks := by
  unfold writeNode at h
  split at h
  · cases h; rfl
  · obtain ⟨s, hs, h⟩ := except_bind_ok h
    cases h; rfl
  · split at h
    · split at h <;> cases h <;> rfl
    · cases h; rfl

theorem writeNodes_blks {chain : List (List Nat)} {lvl : Nat} {e : Node} : ∀ {ts : List Tgt} {nd : Node}, writeNodes chain lvl e ts = .ok nd → nd.blks = e.blks
  | [], nd, h => by simp only [writeNodes] at h; cases h; rfl
  | t :: ts, nd, h => by
    rw [writeNodes] at h
    obtain ⟨u, hu, h⟩ := except_bind_ok h
    rw [writeNode_blks h, writeNodes_blks hu]

/-! ### Sends -/

variable {e : Ex SBlock} {e' : Ex Meth} {env env1 env2 : List Nat} {nd : Node}

theorem seq_one {R : Bool × Meth → Bool × AMeth → Prop} {c : SC Meth} {i : Ins Meth} {xs : List (Bool × AMeth)} (hi : i.blk? = none) (h : Match R c.blks xs) :
    Match R (SC.seq c (.ins i)).blks xs := by
  rw [SC.blks_seq, SC.blks_ins, hi]
  exact (List.append_nil c.blks).symm ▸ h

theorem ExsTw.head {es' : Exs Meth} {nds : Nodes} (h : ExsTw I D F C N known alloc n outer (.cons e' es') env (.cons nd nds) env2) :
    ExTw I D F C N known alloc n outer e' env nd (genEx (inliner n) outer.length e' (false, env)).2.2 := by
  cases h with
  | cons h1 h2 => rw [h1.genv]; exact h1

theorem ExsTw.tail {e2 : Ex Meth} {nd2 : Node} {c : Bool} {m : Meth} {es' : Exs Meth} {nds : Nodes}
    (h : ExsTw I D F C N known alloc n outer (.cons (.blk c m) (.cons e2 es')) env (.cons nd (.cons nd2 nds)) env2) :
    env = env ∧ ExTw I D F C N known alloc n outer e2 env nd2 (genEx (inliner n) outer.length e2 (false, env)).2.2 := by
  cases h with
  | cons h1 h2 =>
    have := h1.genv false
    cases this
    exact ⟨rfl, h2.head⟩

theorem inlined_none {sel : Sel} {r : Ex SBlock} {r' : Ex Meth} {as : Exs SBlock} {as' : Exs Meth} {ndr : Node} {nds : Nodes}
    (hr : ExOK I D F C N known n outer r r' env ndr env1) (has : ExsOK I D F C N known n outer as as' env1 nds env2)
    (n1 : ∀ k c m, aspecial? sel = some (.one k) → nds ≠ .cons (.blk c m) .nil)
    (n2 : ∀ k c1 m1 c2 m2, aspecial? sel = some (.two k) → nds ≠ .cons (.blk c1 m1) (.cons (.blk c2 m2) .nil))
    (n3 : ∀ w c1 m1 c2 m2, aspecial? sel = some (.while w) → ndr = .blk c1 m1 → nds ≠ .cons (.blk c2 m2) .nil) : inlined? sel r' as' = none := by
  cases hi : inlined? sel r' as' with
  | none => rfl
  | some i =>
    exfalso
    unfold inlined? at hi
    generalize hsp : special? sel = sp at hi
    split at hi
    · cases has with
      | cons h1 h2 =>
        cases h2
        obtain ⟨am, rfl⟩ := h1.ofCode rfl
        obtain ⟨k, hk⟩ := node_thenBranch ‹_›
        exact n1 k _ _ (by rw [aspecial_of hsp, hk]) rfl
    · cases has with
      | cons h1 h2 =>
        cases h2 with
        | cons h2 h3 =>
          cases h3
          obtain ⟨am, rfl⟩ := h1.ofCode rfl
          obtain ⟨am', rfl⟩ := h2.ofCode rfl
          obtain ⟨k, hk⟩ := node_thenElse ‹_›
          exact n2 k _ _ _ _ (by rw [aspecial_of hsp, hk]) rfl
    · cases has with
      | cons h1 h2 =>
        cases h2
        obtain ⟨am, rfl⟩ := h1.ofCode rfl
        obtain ⟨am', rfl⟩ := hr.ofCode rfl
        exact n3 _ _ _ _ _ (by rw [aspecial_of hsp, node_while]) rfl rfl
    · rename_i jb _ _
      cases has with
      | cons h1 h2 =>
        cases h2
        obtain ⟨am, rfl⟩ := h1.ofCode rfl
        obtain ⟨k, hk⟩ := node_andOr jb
        exact n1 k _ _ (by rw [aspecial_of hsp, hk]) rfl
    · cases hi

theorem ExTw.send {sel : Sel} {r : Ex SBlock} {r' : Ex Meth} {as : Exs SBlock} {as' : Exs Meth} {ndr : Node} {nds : Nodes} {env3 : List Nat}
    (hok : ExOK I D F C N known n outer (.send sel r as) (.send sel r' as') env nd env3)
    (hr : ExOK I D F C N known n outer r r' env ndr env1) (has : ExsOK I D F C N known n outer as as' env1 nds env2) (hs : sendNode known outer.length sel ndr nds env2 = .ok (nd, env3))
    (tr : ExTw I D F C N known alloc n outer r' env ndr env1) (tas : ExsTw I D F C N known alloc n outer as' env1 nds env2) :
    ExTw I D F C N known alloc n outer (.send sel r' as') env nd env3 := by
  refine ⟨hok.genv, fun f hp => ?_, fun _ _ _ _ h => (nomatch h)⟩
  have hst := hr.genv f
  rcases sendNode_cases hs with ⟨k, c, am, a, hsp, rfl, hin, rfl⟩ | ⟨k, c1, am1, c2, am2, a, enva, b, hsp, rfl, hin1, hin2, rfl⟩ |
    ⟨w, c1, am1, c2, am2, a, enva, b, hsp, rfl, rfl, hin1, hin2, rfl⟩ | ⟨rfl, hpl, n1, n2, n3⟩
  · -- one block
    obtain ⟨c0, s, m, rfl, rfl, rfl, hb⟩ := has.one
    obtain ⟨he, hnd, -⟩ := hb.inl _ _ _ hin (List.prefix_refl _) hr.nodup
    obtain ⟨sp, hsp, hk⟩ := aspecial_some hsp
    have tb := tas.head.blk _ _ _ _ rfl rfl
    have hrr : impossible ∉ (genEx (inliner n) outer.length r' (f, env)).1.instrs → Match (Twins I D F C N known alloc n (env3 :: outer)) (genEx (inliner n) outer.length r' (f, env)).1.blks ndr.blks :=
      fun hp => (tr.code f hp).mono fun _ _ h => h.mono (Within.head (he ▸ List.prefix_append _ _))
    cases sp with
    | thenBranch j =>
      simp only [genEx, inlined?, hsp, genSend, SC.instrs] at hp ⊢
      rw [SC.blks_seq, SC.blks_thenB]
      rw [hst] at hp ⊢
      exact (hrr (notMem_left hp)).append (tb.inline hin he hnd (List.prefix_refl _) (notMem_right hp))
    | andOr j =>
      simp only [genEx, inlined?, hsp, genSend, SC.instrs] at hp ⊢
      rw [SC.blks_seq, SC.blks_ifElse]
      rw [hst] at hp ⊢
      refine (hrr (notMem_left hp)).append ?_
      have := tb.inline hin he hnd (List.prefix_refl _) (notMem_left (notMem_right hp))
      exact (List.append_nil (inlCode n m outer.length env2).blks).symm ▸ this
    | thenElse j => cases j <;> cases hk
    | «while» j => cases hk
  · -- two blocks
    obtain ⟨c3, s1, m1, c4, s2, m2, rfl, rfl, rfl, hb1, hb2⟩ := has.two
    obtain ⟨rfl, hnd1, -⟩ := hb1.inl _ _ _ hin1 (List.prefix_refl _) hr.nodup
    obtain ⟨rfl, hnd2, -⟩ := hb2.inl _ _ _ hin2 (List.prefix_append _ _) hnd1
    obtain ⟨sp, hsp, hk⟩ := aspecial_some hsp
    have tb1 := tas.head.blk _ _ _ _ rfl rfl
    have tb2 := tas.tail.2.blk _ _ _ _ rfl rfl
    cases sp with
    | thenElse j =>
      simp only [genEx, inlined?, hsp, genSend, SC.instrs] at hp ⊢
      rw [SC.blks_seq, SC.blks_ifElse]
      rw [hst] at hp ⊢
      have hq1 := notMem_left (notMem_right hp)
      have hq2 := notMem_right (notMem_right hp)
      refine ((tr.code f (notMem_left hp)).mono fun _ _ h => h.mono (Within.head ((List.prefix_append _ _).trans (List.prefix_append _ _)))).append ?_
      exact ((tb1.inline hin1 rfl hnd1 (List.prefix_refl _) hq1).mono fun _ _ h => h.mono (Within.head (List.prefix_append _ _))).append
        (tb2.inline hin2 rfl hnd2 (tas.tail.1 ▸ List.prefix_append _ _) hq2)
    | thenBranch j => cases j <;> cases hk
    | andOr j => cases j <;> cases hk
    | «while» j => cases hk
  · -- a loop
    obtain ⟨c4, s2, m2, rfl, rfl, rfl, hb2⟩ := has.one
    obtain ⟨c3, s1, m1, rfl, rfl, rfl, hb1⟩ := hr.ofNode rfl
    obtain ⟨rfl, hnd1, -⟩ := hb1.inl _ _ _ hin1 (List.prefix_refl _) hr.nodup
    obtain ⟨rfl, hnd2, -⟩ := hb2.inl _ _ _ hin2 (List.prefix_append _ _) hnd1
    obtain ⟨sp, hsp, hk⟩ := aspecial_some hsp
    have tb1 := tr.blk _ _ _ _ rfl rfl
    have tb2 := tas.head.blk _ _ _ _ rfl rfl
    cases sp with
    | «while» j =>
      cases hk
      simp only [genEx, inlined?, hsp, genSend, SC.instrs] at hp ⊢
      have hp := notMem_left hp
      refine seq_one rfl ?_
      rw [SC.blks_loop]
      refine ((tb1.inline hin1 rfl hnd1 (List.prefix_refl _) (notMem_left hp)).mono fun _ _ h => h.mono (Within.head (List.prefix_append _ _))).append ?_
      exact seq_one rfl (tb2.inline hin2 rfl hnd2 (List.prefix_append _ _) (notMem_left (notMem_right hp)))
    | thenBranch j => cases j <;> cases hk
    | andOr j => cases j <;> cases hk
    | thenElse j => cases j <;> cases hk
  · -- a send
    have hnone : inlined? sel r' as' = none := inlined_none hr has n1 n2 n3
    simp only [genEx, hnone, genSend, SC.instrs] at hp ⊢
    rw [SC.blks_seq]
    have hp2 := notMem_left (notMem_right hp)
    rw [hr.st f] at hp2
    have h1 := (tr.code f (notMem_left hp)).mono fun _ _ h => h.mono (Within.head has.pre)
    have h2 := tas.code has _ hp2
    have h3 : Match (Twins I D F C N known alloc n (env3 :: outer)) ((genEx (inliner n) outer.length r' (f, env)).1.blks ++
        ((genExs (inliner n) outer.length as' (genEx (inliner n) outer.length r' (f, env)).2).1.seq (.ins (.send sel (Sym.numberOfSignatureArguments sel)))).blks) (ndr.blks ++ nds.blks) := by
      refine h1.append (seq_one rfl ?_)
      rw [hr.st f]
      exact h2
    rcases plainSend_cases hpl with ⟨_, hz, rfl⟩ | rfl
    · subst hz
      exact (List.append_nil ndr.blks) ▸ h3
    · exact h3

theorem ExTw.superSend {sel : Sel} {r : Ex SBlock} {r' : Ex Meth} {as : Exs SBlock} {as' : Exs Meth} {ndr : Node} {nds : Nodes}
    (hok : ExOK I D F C N known n outer (.superSend sel r as) (.superSend sel r' as') env (.superSend sel ndr nds) env2)
    (hr : ExOK I D F C N known n outer r r' env ndr env1) (has : ExsOK I D F C N known n outer as as' env1 nds env2)
    (tr : ExTw I D F C N known alloc n outer r' env ndr env1) (tas : ExsTw I D F C N known alloc n outer as' env1 nds env2) :
    ExTw I D F C N known alloc n outer (.superSend sel r' as') env (.superSend sel ndr nds) env2 := by
  refine ⟨hok.genv, fun f hp => ?_, fun _ _ _ _ h => (nomatch h)⟩
  simp only [genEx, SC.instrs] at hp
  simp only [genEx, Node.blks]
  rw [SC.blks_seq]
  have hp2 := notMem_left (notMem_right hp)
  rw [hr.st f] at hp2
  refine ((tr.code f (notMem_left hp)).mono fun _ _ h => h.mono (Within.head has.pre)).append ?_
  refine seq_one rfl ?_
  rw [hr.st f]
  exact tas.code has _ hp2

theorem ExTw.asg {t : Tgt} {ts : List Tgt} {nd2 : Node} (hok : ExOK I D F C N known n outer (.asg t ts e) (.asg t ts e') env nd2 env2)
    (h : ExTw I D F C N known alloc n outer e' env nd env2) (hw : writeNodes (env2 :: outer) outer.length nd (t :: ts) = .ok nd2) :
    ExTw I D F C N known alloc n outer (.asg t ts e') env nd2 env2 := by
  refine ⟨hok.genv, fun f hp => ?_, fun _ _ _ _ h => (nomatch h)⟩
  have hp' : impossible ∉ (genEx (inliner n) outer.length e' (f, env)).1.instrs := by
    simp only [genEx, genAsg] at hp
    split at hp
    · rename_i i _ hfu _
      obtain ⟨_, _, _, _, rfl⟩ := fusable_some hfu
      simp only [genEx, SC.instrs]
      intro hm
      simp only [List.cons_append, List.nil_append, List.mem_cons, List.not_mem_nil, or_false] at hm
      rcases hm with hm | hm <;> cases hm
    · exact notMem_left hp
  simp only [genEx]
  rw [genAsg_blks, writeNodes_blks hw]
  exact h.code f hp'

theorem ExTw.inc (hok : ExOK I D F C N known n outer (.inc e) (.inc e') env (.inc nd) env2) (h : ExTw I D F C N known alloc n outer e' env nd env2) :
    ExTw I D F C N known alloc n outer (.inc e') env (.inc nd) env2 :=
  ⟨hok.genv, fun f hp => seq_one rfl (h.code f (notMem_left hp)), fun _ _ _ _ h => (nomatch h)⟩

theorem ExTw.dec (hok : ExOK I D F C N known n outer (.dec e) (.dec e') env (.send "-".toList nd (.cons (.lit (.int 1)) .nil)) env2)
    (h : ExTw I D F C N known alloc n outer e' env nd env2) : ExTw I D F C N known alloc n outer (.dec e') env (.send "-".toList nd (.cons (.lit (.int 1)) .nil)) env2 :=
  ⟨hok.genv, fun f hp => (by
    have := seq_one (i := .dec) rfl (h.code f (notMem_left hp))
    rw [← List.append_nil nd.blks] at this
    exact this), fun _ _ _ _ h => (nomatch h)⟩

theorem ExTw.simple (hok : ExOK I D F C N known n outer e e' env nd env2) (h1 : ∀ f, (genEx (inliner n) outer.length e' (f, env)).1.blks = []) (h2 : nd.blks = [])
    (h3 : ∀ c m, e' ≠ .blk c m) : ExTw I D F C N known alloc n outer e' env nd env2 :=
  ⟨hok.genv, fun f _ => by rw [h1, h2]; exact .nil, fun c m _ _ h => absurd h (h3 c m)⟩

theorem leaf_blks {nd : Node} (h : nd.leaf = true) : nd.blks = [] := by cases nd <;> first | rfl | cases h

mutual
theorem Ex.twin : ∀ (outer : List (List Nat)) (inner : Bool) (e : Ex SBlock) (e' : Ex Meth) (env : List Nat) (nd : Node) (env2 : List Nat), e.Wf → e.sids.Nodup →
    e.fair I D F C N inner → (outer.length = 0 ∨ inner = true) → env.Nodup → e.build known n outer.length = .ok e' → e.ast known alloc outer env = .ok (nd, env2) →
    ExTw I D F C N known alloc n outer e' env nd env2
  | outer, inner, .lit (.val v), e', env, nd, env2, hw, hi, hf, ho, hn, hb, ha => by
    have hok := Ex.same outer inner _ _ env nd env2 hw hi hf ho hn hb ha
    simp only [Ex.build] at hb; cases hb
    simp only [Ex.ast] at ha; cases ha
    exact .simple hok (fun _ => rfl) rfl fun _ _ h => nomatch h
  | outer, inner, .lit (.arr es), e', env, nd, env2, hw, hi, hf, ho, hn, hb, ha => by
    simp only [Ex.fair] at hf
  | outer, inner, .glob g, e', env, nd, env2, hw, hi, hf, ho, hn, hb, ha => by
    have hok := Ex.same outer inner _ _ env nd env2 hw hi hf ho hn hb ha
    simp only [Ex.build] at hb; cases hb
    simp only [Ex.ast] at ha; cases ha
    refine .simple hok (fun _ => ?_) (leaf_blks (globNode_leaf _ _)) fun _ _ h => nomatch h
    show (SC.ins (globIns g)).blks = []
    rw [SC.blks_ins, globIns_blk]; rfl
  | outer, inner, .var a i l, e', env, nd, env2, hw, hi, hf, ho, hn, hb, ha => by
    have hok := Ex.same outer inner _ _ env nd env2 hw hi hf ho hn hb ha
    simp only [Ex.build] at hb; cases hb
    cases a with
    | true =>
      simp only [Ex.ast] at ha; cases ha
      exact .simple hok (fun _ => rfl) (by split <;> rfl) fun _ _ h => nomatch h
    | false =>
      simp only [Ex.ast] at ha
      obtain ⟨x, hx, h2⟩ := except_bind_ok ha
      cases h2
      exact .simple hok (fun _ => rfl) rfl fun _ _ h => nomatch h
  | outer, inner, .fld g i, e', env, nd, env2, hw, hi, hf, ho, hn, hb, ha => by
    have hok := Ex.same outer inner _ _ env nd env2 hw hi hf ho hn hb ha
    simp only [Ex.build] at hb; cases hb
    simp only [Ex.ast] at ha; cases ha
    exact .simple hok (fun _ => rfl) rfl fun _ _ h => nomatch h
  | outer, inner, .blk c s, e', env, nd, env2, hw, hi, hf, ho, hn, hb, ha => by
    have hok := Ex.same outer inner _ _ env nd env2 hw hi hf ho hn hb ha
    simp only [Ex.build] at hb
    obtain ⟨m, hm, h2⟩ := except_bind_ok hb
    cases h2
    simp only [Ex.ast] at ha
    obtain ⟨am, hm', h2⟩ := except_bind_ok ha
    cases h2
    simp only [Ex.Wf, Ex.sids, Ex.fair] at hw hi hf
    have tb : BlkTw I D F C N known alloc n outer env m am := ⟨.orig env outer s m am hw hi hf.1 hm hm', SBlock.twin outer s m env am hw hi hf.1 hm hm'⟩
    refine ⟨hok.genv, fun f hp => .one ⟨rfl, fun _ => tb.twin, fun _ => ⟨_, tb.twin⟩⟩, fun c1 m1 c2 am1 h1 h2 => ?_⟩
    cases h1
    cases h2
    exact tb
  | outer, inner, .asg t ts e, e', env, nd, env2, hw, hi, hf, ho, hn, hb, ha => by
    have hok := Ex.same outer inner _ _ env nd env2 hw hi hf ho hn hb ha
    simp only [Ex.build] at hb
    obtain ⟨e1, h1, h2⟩ := except_bind_ok hb
    cases h2
    simp only [Ex.ast] at ha
    obtain ⟨⟨x, y⟩, h3, h4⟩ := except_bind_ok ha
    obtain ⟨z, hz, h5⟩ := except_bind_ok h4
    cases h5
    simp only [Ex.Wf, Ex.sids, Ex.fair] at hw hi hf
    exact .asg hok (Ex.twin outer inner e e1 env x _ hw hi hf.1 ho hn h1 h3) hz
  | outer, inner, .inc e, e', env, nd, env2, hw, hi, hf, ho, hn, hb, ha => by
    have hok := Ex.same outer inner _ _ env nd env2 hw hi hf ho hn hb ha
    simp only [Ex.build] at hb
    obtain ⟨e1, h1, h2⟩ := except_bind_ok hb
    cases h2
    simp only [Ex.ast] at ha
    obtain ⟨⟨x, y⟩, h3, h4⟩ := except_bind_ok ha
    cases h4
    simp only [Ex.Wf, Ex.sids, Ex.fair] at hw hi hf
    exact .inc hok (Ex.twin outer inner e e1 env x _ hw hi hf ho hn h1 h3)
  | outer, inner, .dec e, e', env, nd, env2, hw, hi, hf, ho, hn, hb, ha => by
    have hok := Ex.same outer inner _ _ env nd env2 hw hi hf ho hn hb ha
    simp only [Ex.build] at hb
    obtain ⟨e1, h1, h2⟩ := except_bind_ok hb
    cases h2
    simp only [Ex.ast] at ha
    obtain ⟨⟨x, y⟩, h3, h4⟩ := except_bind_ok ha
    cases h4
    simp only [Ex.Wf, Ex.sids, Ex.fair] at hw hi hf
    exact .dec hok (Ex.twin outer inner e e1 env x _ hw hi hf.1 ho hn h1 h3)
  | outer, inner, .send sel r as, e', env, nd, env2, hw, hi, hf, ho, hn, hb, ha => by
    have hok := Ex.same outer inner _ _ env nd env2 hw hi hf ho hn hb ha
    simp only [Ex.build] at hb
    obtain ⟨r1, h1, h2⟩ := except_bind_ok hb
    obtain ⟨as1, h3, h4⟩ := except_bind_ok h2
    cases h4
    simp only [Ex.ast] at ha
    obtain ⟨⟨x, y⟩, h5, h6⟩ := except_bind_ok ha
    obtain ⟨⟨z, u⟩, h7, h8⟩ := except_bind_ok h6
    simp only [Ex.Wf, Ex.sids, Ex.fair, List.nodup_append] at hw hi hf
    have hr := Ex.same outer inner r r1 env x y hw.1 hi.1 hf.1 ho hn h1 h5
    have has := Exs.same outer inner as as1 y z u hw.2.1 hi.2.1 hf.2.1 ho hr.nodup h3 h7
    exact .send hok hr has h8 (Ex.twin outer inner r r1 env x y hw.1 hi.1 hf.1 ho hn h1 h5) (Exs.twin outer inner as as1 y z u hw.2.1 hi.2.1 hf.2.1 ho hr.nodup h3 h7)
  | outer, inner, .superSend sel r as, e', env, nd, env2, hw, hi, hf, ho, hn, hb, ha => by
    have hok := Ex.same outer inner _ _ env nd env2 hw hi hf ho hn hb ha
    simp only [Ex.build] at hb
    obtain ⟨r1, h1, h2⟩ := except_bind_ok hb
    obtain ⟨as1, h3, h4⟩ := except_bind_ok h2
    cases h4
    simp only [Ex.ast] at ha
    obtain ⟨⟨x, y⟩, h5, h6⟩ := except_bind_ok ha
    obtain ⟨⟨z, u⟩, h7, h8⟩ := except_bind_ok h6
    cases h8
    simp only [Ex.Wf, Ex.sids, Ex.fair, List.nodup_append] at hw hi hf
    have hr := Ex.same outer inner r r1 env x y hw.1 hi.1 hf.1 ho hn h1 h5
    have has := Exs.same outer inner as as1 y z _ hw.2.1 hi.2.1 hf.2 ho hr.nodup h3 h7
    exact .superSend hok hr has (Ex.twin outer inner r r1 env x y hw.1 hi.1 hf.1 ho hn h1 h5) (Exs.twin outer inner as as1 y z _ hw.2.1 hi.2.1 hf.2 ho hr.nodup h3 h7)
theorem Exs.twin : ∀ (outer : List (List Nat)) (inner : Bool) (es : Exs SBlock) (es' : Exs Meth) (env : List Nat) (nds : Nodes) (env2 : List Nat), es.Wf → es.sids.Nodup →
    es.fair I D F C N inner → (outer.length = 0 ∨ inner = true) → env.Nodup → es.build known n outer.length = .ok es' → es.ast known alloc outer env = .ok (nds, env2) →
    ExsTw I D F C N known alloc n outer es' env nds env2
  | outer, inner, .nil, es', env, nds, env2, hw, hi, hf, ho, hn, hb, ha => by
    simp only [Exs.build] at hb; cases hb
    simp only [Exs.ast] at ha; cases ha
    exact .nil _
  | outer, inner, .cons e es, es', env, nds, env2, hw, hi, hf, ho, hn, hb, ha => by
    simp only [Exs.build] at hb
    obtain ⟨r1, h1, h2⟩ := except_bind_ok hb
    obtain ⟨as1, h3, h4⟩ := except_bind_ok h2
    cases h4
    simp only [Exs.ast] at ha
    obtain ⟨⟨x, y⟩, h5, h6⟩ := except_bind_ok ha
    obtain ⟨⟨z, u⟩, h7, h8⟩ := except_bind_ok h6
    cases h8
    simp only [Exs.Wf, Exs.sids, Exs.fair, List.nodup_append] at hw hi hf
    have hr := Ex.same outer inner e r1 env x y hw.1 hi.1 hf.1 ho hn h1 h5
    exact .cons (Ex.twin outer inner e r1 env x y hw.1 hi.1 hf.1 ho hn h1 h5) (Exs.twin outer inner es as1 y z _ hw.2 hi.2.1 hf.2 ho hr.nodup h3 h7)
theorem Body.twin : ∀ (outer : List (List Nat)) (inner isBlock : Bool) (b : Body SBlock) (b' : Body Meth) (env : List Nat) (es : Nodes) (env2 : List Nat), b.Wf → b.fits isBlock →
    b.sids.Nodup → b.fair I D F C N inner → (outer.length = 0 ∨ inner = true) → env.Nodup → b.build known n outer.length = .ok b' →
    b.ast known alloc isBlock outer env = .ok (es, env2) → ∀ f, impossible ∉ (genBody (inliner n) isBlock outer.length b' (f, env)).instrs →
    Match (Twins I D F C N known alloc n (env2 :: outer)) (genBody (inliner n) isBlock outer.length b' (f, env)).blks es.blks
  | outer, inner, isBlock, .done, b', env, es, env2, hw, hfit, hi, hf, ho, hn, hb, ha => by
    simp only [Body.build] at hb; cases hb
    simp only [Body.ast] at ha; cases ha
    intro f _
    cases isBlock <;> exact .nil
  | outer, inner, isBlock, .exitSelf, b', env, es, env2, hw, hfit, hi, hf, ho, hn, hb, ha => by
    simp only [Body.build] at hb; cases hb
    simp only [Body.ast] at ha; cases ha
    intro f _
    cases isBlock <;> exact .nil
  | outer, inner, isBlock, .last e, b', env, es, env2, hw, hfit, hi, hf, ho, hn, hb, ha => by
    simp only [Body.build] at hb
    obtain ⟨e1, h1, h2⟩ := except_bind_ok hb
    cases h2
    simp only [Body.ast] at ha
    obtain ⟨⟨x, y⟩, h3, h4⟩ := except_bind_ok ha
    cases h4
    simp only [Body.Wf, Body.sids, Body.fair] at hw hi hf
    have ht := Ex.twin outer inner e e1 env x _ hw hi hf ho hn h1 h3
    intro f hp
    cases isBlock with
    | true =>
      refine seq_one rfl ?_
      show Match _ _ (x.blks ++ [])
      rw [List.append_nil]
      exact ht.code f (notMem_left hp)
    | false =>
      refine seq_one rfl ?_
      have hp := notMem_left hp
      show Match _ _ (x.blks ++ [])
      rw [List.append_nil]
      cases he : effOnly (inliner n) outer.length e1 (f, env) with
      | none => rw [he] at hp; exact ht.code f hp
      | some c =>
        rw [he] at hp
        simp only
        rw [effOnly_blks he]
        exact ht.code f (effOnly_possible he hp)
  | outer, inner, isBlock, .exit e, b', env, es, env2, hw, hfit, hi, hf, ho, hn, hb, ha => by
    simp only [Body.build] at hb
    obtain ⟨e1, h1, h2⟩ := except_bind_ok hb
    cases h2
    simp only [Body.ast] at ha
    obtain ⟨⟨x, y⟩, h3, h4⟩ := except_bind_ok ha
    cases h4
    simp only [Body.Wf, Body.sids, Body.fair] at hw hi hf
    have ht := Ex.twin outer inner e e1 env x _ hw hi hf ho hn h1 h3
    intro f hp
    cases isBlock with
    | true =>
      refine seq_one rfl ?_
      show Match _ _ (x.blks ++ [])
      rw [List.append_nil]
      exact ht.code f (notMem_left hp)
    | false =>
      show Match _ (genReturn (inliner n) outer.length e1 (f, env)).blks (x.blks ++ [])
      rw [List.append_nil, genReturn_blks]
      exact ht.code f (genReturn_possible hp)
  | outer, inner, isBlock, .stmt e rest, b', env, es, env2, hw, hfit, hi, hf, ho, hn, hb, ha => by
    simp only [Body.build] at hb
    obtain ⟨e1, h1, h2⟩ := except_bind_ok hb
    obtain ⟨b1, h3, h4⟩ := except_bind_ok h2
    cases h4
    simp only [Body.ast] at ha
    obtain ⟨⟨x, y⟩, h5, h6⟩ := except_bind_ok ha
    obtain ⟨⟨z, u⟩, h7, h8⟩ := except_bind_ok h6
    cases h8
    simp only [Body.Wf, Body.sids, Body.fair, List.nodup_append] at hw hi hf
    have hr := Ex.same outer inner e e1 env x y hw.1 hi.1 hf.1 ho hn h1 h5
    have ht := Ex.twin outer inner e e1 env x y hw.1 hi.1 hf.1 ho hn h1 h5
    have hB := Body.same outer inner isBlock rest b1 y z _ hw.2 hfit hi.2.1 hf.2 ho hr.nodup h3 h7
    have hrest := Body.twin outer inner isBlock rest b1 y z _ hw.2 hfit hi.2.1 hf.2 ho hr.nodup h3 h7
    intro f hp
    have hmono : ∀ {c : SC Meth}, Match (Twins I D F C N known alloc n (y :: outer)) c.blks x.blks → Match (Twins I D F C N known alloc n (u :: outer)) c.blks x.blks :=
      fun h => h.mono fun _ _ h => h.mono (Within.head hB.pre)
    by_cases hd : b1 = .done
    · subst hd
      have hz := hrest (genEx (inliner n) outer.length e1 (f, env)).2.1
      have hz' : z.blks = [] := by
        have hz := hz (by
          cases isBlock
          · intro h; cases List.mem_singleton.mp h
          · intro h
            rcases List.mem_append.mp h with h | h <;> cases List.mem_singleton.mp h)
        cases hq : z.blks with
        | nil => rfl
        | cons q qs =>
          obtain ⟨p, hp, _⟩ := hz.2 q (by rw [hq]; exact List.mem_cons_self)
          cases isBlock <;> cases hp
      simp only [Nodes.blks, hz', List.append_nil]
      cases isBlock with
      | true => exact seq_one rfl (hmono (ht.code f (notMem_left hp)))
      | false =>
        refine seq_one rfl ?_
        rw [genStmt_blks]
        exact hmono (ht.code f (genStmt_possible (notMem_left hp)))
    · rw [genBody_stmt hd] at hp ⊢
      rw [SC.blks_seq, genStmt_blks]
      have hq := notMem_right hp
      have he : (genStmt (inliner n) outer.length e1 (f, env)).2 = ((genEx (inliner n) outer.length e1 (f, env)).2.1, y) := by
        rw [← hr.genv f]; rfl
      rw [he] at hq ⊢
      exact (hmono (ht.code f (genStmt_possible (notMem_left hp)))).append (hrest _ hq)
theorem SBlock.twin : ∀ (outer : List (List Nat)) (s : SBlock) (m : Meth) (env : List Nat) (am : AMeth), s.Wf → s.sids.Nodup → s.fair I D F C N →
    s.compile known n outer.length = .ok m → s.ast known alloc (env :: outer) = .ok am → Match (Twins I D F C N known alloc n (m.locals :: env :: outer)) m.makes am.makes
  | outer, .mk id args env0 b, m, env, am, hw, hi, hf, hm, ha => by
    obtain ⟨b1, es, env2, h1, h2, h3, h4, h5, h6⟩ := SBlock.parts hw hi hf hm ha
    simp only [SBlock.Wf, SBlock.sids, SBlock.fair, List.nodup_cons] at hw hi hf
    have ht := Body.twin (env :: outer) true true b b1 env0 es env2 hw.1 hw.2 hi.2 hf.1 (.inr rfl) hf.2.2 h1 h2 false h4
    rcases h6 with ⟨⟨t, rfl⟩, ⟨t', rfl⟩⟩ | ⟨⟨lits, bytes, loops, stack, rfl⟩, hx⟩
    · exact .nil
    · rw [Meth.makes_code h5]
      rcases hx with ⟨⟨t', rfl⟩, he⟩ | rfl
      · rw [he] at ht
        exact ht
      · show Match _ _ (seqNode es).blks
        rw [seqNode_blks]
        exact ht
end

/-- The blocks that twins create are twins. -/
theorem Twin.inner {ch : List (List Nat)} {m : Meth} {am : AMeth} (h : Twin I D F C N known alloc n ch m am) :
    Match (Twins I D F C N known alloc n (m.locals :: ch)) m.makes am.makes := by
  induction h with
  | orig env outer s m am wf ids fair bc ast => exact SBlock.twin outer s m env am wf ids fair bc ast
  | mono ch ch' m am _ hp ih => exact ih.mono fun _ _ h => h.mono (.cons (List.prefix_refl _) hp)
  | adapt pre ls env0 new rest j m m' am am' ht hp hn hb ha ih =>
    have hs := ht.ok.sound
    rw [show (pre ++ ls :: env0 :: rest).length - 1 = rest.length + (pre.length + 1) by simp only [List.length_append, List.length_cons]; omega] at hs
    rw [adapt_locals hb]
    exact ih.both (Meth.makes_adapt (by omega) hs hb) (AMeth.makes_adapt ha) fun p q p' q' h1 h2 h3 => h1.moved (pre := m.locals :: pre) h2 h3 hp hn
end

end
end PySOM.BC

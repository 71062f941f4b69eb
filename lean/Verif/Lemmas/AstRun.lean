import Verif.Lemmas.AstMain
import Verif.Props.Source
import Verif.Props.Inline
/-!
# Running methods and blocks
-/
set_option autoImplicit false
namespace PySOM.BC
open PySOM

section
variable {W E : Type}

/-- The surrounding method does not answer. -/
def NoRet (R : Src.Rel W E) : Prop := ∀ w v w', ¬ R w (.ret v) w'

theorem NoRet.pure (v : Val) : NoRet (Src.pure v : Src.Rel W E) := fun _ _ _ h => nomatch h.1

theorem NoRet.act {M : Type} (A : World M W E) (a : Act M) : NoRet (Src.act A a) := by
  rintro w v w' (⟨u, h, _⟩ | ⟨e, h, _⟩) <;> cases h

theorem NoRet.raises (err : Err → E) (e : Err) : NoRet (Cond.raises err e : Src.Rel W E) := fun _ _ _ h => nomatch h.1

theorem NoRet.bind {p : Src.Rel W E} {k : Val → Src.Rel W E} (hp : NoRet p) (hk : ∀ v, NoRet (k v)) : NoRet (Src.bind p k) := by
  rintro w v w' (⟨u, w1, _, h⟩ | ⟨h, _⟩)
  · exact hk u _ _ _ h
  · exact hp _ _ _ h

theorem NoRet.ite {c : Prop} [Decidable c] {p q : Src.Rel W E} (hp : NoRet p) (hq : NoRet q) : NoRet (if c then p else q) := by split <;> assumption

theorem NoRet.while {stop : Val → Bool} {c b : Src.Rel W E} (hc : NoRet c) (hb : NoRet b) : NoRet (Src.While stop c b) := by
  intro w v w' h
  generalize hr : (Src.Res.ret v : Src.Res E) = r at h
  induction h with
  | exit => cases hr
  | condStop w w1 r h _ => subst hr; exact hc _ _ _ h
  | bodyStop w w1 w2 u r _ _ h _ => subst hr; exact hb _ _ _ h
  | next w w1 w2 w3 u x r _ _ _ _ ih => exact ih hr

theorem NoRet.inl1 {err : Err → E} {r a : Src.Rel W E} (k : Inl1) (hr : NoRet r) (ha : NoRet a) : NoRet (k.exec err r a) := by
  cases k <;> refine hr.bind fun v => ?_
  · exact .ite ha (.ite (.pure _) (.raises _ _))
  · exact .ite ha (.pure _)
  · exact .ite (.pure _) ha
  · exact .ite ha (.ite (.pure _) (.raises _ _))
  · exact .ite (.pure _) (.ite ha (.raises _ _))

theorem NoRet.inl2 {err : Err → E} {r a b : Src.Rel W E} (k : Inl2) (hr : NoRet r) (ha : NoRet a) (hb : NoRet b) : NoRet (k.exec err r a b) := by
  rcases k with _ | _ | _
  · exact hr.bind fun v => .ite ha (.ite hb (.raises _ _))
  · exact hr.bind fun v => .ite hb ha
  · exact hr.bind fun v => .ite ha hb

theorem NoRet.whileNode {err : Err → E} {b : Bool} {c a : Src.Rel W E} (hc : NoRet c) (ha : NoRet a) : NoRet (whileNode err b c a) :=
  .while (hc.bind fun v => .ite (.pure _) (.raises _ _)) ha

variable {I D F C N : Prop} {A : World Nat W E} {U : Sel → Nat → Src.Rel W E} {lvl : Nat} {chain : List (List Nat)}

mutual
/-- Only trees with returns, in methods, return. -/
theorem Node.noRet (hS : Std I D F C N A U lvl) (hc : chain.length = lvl + 1) (err : Err → E) : ∀ (nd : Node), nd.ok chain → (lvl = 0 → nd.throws = false) → NoRet (nd.exec A U err)
  | .lit v, _, _ => .pure v
  | .globK g, _, _ => .act _ _
  | .globU g l, hk, _ => by
    simp only [Node.ok] at hk
    have : l = lvl := by omega
    subst this
    simp only [Node.exec]
    rw [hS.glob g hk.2]
    exact .act _ _
  | .readArg _ _, _, _ => .act _ _
  | .readLoc _ _ _, _, _ => .act _ _
  | .self _, _, _ => .act _ _
  | .writeArg _ _ e, hk, ht => (Node.noRet hS hc err e hk ht).bind fun _ => (NoRet.act _ _).bind fun _ => .pure _
  | .writeLoc _ _ _ e, hk, ht => (Node.noRet hS hc err e hk.1 ht).bind fun _ => (NoRet.act _ _).bind fun _ => .pure _
  | .fld _ _, _, _ => .act _ _
  | .fldW _ _ e, hk, ht => (Node.noRet hS hc err e hk ht).bind fun _ => (NoRet.act _ _).bind fun _ => .pure _
  | .fldInc _ _, _, _ => .act _ _
  | .inc e, hk, ht => (Node.noRet hS hc err e hk ht).bind fun _ => .act _ _
  | .blk _ _, _, _ => .act _ _
  | .send sel r as, hk, ht => by
    simp only [Node.throws, Bool.or_eq_false_iff] at ht
    exact (Node.noRet hS hc err r hk.1 fun h => (ht h).1).bind fun v => Nodes.noRet hS hc err as hk.2 (fun h => (ht h).2) _ fun _ => .act _ _
  | .superSend sel r as, hk, ht => by
    simp only [Node.throws, Bool.or_eq_false_iff] at ht
    exact (Node.noRet hS hc err r hk.1 fun h => (ht h).1).bind fun v => Nodes.noRet hS hc err as hk.2 (fun h => (ht h).2) _ fun _ => .act _ _
  | .inl1 k r a, hk, ht => by
    simp only [Node.throws, Bool.or_eq_false_iff] at ht
    exact .inl1 k (Node.noRet hS hc err r hk.1 fun h => (ht h).1) (Node.noRet hS hc err a hk.2 fun h => (ht h).2)
  | .inl2 k r a b, hk, ht => by
    simp only [Node.throws, Bool.or_eq_false_iff] at ht
    exact .inl2 k (Node.noRet hS hc err r hk.1 fun h => (ht h).1) (Node.noRet hS hc err a hk.2.1 fun h => (ht h).2.1) (Node.noRet hS hc err b hk.2.2 fun h => (ht h).2.2)
  | .while w c b, hk, ht => by
    simp only [Node.throws, Bool.or_eq_false_iff] at ht
    exact .whileNode (Node.noRet hS hc err c hk.1 fun h => (ht h).1) (Node.noRet hS hc err b hk.2 fun h => (ht h).2)
  | .seq es, hk, ht => Nodes.noRetSeq hS hc err es hk ht
  | .retNL l e, hk, ht => by
    by_cases h0 : lvl = 0
    · exact nomatch ht h0
    · exact (Node.noRet hS hc err e hk.2 fun h => absurd h h0).bind fun _ => .act _ _
  | .retL e, hk, ht => by
    have h0 : lvl = 0 := by have := hk.1; omega
    exact nomatch ht h0
theorem Nodes.noRet (hS : Std I D F C N A U lvl) (hc : chain.length = lvl + 1) (err : Err → E) : ∀ (es : Nodes), es.ok chain → (lvl = 0 → es.throws = false) →
    ∀ (k : List Val → Src.Rel W E), (∀ vs, NoRet (k vs)) → NoRet (es.exec A U err k)
  | .nil, _, _, k, hk => hk []
  | .cons e es, ho, ht, k, hk => by
    simp only [Nodes.throws, Bool.or_eq_false_iff] at ht
    exact (Node.noRet hS hc err e ho.1 fun h => (ht h).1).bind fun v => Nodes.noRet hS hc err es ho.2 (fun h => (ht h).2) _ fun vs => hk (v :: vs)
theorem Nodes.noRetSeq (hS : Std I D F C N A U lvl) (hc : chain.length = lvl + 1) (err : Err → E) : ∀ (es : Nodes), es.ok chain → (lvl = 0 → es.throws = false) → NoRet (es.execSeq A U err)
  | .nil, _, _ => .pure _
  | .cons e .nil, ho, ht => by
    simp only [Nodes.throws, Bool.or_false] at ht
    exact Node.noRet hS hc err e ho.1 ht
  | .cons e (.cons f es), ho, ht => by
    rw [Nodes.throws] at ht
    simp only [Bool.or_eq_false_iff] at ht
    exact (Node.noRet hS hc err e ho.1 fun h => (ht h).1).bind fun v => Nodes.noRetSeq hS hc err (.cons f es) ho.2 fun h => (ht h).2
end

theorem answers_true (err : Err → E) (R : Src.Rel W E) : answers true err R = ends R := by
  refine Src.rel_ext fun w r w' => ?_
  cases r with
  | val v => exact Iff.rfl
  | ret v => simp only [answers, ends, true_and]
  | exc e => simp only [answers, ends, Bool.true_eq_false, false_and, or_false]

theorem answers_false {err : Err → E} {R : Src.Rel W E} (h : NoRet R) : answers false err R = ends R := by
  refine Src.rel_ext fun w r w' => ?_
  cases r with
  | val v => exact Iff.rfl
  | ret v =>
    simp only [answers, ends, Bool.false_eq_true, false_and, or_false]
    exact ⟨.inl, fun h1 => h1.elim id fun h1 => absurd h1 (h w v w')⟩
  | exc e =>
    simp only [answers, ends, true_and]
    exact ⟨fun h1 => h1.elim id fun ⟨_, v, h1⟩ => absurd h1 (h w v w'), .inl⟩

/-- A trivial method does what its tree does. -/
theorem triv_run {nd : Node} {t : ATriv} (h : nd.triv = some t) (hl : nd.leaf = true) (err : Err → E) : t.run A U = ends (nd.exec A U err) := by
  rw [ends_eq]
  rcases triv_cases h with ⟨v, rfl, rfl⟩ | ⟨g, rfl, rfl⟩ | ⟨g, l, rfl, rfl⟩ | ⟨i, l, rfl, rfl⟩ | ⟨i, j, rfl, ⟨l, rfl⟩ | ⟨l, rfl⟩⟩
  · simp only [ATriv.run, Node.exec, Src.pure_bind]
  · rfl
  · rfl
  · rfl
  · cases hl
  · cases hl

/-- A setter does what its tree does. -/
theorem setter_run (hself : Src.act A .self = Src.act A (.rdVar true 0 0)) (i j : Nat) (err : Err → E) :
    (ATriv.fldWrite i j).run A U = ends ((Node.seq (.cons (.fldW i 0 (.readArg j 0)) (.cons (.self 0) .nil))).exec A U err) := by
  rw [ends_eq]
  simp only [ATriv.run, Node.exec, Nodes.execSeq, Src.bind_assoc, Src.pure_bind, hself]

end

/-- Where a tree writes an argument to a field. -/
theorem ast_fldW {known : Sel → Bool} {alloc : LitTs → Val} {outer : List (List Nat)} {e : Ex SBlock} {env env2 : List Nat} {i k j l : Nat}
    (h : e.ast known alloc outer env = .ok (.fldW i k (.readArg j l), env2)) : ∃ nm, e = .asg (.fld nm i) [] (.var true j l) ∧ j ≠ 0 ∧ k = outer.length := by
  cases e with
  | lit l => cases l <;> (simp only [Ex.ast] at h; cases h)
  | glob n => have := (ast_leaf h).1; cases this
  | var a i l =>
    cases a with
    | true => simp only [Ex.ast] at h; split at h <;> cases h
    | false =>
      simp only [Ex.ast] at h
      obtain ⟨x, _, h2⟩ := except_bind_ok h
      cases h2
  | fld n j => simp only [Ex.ast] at h; cases h
  | blk c s =>
    simp only [Ex.ast] at h
    obtain ⟨x, _, h2⟩ := except_bind_ok h
    cases h2
  | inc e =>
    simp only [Ex.ast] at h
    obtain ⟨⟨x, y⟩, h1, h2⟩ := except_bind_ok h
    cases h2
  | dec e =>
    simp only [Ex.ast] at h
    obtain ⟨⟨x, y⟩, _, h2⟩ := except_bind_ok h
    cases h2
  | superSend sel r as =>
    simp only [Ex.ast] at h
    obtain ⟨⟨x, y⟩, _, h2⟩ := except_bind_ok h
    obtain ⟨⟨z, u⟩, _, h3⟩ := except_bind_ok h2
    cases h3
  | send sel r as =>
    simp only [Ex.ast] at h
    obtain ⟨⟨x, y⟩, h1, h2⟩ := except_bind_ok h
    obtain ⟨⟨z, u⟩, h3, h4⟩ := except_bind_ok h2
    rcases sendNode_cases h4 with ⟨_, _, _, _, _, _, _, e⟩ | ⟨_, _, _, _, _, _, _, _, _, _, _, _, e⟩ | ⟨_, _, _, _, _, _, _, _, _, _, _, _, _, e⟩ | ⟨_, hp, _⟩
    · cases e
    · cases e
    · cases e
    · rcases plainSend_cases hp with ⟨_, _, e⟩ | e <;> cases e
  | asg t ts e =>
    simp only [Ex.ast] at h
    obtain ⟨⟨x, y⟩, h1, h2⟩ := except_bind_ok h
    obtain ⟨z, hz, h3⟩ := except_bind_ok h2
    cases h3
    rw [writeNodes] at hz
    obtain ⟨u, hu, hz⟩ := except_bind_ok hz
    have hx : (∃ nm, t = .fld nm i) ∧ u = .readArg j l ∧ k = outer.length := by
      rcases t with ⟨nm, _ | _, a, b⟩ | ⟨nm, a⟩
      · simp only [writeNode] at hz
        obtain ⟨s, hs, hz⟩ := except_bind_ok hz
        cases hz
      · cases hz
      · unfold writeNode at hz
        dsimp only at hz
        split at hz
        · split at hz <;> cases hz
        · cases hz; exact ⟨⟨nm, rfl⟩, rfl, rfl⟩
    obtain ⟨⟨nm, rfl⟩, rfl, hk⟩ := hx
    cases ts with
    | cons t ts =>
      rw [writeNodes] at hu
      obtain ⟨u, _, hu⟩ := except_bind_ok hu
      rcases t with ⟨nm, _ | _, a, b⟩ | ⟨nm, a⟩
      · simp only [writeNode] at hu
        obtain ⟨s, hs, hu⟩ := except_bind_ok hu
        cases hu
      · cases hu
      · unfold writeNode at hu
        dsimp only at hu
        split at hu
        · split at hu <;> cases hu
        · cases hu
    | nil =>
      simp only [writeNodes] at hu
      cases hu
      -- the value
      cases e with
      | var a i l =>
        cases a with
        | true =>
          simp only [Ex.ast] at h1
          split at h1
          · cases h1
          · rename_i h0; cases h1; exact ⟨nm, rfl, h0, hk⟩
        | false =>
          simp only [Ex.ast] at h1
          obtain ⟨x, _, h2⟩ := except_bind_ok h1
          cases h2
      | lit l => cases l <;> (simp only [Ex.ast] at h1; cases h1)
      | glob n => have := (ast_leaf h1).1; cases this
      | fld n j => simp only [Ex.ast] at h1; cases h1
      | blk c s =>
        simp only [Ex.ast] at h1
        obtain ⟨x, _, h2⟩ := except_bind_ok h1
        cases h2
      | inc e =>
        simp only [Ex.ast] at h1
        obtain ⟨⟨x, y⟩, _, h2⟩ := except_bind_ok h1
        cases h2
      | dec e =>
        simp only [Ex.ast] at h1
        obtain ⟨⟨x, y⟩, _, h2⟩ := except_bind_ok h1
        cases h2
      | superSend sel r as =>
        simp only [Ex.ast] at h1
        obtain ⟨⟨x, y⟩, _, h2⟩ := except_bind_ok h1
        obtain ⟨⟨z, u⟩, _, h3⟩ := except_bind_ok h2
        cases h3
      | send sel r as =>
        simp only [Ex.ast] at h1
        obtain ⟨⟨x, y⟩, _, h2⟩ := except_bind_ok h1
        obtain ⟨⟨z, u⟩, h3, h4⟩ := except_bind_ok h2
        rcases sendNode_cases h4 with ⟨_, _, _, _, _, _, _, e⟩ | ⟨_, _, _, _, _, _, _, _, _, _, _, _, e⟩ | ⟨_, _, _, _, _, _, _, _, _, _, _, _, _, e⟩ | ⟨_, hp, _⟩
        · cases e
        · cases e
        · cases e
        · rcases plainSend_cases hp with ⟨_, _, e⟩ | e <;> cases e
      | asg t ts e =>
        simp only [Ex.ast] at h1
        obtain ⟨⟨x, y⟩, _, h2⟩ := except_bind_ok h1
        obtain ⟨z, hq, h3⟩ := except_bind_ok h2
        cases h3
        rw [writeNodes] at hq
        obtain ⟨u, _, hz2⟩ := except_bind_ok hq
        rcases t with ⟨nm, _ | _, a, b⟩ | ⟨nm, a⟩
        · simp only [writeNode] at hz2
          obtain ⟨s, hs, hz3⟩ := except_bind_ok hz2
          cases hz3
        · cases hz2
        · unfold writeNode at hz2
          dsimp only at hz2
          split at hz2
          · split at hz2 <;> cases hz2
          · cases hz2

/-- Expressions do not become sequences. -/
theorem ast_notSeq {known : Sel → Bool} {alloc : LitTs → Val} {outer : List (List Nat)} {e : Ex SBlock} {env env2 : List Nat} {es : Nodes}
    (h : e.ast known alloc outer env = .ok (.seq es, env2)) : False := by
  cases e with
  | lit l => cases l <;> (simp only [Ex.ast] at h; cases h)
  | glob n => have := (ast_leaf h).1; cases this
  | var a i l =>
    cases a with
    | true => simp only [Ex.ast] at h; split at h <;> cases h
    | false =>
      simp only [Ex.ast] at h
      obtain ⟨x, _, h2⟩ := except_bind_ok h
      cases h2
  | fld n j => simp only [Ex.ast] at h; cases h
  | blk c s =>
    simp only [Ex.ast] at h
    obtain ⟨x, _, h2⟩ := except_bind_ok h
    cases h2
  | inc e =>
    simp only [Ex.ast] at h
    obtain ⟨⟨x, y⟩, h1, h2⟩ := except_bind_ok h
    cases h2
  | dec e =>
    simp only [Ex.ast] at h
    obtain ⟨⟨x, y⟩, _, h2⟩ := except_bind_ok h
    cases h2
  | superSend sel r as =>
    simp only [Ex.ast] at h
    obtain ⟨⟨x, y⟩, _, h2⟩ := except_bind_ok h
    obtain ⟨⟨z, u⟩, _, h3⟩ := except_bind_ok h2
    cases h3
  | send sel r as =>
    simp only [Ex.ast] at h
    obtain ⟨⟨x, y⟩, h1, h2⟩ := except_bind_ok h
    obtain ⟨⟨z, u⟩, h3, h4⟩ := except_bind_ok h2
    rcases sendNode_cases h4 with ⟨_, _, _, _, _, _, _, e⟩ | ⟨_, _, _, _, _, _, _, _, _, _, _, _, e⟩ | ⟨_, _, _, _, _, _, _, _, _, _, _, _, _, e⟩ | ⟨_, hp, _⟩
    · cases e
    · cases e
    · cases e
    · rcases plainSend_cases hp with ⟨_, _, e⟩ | e <;> cases e
  | asg t ts e =>
    simp only [Ex.ast] at h
    obtain ⟨⟨x, y⟩, h1, h2⟩ := except_bind_ok h
    obtain ⟨z, hz, h3⟩ := except_bind_ok h2
    cases h3
    rw [writeNodes] at hz
    obtain ⟨u, hu, hz⟩ := except_bind_ok hz
    rcases t with ⟨nm, _ | _, a, b⟩ | ⟨nm, a⟩
    · simp only [writeNode] at hz
      obtain ⟨s, hs, hz⟩ := except_bind_ok hz
      cases hz
    · cases hz
    · unfold writeNode at hz
      dsimp only at hz
      split at hz
      · split at hz <;> cases hz
      · cases hz

section
variable {W E : Type}

theorem bcRun_eq {n lvl : Nat} {isBlock : Bool} {b : Body Meth} {env : List Nat} {g : G Meth (List Nat)} {Cd : Code Meth} (hw : b.wf ((inliner n).good lvl)) (hlv : isBlock = true ↔ 1 ≤ lvl)
    (hc : compile (inlineMeth n) isBlock lvl env b = .ok g) (ha : assemble g = .ok Cd) (A : World Meth W E) (hN : Src.needsBody True (Src.IncFieldIsPlus A (Src.machine A)) b) :
    bcRun A Cd = Src.body A (Src.machine A) (blocksOf A (inliner n) lvl) isBlock lvl b env := by
  obtain ⟨he, d, ht, hm⟩ := compile_ok (inliner_ok n) hw hlv hc
  obtain ⟨_, rfl⟩ := assemble_ok ha
  have hN' : Src.needsBody (Src.IncIsPlus A (Src.machine A)) (Src.IncFieldIsPlus A (Src.machine A)) b := by
    have : Src.IncIsPlus A (Src.machine A) = True := eq_true ⟨fun _ _ _ _ => Iff.rfl, fun _ _ _ _ => Iff.rfl⟩
    rw [this]; exact hN
  refine Src.rel_ext fun w r w' => ?_
  have h1 := run_of_sem (sem_body isBlock lvl (blocksOf_means (A := A) (inliner_ok n) lvl) b (false, env) hw hN') (C := ⟨g.lits, g.bytes, (g.maxDepth + 2 + 2).toNat⟩) he ht
    (by show _ ≤ (g.maxDepth + 2 + 2).toNat; omega) (genBody_returns (inliner n) isBlock lvl b (false, env)) w
  cases r with
  | val v => exact ⟨fun h => h.elim, fun h => body_noval _ _ _ _ _ _ _ _ _ _ h⟩
  | ret v => exact h1.1 v w'
  | exc e => exact h1.2 e w'

theorem fuse_onMeth {A : World Nat W E} (h : Src.IncFieldIsPlus A (Src.machine A)) : Src.IncFieldIsPlus (onMeth A) (Src.machine (onMeth A)) := h

variable {I D F C N : Prop} {A : World Nat W E} {U : Sel → Nat → Src.Rel W E} {known : Sel → Bool} {alloc : LitTs → Val}

/-- How methods run, if their trees do not return where there is no `^` in a block. -/
theorem method_run_of {s : SMethod} {es : Nodes} {env2 : List Nat} {am : AMethod} (hself : Src.act A .self = Src.act A (.rdVar true 0 0)) (err : Err → E)
    (hset : s.body.setter) (ha : s.body.ast known alloc false [] s.env = .ok (es, env2)) (hno : s.body.throws false = false → NoRet ((seqNode es).exec A U err))
    (hm : s.ast known alloc = .ok am) : am.run A U err = ends (es.execSeq A U err) := by
  unfold SMethod.ast at hm
  rw [ha] at hm
  replace hm : (if s.body.throws false then Except.ok (AMethod.ast env2 true (seqNode es)) else match (seqNode es).triv with | some t => .ok (.triv t) | none => .ok (.ast env2 false (seqNode es))) = .ok am := hm
  rw [← seqNode_exec]
  split at hm
  · cases hm; exact answers_true _ _
  · rename_i ht
    have hno := hno (Bool.not_eq_true _ ▸ ht)
    split at hm
    · rename_i t heq
      cases hm
      show t.run A U = _
      by_cases hl : (seqNode es).leaf = true
      · exact triv_run heq hl err
      · rcases triv_cases heq with ⟨v, h1, rfl⟩ | ⟨g, h1, rfl⟩ | ⟨g, l, h1, rfl⟩ | ⟨i, l, h1, rfl⟩ | ⟨i, j, rfl, ⟨l, h1⟩ | ⟨l, h1⟩⟩
        · rw [h1] at hl; exact absurd rfl hl
        · rw [h1] at hl; exact absurd rfl hl
        · rw [h1] at hl; exact absurd rfl hl
        · rw [h1] at hl; exact absurd rfl hl
        · exfalso
          rcases es with _ | ⟨e1, _ | ⟨e2, es⟩⟩
          · cases h1
          · have h1 : e1 = _ := h1
            subst h1
            rcases hb : s.body with _ | e | ⟨e, rest⟩ | e | _ <;> rw [hb] at ha hset <;> simp only [Body.ast] at ha
            · cases ha
            · obtain ⟨⟨x, y⟩, h1, h2⟩ := except_bind_ok ha
              cases h2
            · obtain ⟨⟨x, y⟩, h1, h2⟩ := except_bind_ok ha
              obtain ⟨⟨z, u⟩, h3, h4⟩ := except_bind_ok h2
              cases h4
              cases rest with
              | done => simp only [Body.ast] at h3; cases h3
              | _ => exact ast_notNil h3 (fun h => nomatch h) rfl
            · obtain ⟨⟨x, y⟩, h1, h2⟩ := except_bind_ok ha
              cases h2
              obtain ⟨nm, rfl, h0, _⟩ := ast_fldW h1
              exact h0 hset
            · cases ha
          · cases h1
        · have hes : es = .cons (.fldW i 0 (.readArg j l)) (.cons (.self 0) .nil) := by
            rcases es with _ | ⟨e1, _ | ⟨e2, es⟩⟩
            · cases h1
            · have h1 : e1 = _ := h1
              subst h1
              exfalso
              rcases hb : s.body with _ | e | ⟨e, rest⟩ | e | _ <;> rw [hb] at ha <;> simp only [Body.ast] at ha
              · cases ha
              · obtain ⟨⟨x, y⟩, h1, h2⟩ := except_bind_ok ha
                cases h2
              · obtain ⟨⟨x, y⟩, h1, h2⟩ := except_bind_ok ha
                obtain ⟨⟨z, u⟩, h3, h4⟩ := except_bind_ok h2
                cases h4
                cases rest with
                | done => simp only [Body.ast] at h3; cases h3
                | _ => exact ast_notNil h3 (fun h => nomatch h) rfl
              · obtain ⟨⟨x, y⟩, h1, h2⟩ := except_bind_ok ha
                cases h2
                exact ast_notSeq h1
              · cases ha
            · injection h1
          subst hes
          have hl0 : l = 0 := by
            rcases hb : s.body with _ | e | ⟨e, rest⟩ | e | _ <;> rw [hb] at ha hset <;> simp only [Body.ast] at ha
            · cases ha
            · obtain ⟨⟨x, y⟩, h1, h2⟩ := except_bind_ok ha
              cases h2
              obtain ⟨nm, rfl, h0, _⟩ := ast_fldW h1
              exact hset
            · obtain ⟨⟨x, y⟩, h1, h2⟩ := except_bind_ok ha
              obtain ⟨⟨z, u⟩, h3, h4⟩ := except_bind_ok h2
              cases h4
              obtain ⟨nm, rfl, h0, _⟩ := ast_fldW h1
              exact hset
            · obtain ⟨⟨x, y⟩, h1, h2⟩ := except_bind_ok ha
              cases h2
            · cases ha
          subst hl0
          exact setter_run hself i j err
    · cases hm
      exact answers_false hno

/-- How methods run. -/
theorem method_run_eq {s : SMethod} {es : Nodes} {env2 : List Nat} {am : AMethod} (hS : Std I D F C N A U 0) (hself : Src.act A .self = Src.act A (.rdVar true 0 0)) (err : Err → E)
    (hset : s.body.setter) (ha : s.body.ast known alloc false [] s.env = .ok (es, env2)) (hok : es.ok [env2]) (hth : es.throws = true → s.body.throws false = true)
    (hm : s.ast known alloc = .ok am) : am.run A U err = ends (es.execSeq A U err) :=
  method_run_of hself err hset ha (fun ht => Node.noRet hS rfl err _ (seqNode_ok hok) fun _ => by
    cases h : (seqNode es).throws
    · rfl
    · exact absurd (hth (seqNode_throws h)) (by simp [ht])) hm

/-- How blocks run in the AST interpreter. -/
theorem block_run_ast {id : Nat} {args env env0 env2 : List Nat} {outer : List (List Nat)} {b : Body SBlock} {es : Nodes} {am : AMeth} (hS : Std I D F C N A U (outer.length + 1)) (err : Err → E)
    (ha : b.ast known alloc true (env :: outer) env0 = .ok (es, env2)) (hok : es.ok (env2 :: env :: outer))
    (hm : (SBlock.mk id args env0 b).ast known alloc (env :: outer) = .ok am) : am.run A U err = ends (es.execSeq A U err) := by
  simp only [SBlock.ast] at hm
  rw [ha] at hm
  replace hm : (match (seqNode es).triv with | some t => Except.ok (AMeth.triv id t) | none => .ok (.ast id args env2 (seqNode es))) = .ok am := hm
  rw [← seqNode_exec]
  have hno : NoRet ((seqNode es).exec A U err) := Node.noRet hS rfl err _ (seqNode_ok hok) fun h => absurd h (Nat.succ_ne_zero _)
  -- a block does not become a setter
  have noSet : ∀ {e : Ex SBlock} {x y : List Nat} {i j l : Nat}, e.ast known alloc (env :: outer) x ≠ .ok (.fldW i 0 (.readArg j l), y) := fun h => by
    obtain ⟨_, _, _, h⟩ := ast_fldW h
    exact absurd h.symm (Nat.succ_ne_zero _)
  split at hm
  · rename_i t heq
    cases hm
    show t.run A U = _
    by_cases hl : (seqNode es).leaf = true
    · exact triv_run heq hl err
    · exfalso
      rcases triv_cases heq with ⟨v, h1, rfl⟩ | ⟨g, h1, rfl⟩ | ⟨g, l, h1, rfl⟩ | ⟨i, l, h1, rfl⟩ | ⟨i, j, rfl, ⟨l, h1⟩ | ⟨l, h1⟩⟩
      · rw [h1] at hl; exact absurd rfl hl
      · rw [h1] at hl; exact absurd rfl hl
      · rw [h1] at hl; exact absurd rfl hl
      · rw [h1] at hl; exact absurd rfl hl
      · rcases es with _ | ⟨e1, _ | ⟨e2, es⟩⟩
        · cases h1
        · have h1 : e1 = _ := h1
          subst h1
          rcases b with _ | e | ⟨e, rest⟩ | e | _ <;> simp only [Body.ast] at ha
          · cases ha
          · obtain ⟨⟨x, y⟩, h1, h2⟩ := except_bind_ok ha
            cases h2
            exact noSet h1
          · obtain ⟨⟨x, y⟩, h1, h2⟩ := except_bind_ok ha
            obtain ⟨⟨z, u⟩, h3, h4⟩ := except_bind_ok h2
            cases h4
            exact noSet h1
          · obtain ⟨⟨x, y⟩, h1, h2⟩ := except_bind_ok ha
            cases h2
          · cases ha
        · cases h1
      · rcases es with _ | ⟨e1, _ | ⟨e2, es⟩⟩
        · cases h1
        · have h1 : e1 = _ := h1
          subst h1
          rcases b with _ | e | ⟨e, rest⟩ | e | _ <;> simp only [Body.ast] at ha
          · cases ha
          · obtain ⟨⟨x, y⟩, h1, h2⟩ := except_bind_ok ha
            cases h2
            exact ast_notSeq h1
          · obtain ⟨⟨x, y⟩, h1, h2⟩ := except_bind_ok ha
            obtain ⟨⟨z, u⟩, h3, h4⟩ := except_bind_ok h2
            cases h4
            exact ast_notSeq h1
          · obtain ⟨⟨x, y⟩, h1, h2⟩ := except_bind_ok ha
            cases h2
          · cases ha
        · injection h1 with h1
          injection h1 with h1
          subst h1
          rcases b with _ | e | ⟨e, rest⟩ | e | _ <;> simp only [Body.ast] at ha
          · cases ha
          · obtain ⟨⟨x, y⟩, h1, h2⟩ := except_bind_ok ha
            cases h2
          · obtain ⟨⟨x, y⟩, h1, h2⟩ := except_bind_ok ha
            obtain ⟨⟨z, u⟩, h3, h4⟩ := except_bind_ok h2
            cases h4
            exact noSet h1
          · obtain ⟨⟨x, y⟩, h1, h2⟩ := except_bind_ok ha
            cases h2
          · cases ha
  · cases hm
    exact answers_false hno

theorem triv_means {n lvl : Nat} {b : Body Meth} {t : Triv Meth} (A : World Meth W E) (h : b.triv true lvl = some t) (env : List Nat) :
    t.means A = Src.body A (Src.machine A) (blocksOf A (inliner n) lvl) true lvl b env := by
  have key : ∀ (e : Ex Meth), e.triv lvl = some t → t.means A = Src.bind (Src.ex A (Src.machine A) (blocksOf A (inliner n) lvl) lvl e env) Src.answer := by
    intro e h
    cases e with
    | lit l =>
      cases l with
      | val v => cases h; simp only [Triv.means, Src.ex, Src.lit, Src.pure_bind]
      | arr es => cases h
    | glob g =>
      simp only [Ex.triv, Option.some.injEq] at h
      subst h
      simp only [Src.ex]
      rw [Src.glob_eq]
      by_cases h1 : g = symNil
      · rw [if_pos h1, if_pos h1, Src.pure_bind]; rfl
      · rw [if_neg h1, if_neg h1]
        by_cases h2 : g = symTrue
        · rw [if_pos h2, if_pos h2, Src.pure_bind]; rfl
        · rw [if_neg h2, if_neg h2]
          by_cases h3 : g = symFalse
          · rw [if_pos h3, if_pos h3, Src.pure_bind]; rfl
          · rw [if_neg h3, if_neg h3]; rfl
    | fld g i => cases h; rfl
    | _ => cases h
  cases b with
  | done => cases h; rfl
  | last e => exact key e h
  | stmt e r => cases r <;> cases h
  | exit e => cases h
  | exitSelf => cases h

/-- How blocks run in the bytecode interpreter. -/
theorem block_run_bc {n lvl id : Nat} {args env0 : List Nat} {b : Body Meth} {m : Meth} (hw : b.wf fun _ => True) (fits : b.fits true) (ok : BlksOK (lvl + 1) b.blks)
    (h : compileBlock n lvl id args env0 b = .ok m) (A : World Meth W E) (hN : Src.needsBody True (Src.IncFieldIsPlus A (Src.machine A)) b) :
    m.run A = Src.body A (Src.machine A) (blocksOf A (inliner n) (lvl + 1)) true (lvl + 1) b env0 := by
  have hw' : b.wf ((inliner n).good (lvl + 1)) := b.wf_of hw ok.good
  obtain ⟨g, hg, h⟩ := except_bind_ok h
  have ht := C35_recognised (inliner_ok n) hw' fits (by simp) hg
  rw [ht] at h
  replace h : (match b.triv true (lvl + 1) with
    | some t => Except.ok (Meth.triv id t)
    | none => do
      let C ← assemble g
      .ok (Meth.bc id C.lits C.bytes g.loops args g.env C.max (genBody (inliner n) true (lvl + 1) b (false, env0)))) = .ok m := h
  cases hb : b.triv true (lvl + 1) with
  | some t => rw [hb] at h; cases h; exact triv_means A hb env0
  | none =>
    rw [hb] at h
    obtain ⟨C, hC, h⟩ := except_bind_ok h
    cases h
    exact bcRun_eq hw' (by simp) hg hC A hN

end
end PySOM.BC

import Verif.Lemmas.AstStd
import Verif.Lemmas.Program
import Verif.Lemmas.ProgramAcc
/-!
# The meaning of inlined blocks
-/
set_option autoImplicit false
namespace PySOM.BC
open PySOM

/-- What `compileBlock` gives. -/
theorem compileBlock_full {n lvl id : Nat} {args env : List Nat} {b : Body Meth} {m : Meth} (wf : b.wf fun _ => True) (fits : b.fits true)
    (ok : BlksOK (lvl + 1) b.blks) (h : compileBlock n lvl id args env b = .ok m) :
    impossible ∉ (genBody (inliner n) true (lvl + 1) b (false, env)).instrs ∧
    ((∃ t, b.triv true (lvl + 1) = some t ∧ m = .triv id t) ∨
     b.triv true (lvl + 1) = none ∧ ∃ lits bytes loops stack,
      m = .bc id lits bytes loops args (bodyEnv (inliner n) (lvl + 1) b (false, env)) stack (genBody (inliner n) true (lvl + 1) b (false, env))) := by
  have hw : b.wf ((inliner n).good (lvl + 1)) := b.wf_of wf ok.good
  obtain ⟨g, hg, h⟩ := except_bind_ok h
  have ht := C35_recognised (inliner_ok n) hw fits (by simp) hg
  rw [ht] at h
  replace h : (match b.triv true (lvl + 1) with
    | some t => Except.ok (Meth.triv id t)
    | none => do
      let C ← assemble g
      .ok (Meth.bc id C.lits C.bytes g.loops args g.env C.max (genBody (inliner n) true (lvl + 1) b (false, env)))) = .ok m := h
  refine ⟨(compile_ok (inliner_ok n) hw (by simp) hg).1.possible, ?_⟩
  cases hb : b.triv true (lvl + 1) with
  | some t => rw [hb] at h; cases h; exact .inl ⟨t, rfl, rfl⟩
  | none =>
    rw [hb] at h
    obtain ⟨C, hC, h⟩ := except_bind_ok h
    cases h
    refine .inr ⟨rfl, C.lits, C.bytes, g.loops, C.max, ?_⟩
    rw [compile_env (inliner_ok n) hw hg]

section
variable {W E : Type}

mutual
theorem gen_envEx (A : World Meth W E) (n lvl : Nat) : ∀ (e : Ex Meth) (st : Bool × List Nat),
    (genEx (inliner n) lvl e st).2.2 = Src.envEx (blocksOf A (inliner n) lvl) e st.2
  | .lit _, _ => rfl
  | .glob _, _ => rfl
  | .var _ _ _, _ => rfl
  | .fld _ _, _ => rfl
  | .blk _ _, _ => rfl
  | .asg t ts e, st => by
    simp only [genEx, Src.envEx]
    rw [← gen_envEx A n lvl e st]
    unfold genAsg
    split <;> rfl
  | .inc e, st => by simp only [genEx, Src.envEx]; exact gen_envEx A n lvl e st
  | .dec e, st => by simp only [genEx, Src.envEx]; exact gen_envEx A n lvl e st
  | .send sel r as, st => by
    have hr := gen_envEx A n lvl r st
    simp only [genEx, Src.envEx]
    cases inlined? sel r as with
    | none =>
      show (genExs (inliner n) lvl as (genEx (inliner n) lvl r st).2).2.2 = Src.envExs _ as (Src.envEx _ r st.2)
      rw [← hr]; exact gen_envExs A n lvl as _
    | some i =>
      show _ = Src.inlinedEnv _ (Src.envEx _ r st.2) i
      rw [← hr]
      cases i <;> rfl
  | .superSend sel r as, st => by
    simp only [genEx, Src.envEx]
    rw [← gen_envEx A n lvl r st]; exact gen_envExs A n lvl as _
theorem gen_envExs (A : World Meth W E) (n lvl : Nat) : ∀ (es : Exs Meth) (st : Bool × List Nat),
    (genExs (inliner n) lvl es st).2.2 = Src.envExs (blocksOf A (inliner n) lvl) es st.2
  | .nil, _ => rfl
  | .cons e es, st => by
    simp only [genExs, Src.envExs]
    rw [← gen_envEx A n lvl e st]; exact gen_envExs A n lvl es _
end

theorem bind_noval {p : Src.Rel W E} {k : Val → Src.Rel W E} (h : ∀ v w u w', ¬ k v w (.val u) w') {w w' : W} {u : Val} : ¬ Src.bind p k w (.val u) w' := by
  rintro (⟨v, w1, _, h2⟩ | ⟨_, h2⟩)
  · exact h _ _ _ _ h2
  · exact h2

theorem answer_noval {v : Val} {w w' : W} {u : Val} : ¬ (Src.answer v : Src.Rel W E) w (.val u) w' := fun h => nomatch h.1

theorem ite_noval {c : Prop} [Decidable c] {p q : Src.Rel W E} {w w' : W} {u : Val} (hp : ¬ p w (.val u) w') (hq : ¬ q w (.val u) w') : ¬ (if c then p else q) w (.val u) w' := by
  split
  · exact hp
  · exact hq

theorem body_stmt {M X : Type} {A : World M W E} {P : Src.Arith W E} {B : Src.Blocks M X W E} {isBlock : Bool} {lvl : Nat} {e : Ex M} {rest : Body M} (h : rest ≠ .done) {x : X} :
    Src.body A P B isBlock lvl (.stmt e rest) x = Src.bind (Src.ex A P B lvl e x) fun _ => Src.body A P B isBlock lvl rest (Src.envEx B e x) := by
  cases rest with
  | done => exact absurd rfl h
  | last f => rfl
  | stmt f r => rfl
  | exit f => rfl
  | exitSelf => rfl

/-- A body never just ends. -/
theorem body_noval {M X : Type} (A : World M W E) (P : Src.Arith W E) (B : Src.Blocks M X W E) (isBlock : Bool) (lvl : Nat) : ∀ (b : Body M) (x : X) (w : W) (u : Val) (w' : W),
    ¬ Src.body A P B isBlock lvl b x w (.val u) w'
  | .done, x, w, u, w' => by
    rw [Src.body]
    exact ite_noval answer_noval (bind_noval fun _ _ _ _ => answer_noval)
  | .last e, x, w, u, w' => by
    rw [Src.body]
    exact bind_noval fun _ _ _ _ => ite_noval answer_noval (bind_noval fun _ _ _ _ => answer_noval)
  | .exit e, x, w, u, w' => by
    rw [Src.body]
    exact bind_noval fun _ _ _ _ => ite_noval (bind_noval fun _ _ _ _ => answer_noval) answer_noval
  | .exitSelf, x, w, u, w' => by
    rw [Src.body]
    exact bind_noval fun _ _ _ _ => answer_noval
  | .stmt e .done, x, w, u, w' => by
    rw [Src.body]
    exact bind_noval fun _ _ _ _ => ite_noval answer_noval (bind_noval fun _ _ _ _ => answer_noval)
  | .stmt e (.last f), x, w, u, w' => by
    rw [body_stmt (by intro h; cases h)]
    exact bind_noval fun _ _ _ _ => body_noval A P B isBlock lvl _ _ _ _ _
  | .stmt e (.stmt f r), x, w, u, w' => by
    rw [body_stmt (by intro h; cases h)]
    exact bind_noval fun _ _ _ _ => body_noval A P B isBlock lvl _ _ _ _ _
  | .stmt e (.exit f), x, w, u, w' => by
    rw [body_stmt (by intro h; cases h)]
    exact bind_noval fun _ _ _ _ => body_noval A P B isBlock lvl _ _ _ _ _
  | .stmt e .exitSelf, x, w, u, w' => by
    rw [body_stmt (by intro h; cases h)]
    exact bind_noval fun _ _ _ _ => body_noval A P B isBlock lvl _ _ _ _ _

theorem of_sem {A : World Meth W E} {c : SC Meth} {R : Src.Rel W E} (h : Sem A c [] R) : (fun w r w' => SEval A c [] w (r.out [] w')) = R := by
  refine Src.rel_ext fun w r w' => ?_
  have := h [] w (r.out [] w')
  simp only [List.nil_append] at this
  rw [this]
  constructor
  · rintro ⟨r1, w1, h1, e⟩
    cases r <;> cases r1 <;> cases e <;> exact h1
  · intro h1; exact ⟨r, w', h1, rfl⟩

theorem valued_lift (Z : Src.Rel W E) : Src.unlift (valued (Src.bind (Src.lift Z) Src.answer)) = Z := by
  rw [← ends_eq]
  have : valued (ends (Src.lift Z)) = Src.lift Z := by
    refine Src.rel_ext fun w r w' => ?_
    cases r with
    | val v =>
      constructor
      · rintro (h | ⟨r0, e, h⟩)
        · exact h
        · cases r0 <;> cases e
      · exact .inl
    | ret v =>
      constructor
      · exact False.elim
      · rintro ⟨r0, e, h⟩
        cases r0 <;> cases e
    | exc e => exact Iff.rfl
  rw [this, Src.unlift_lift]

theorem lift_glob (A : World Nat W E) (lvl : Nat) (env locals : List Nat) (n : Sel) : Src.glob (onMeth (A.pull lvl env locals)) n = Src.lift (Src.glob (onMeth A) n) := by
  rw [glob_onMeth, glob_onMeth, Src.glob_eq]
  split
  · rename_i h; rw [Src.glob_eq, if_pos h, Src.lift_pure]
  · rename_i h1
    split
    · rename_i h; rw [Src.glob_eq, if_neg h1, if_pos h, Src.lift_pure]
    · rename_i h2
      split
      · rename_i h; rw [Src.glob_eq, if_neg h1, if_neg h2, if_pos h, Src.lift_pure]
      · exact act_pull _ _ _ _ _

mutual
theorem needsEx_mono {a b c d : Prop} (h1 : a → c) (h2 : b → d) : ∀ (e : Ex Meth), Src.needsEx a b e → Src.needsEx c d e
  | .lit _, _ => trivial
  | .glob _, _ => trivial
  | .var _ _ _, _ => trivial
  | .fld _ _, _ => trivial
  | .blk _ _, _ => trivial
  | .asg _ _ e, h => ⟨h.1.imp id h2, needsEx_mono h1 h2 e h.2⟩
  | .inc e, h => ⟨h1 h.1, needsEx_mono h1 h2 e h.2⟩
  | .dec e, h => ⟨h1 h.1, needsEx_mono h1 h2 e h.2⟩
  | .send _ r as, h => ⟨needsEx_mono h1 h2 r h.1, needsExs_mono h1 h2 as h.2⟩
  | .superSend _ r as, h => ⟨needsEx_mono h1 h2 r h.1, needsExs_mono h1 h2 as h.2⟩
theorem needsExs_mono {a b c d : Prop} (h1 : a → c) (h2 : b → d) : ∀ (es : Exs Meth), Src.needsExs a b es → Src.needsExs c d es
  | .nil, _ => trivial
  | .cons e es, h => ⟨needsEx_mono h1 h2 e h.1, needsExs_mono h1 h2 es h.2⟩
end

theorem needsBody_mono {a b c d : Prop} (h1 : a → c) (h2 : b → d) : ∀ (e : Body Meth), Src.needsBody a b e → Src.needsBody c d e
  | .done, _ => trivial
  | .last e, h => needsEx_mono h1 h2 e h
  | .stmt e r, h => ⟨needsEx_mono h1 h2 e h.1, needsBody_mono h1 h2 r h.2⟩
  | .exit e, h => needsEx_mono h1 h2 e h
  | .exitSelf, _ => trivial

/-- The code of an inlined block does what the block does in its world. -/
theorem blk_pull {n lvl id : Nat} {args env : List Nat} {b : Body Meth} {m : Meth} (wf : b.wf fun _ => True) (fits : b.fits true)
    (ok : BlksOK (lvl + 1) b.blks) (ht : m.tail) (h : compileBlock n lvl id args env b = .ok m) (x : List Nat) (hp : impossible ∉ (inlCode n m lvl x).instrs) (A : World Nat W E)
    (hN : Src.needsBody True (Src.IncFieldIsPlus (A.pull lvl (x ++ m.locals) m.locals) (Src.machine (A.pull lvl (x ++ m.locals) m.locals))) b) :
    (blocksOf (onMeth A) (inliner n) lvl).body m x = Src.unlift (valued (Src.body (onMeth (A.pull lvl (x ++ m.locals) m.locals))
      (Src.machine (onMeth (A.pull lvl (x ++ m.locals) m.locals))) (blocksOf (onMeth (A.pull lvl (x ++ m.locals) m.locals)) (inliner n) (lvl + 1)) true (lvl + 1) b env)) := by
  have hw : b.wf ((inliner n).good (lvl + 1)) := b.wf_of wf ok.good
  rcases (compileBlock_full wf fits ok h).2 with ⟨t, hb, rfl⟩ | ⟨_, lits, bytes, loops, stack, rfl⟩
  · have leaf : ∀ e : Ex Meth, e.triv (lvl + 1) = some t → (blocksOf (onMeth A) (inliner n) lvl).body (.triv id t) x =
        Src.unlift (valued (Src.bind (Src.ex (onMeth (A.pull lvl (x ++ []) [])) (Src.machine (onMeth (A.pull lvl (x ++ []) []))) (blocksOf (onMeth (A.pull lvl (x ++ []) [])) (inliner n) (lvl + 1))
          (lvl + 1) e env) Src.answer)) := by
      intro e he
      cases e with
      | lit l =>
        cases l with
        | arr es => cases he
        | val v =>
          cases he
          show _ = Src.unlift (valued (Src.bind (Src.pure v) Src.answer))
          rw [← Src.lift_pure, valued_lift]
          exact of_sem (sem_const v)
      | glob s =>
        rw [Src.ex, lift_glob, valued_lift]
        have sem := sem_ex (A := onMeth A) (P := Src.machine (onMeth A)) lvl (blocksOf_means (inliner_ok n) lvl) (.glob s) (false, x) trivial trivial
        simp only [Ex.triv, Option.some.injEq] at he
        subst he
        have e1 : (blocksOf (onMeth A) (inliner n) lvl).body (.triv id (if s = symNil then .lit (.val .nil) else if s = symTrue then .lit (.val .tru) else if s = symFalse then .lit (.val .fls) else .glob s (lvl + 1))) x
            = fun w r w' => SEval (onMeth A) (.ins (globIns s)) [] w (r.out [] w') := by
          have : inlCode n (.triv id (if s = symNil then .lit (.val .nil) else if s = symTrue then .lit (.val .tru) else if s = symFalse then .lit (.val .fls) else .glob s (lvl + 1))) lvl x
              = .ins (globIns s) := by
            by_cases h1 : s = symNil
            · simp only [if_pos h1, inlCode, globIns]
            · simp only [if_neg h1]
              by_cases h2 : s = symTrue
              · simp only [if_pos h2, inlCode, globIns, if_neg h1]
              · simp only [if_neg h2]
                by_cases h3 : s = symFalse
                · simp only [if_pos h3, inlCode, globIns, if_neg h1, if_neg h2]
                · simp only [if_neg h3, inlCode]
          rw [← this]; rfl
        rw [e1]
        exact of_sem sem.1
      | fld s i =>
        cases he
        rw [Src.ex, act_onMeth, Act.map, act_pull, valued_lift]
        exact of_sem (A := onMeth A) (c := .ins (.pushFld i lvl)) (R := Src.act (onMeth A) (.rdFld i lvl)) (sem_act fun s => rfl)
      | _ => cases he
    show _ = Src.unlift (valued (Src.body (onMeth (A.pull lvl (x ++ []) [])) (Src.machine (onMeth (A.pull lvl (x ++ []) []))) (blocksOf (onMeth (A.pull lvl (x ++ []) [])) (inliner n) (lvl + 1)) true (lvl + 1) b env))
    cases b with
    | done =>
      cases hb
      show _ = Src.unlift (valued (Src.answer .nil))
      rw [← Src.pure_bind Val.nil Src.answer, ← Src.lift_pure, valued_lift]
      exact of_sem (sem_const .nil)
    | last e =>
      have := leaf e hb
      rw [this, Src.body]
      rfl
    | exit e => cases hb
    | exitSelf => cases hb
    | stmt e r =>
      cases r <;> cases hb
  · simp only [Meth.locals] at hN ⊢
    generalize hl : bodyEnv (inliner n) (lvl + 1) b (false, env) = locals at hN ht hp ⊢
    have hty := (genBody_piece n (lvl + 1) b (false, env) wf fits ok).ty 0
    simp only [inlCode] at hp
    have ha : args.length = 1 := by
      by_cases ha : args.length = 1
      · exact ha
      · rw [if_neg ha] at hp
        exact absurd (List.mem_singleton.mpr rfl) hp
    rw [if_pos ha] at hp
    have hs := sem_body (A := onMeth (A.pull lvl (x ++ locals) locals)) (P := Src.machine (onMeth (A.pull lvl (x ++ locals) locals))) true (lvl + 1) (blocksOf_means (inliner_ok n) (lvl + 1)) b (false, env) hw
      (needsBody_mono (fun _ => ⟨fun _ _ _ _ => Iff.rfl, fun _ _ _ _ => Iff.rfl⟩) (fun h => h) b hN)
    refine Src.rel_ext fun w r w' => ?_
    have h1 := tail_pull (A := A) _ ht hp [] hty w (r.out [] w')
    have e0 : (blocksOf (onMeth A) (inliner n) lvl).body (.bc id lits bytes loops args locals stack (genBody (inliner n) true (lvl + 1) b (false, env))) x w r w' =
        SEval (onMeth A) ((genBody (inliner n) true (lvl + 1) b (false, env)).subst (inlIns (adapt n 1 [locals] (x ++ locals)) lvl (x ++ locals) locals)) [] w (r.out [] w') := by
      show SEval (onMeth A) (inlCode n (.bc id lits bytes loops args locals stack (genBody (inliner n) true (lvl + 1) b (false, env))) lvl x) [] w (r.out [] w') = _
      simp only [inlCode, if_pos ha]
    rw [e0, h1]
    have h2 := fun o => hs [] w o
    simp only [List.nil_append] at h2
    constructor
    · rintro ⟨o', h3, e⟩
      obtain ⟨r1, w1, h4, rfl⟩ := (h2 o').mp h3
      cases r1 with
      | val v => exact absurd h4 (body_noval _ _ _ _ _ _ _ _ _ _)
      | ret v => cases r <;> cases e; exact h4
      | exc z => cases z <;> cases r <;> cases e <;> exact h4
    · intro h3
      cases r with
      | val v => exact ⟨_, (h2 _).mpr ⟨.ret v, w', h3, rfl⟩, rfl⟩
      | ret v => exact ⟨_, (h2 _).mpr ⟨.exc (.inr v), w', h3, rfl⟩, rfl⟩
      | exc z => exact ⟨_, (h2 _).mpr ⟨.exc (.inl z), w', h3, rfl⟩, rfl⟩

end
end PySOM.BC

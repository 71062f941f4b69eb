import Verif.Lemmas.ClosureSim
/-!
# Simulation of all expressions
-/
set_option autoImplicit false
namespace PySOM.Clo

theorem StRel.setCell {f : Map} {st st' : State} (h : StRel f st st') {l l' : Nat} (hl : f l = some l') {v v' : Value} (hv : VRel f v v') :
    StRel f { st with cells := st.cells.set l v } { st' with cells := st'.cells.set l' v' } := by
  refine ⟨?_, h.inj, h.objs, h.log, h.act⟩
  intro k k' hk
  have hd := h.dom hk
  by_cases e : k = l
  · subst e
    rw [hl] at hk; cases hk
    exact ⟨v, v', by simp only; rw [List.getElem?_set_self hd.1], by simp only; rw [List.getElem?_set_self hd.2], hv⟩
  · have e' : k' ≠ l' := fun x => e (h.inj k l l' (x ▸ hk) hl)
    obtain ⟨w, w', h1, h2, h3⟩ := h.cell k k' hk
    exact ⟨w, w', by simp only; rw [List.getElem?_set_ne (Ne.symm e)]; exact h1, by simp only; rw [List.getElem?_set_ne (Ne.symm e')]; exact h2, h3⟩

theorem StRel.setOut {f : Map} {st st' : State} (h : StRel f st st') {l l' : Nat} (hl : f l = none) (hl' : ∀ k, f k ≠ some l') {v v' : Value} :
    StRel f { st with cells := st.cells.set l v } { st' with cells := st'.cells.set l' v' } := by
  refine ⟨?_, h.inj, h.objs, h.log, h.act⟩
  intro k k' hk
  have e : l ≠ k := fun x => by rw [x, hk] at hl; cases hl
  have e' : l' ≠ k' := fun x => hl' k (x ▸ hk)
  obtain ⟨w, w', h1, h2, h3⟩ := h.cell k k' hk
  exact ⟨w, w', by simp only; rw [List.getElem?_set_ne e]; exact h1, by simp only; rw [List.getElem?_set_ne e']; exact h2, h3⟩

/-- Writing a variable. -/
theorem assign_sim {lp : Bool} {sc tmp D : List Var} {f : Map} {ctx ctx' : Ctx} {st st' : State}
    (I : Inv lp sc tmp D [] [] f ctx ctx' st st') (x : Var) (hx : x ∈ sc ∨ x ∈ tmp) {v v' : Value} (hv : VRel f v v') :
    G lp ctx ctx' tmp [] [] f st st' (Kd tmp (x :: D) ctx.env ctx'.env)
      (match ctx.env x with | some l => (.val v, { st with cells := st.cells.set l v }) | none => (.err .unbound, st))
      (match ctx'.env x with | some l => (.val v', { st' with cells := st'.cells.set l v' }) | none => (.err .unbound, st')) := by
  rcases hx with hx | hx
  · obtain ⟨l, l', e1, e2, e3⟩ := I.hsc x hx
    rw [e1, e2]
    refine ⟨f, ⟨I.rel.setCell e3 hv, Le.refl f, by simp, by simp, fun _ _ h => h, ?_, fun _ _ h _ => h, ?_⟩, .val hv, ?_⟩
    · intro k _ hk _
      simp only
      rw [List.getElem?_set_ne]
      rintro rfl
      rw [e3] at hk; cases hk
    · intro k' _ hk _ _
      simp only
      rw [List.getElem?_set_ne]
      rintro rfl
      exact hk l e3
    · intro _ y hy hyD k k' hk hk'
      obtain ⟨m, m', a1, a2, _, _, a3, a4⟩ := I.htmp y hy
      rw [hk] at a1; cases a1
      rw [hk'] at a2; cases a2
      have n1 : l ≠ k := fun h => by rw [← h, e3] at a3; cases a3
      have n2 : l' ≠ k' := fun h => a4 l (h ▸ e3)
      have hyD' : y ∈ D := by
        rcases List.mem_cons.1 hyD with h | h
        · subst h; rw [hk] at e1; cases e1; exact absurd rfl n1
        · exact h
      obtain ⟨w, w', b1, b2, b3⟩ := I.hd y hy hyD' k k' hk hk'
      exact ⟨w, w', by simp only; rw [List.getElem?_set_ne n1]; exact b1, by simp only; rw [List.getElem?_set_ne n2]; exact b2, b3⟩
  · obtain ⟨l, l', e1, e2, e3, e4, e5, e6⟩ := I.htmp x hx
    rw [e1, e2]
    refine ⟨f, ⟨I.rel.setOut e5 e6, Le.refl f, by simp, by simp, fun _ _ h => h, ?_, fun _ _ h _ => h, ?_⟩, .val hv, ?_⟩
    · intro k _ hk hT
      simp only
      rw [List.getElem?_set_ne]
      rintro rfl
      exact hT ⟨x, hx, e1⟩
    · intro k' _ hk hT _
      simp only
      rw [List.getElem?_set_ne]
      rintro rfl
      exact hT ⟨x, List.mem_append_right _ hx, e2⟩
    · intro _ y hy hyD k k' hk hk'
      by_cases hxy : y = x
      · subst hxy
        rw [hk] at e1; cases e1
        rw [hk'] at e2; cases e2
        exact ⟨v, v', by simp only; rw [List.getElem?_set_self e3], by simp only; rw [List.getElem?_set_self e4], hv⟩
      · have n1 : l ≠ k := fun h => hxy (I.injp y hy x hx (by rw [hk, e1, h]))
        have n2 : l' ≠ k' := fun h => hxy (I.inji y (List.mem_append_right _ hy) x (List.mem_append_right _ hx) (by rw [hk', e2, h]))
        obtain ⟨w, w', b1, b2, b3⟩ := I.hd y hy ((List.mem_cons.1 hyD).resolve_left hxy) k k' hk hk'
        exact ⟨w, w', by simp only; rw [List.getElem?_set_ne n1]; exact b1, by simp only; rw [List.getElem?_set_ne n2]; exact b2, b3⟩

/-- Only objects change. -/
theorem objs_sim {lp : Bool} {sc tmp D : List Var} {f : Map} {ctx ctx' : Ctx} {st st' : State}
    (I : Inv lp sc tmp D [] [] f ctx ctx' st st') {os os' : List (Nat × List Value)} (h : All2 (ORel f) os os') {v v' : Value} (hv : VRel f v v') :
    G lp ctx ctx' tmp [] [] f st st' (Kd tmp D ctx.env ctx'.env) (.val v, { st with objs := os }) (.val v', { st' with objs := os' }) :=
  ⟨f, ⟨⟨I.rel.cell, I.rel.inj, h, I.rel.log, I.rel.act⟩, Le.refl f, Nat.le_refl _, Nat.le_refl _, fun _ _ h => h, fun _ _ _ _ => rfl,
    fun _ _ h _ => h, fun _ _ _ _ _ => rfl⟩, .val hv, fun _ => I.hd⟩

theorem evArgs_sim {ev ev' : Ev} (IH : SimEv ev ev') (live : List Nat) {lp : Bool} {sc tmp : List Var} {ctx ctx' : Ctx}
    {K2 : Map → State → State → Prop} (es : Exs) : ∀ {D : List Var} {f : Map} {st st' : State}
    (_ : es.fine lp sc tmp D) (_ : es.hoist.Nodup) (_ : ∀ x ∈ es.hoist, x ∉ sc ∧ x ∉ tmp)
    (_ : Inv lp sc tmp D es.hoist es.hoistS f ctx ctx' st st') {k k' : List Value → State → Res}
    (_ : ∀ f1 s s' vs vs', Le f f1 → Inv lp sc tmp (es.after D) [] [] f1 ctx ctx' s s' → All2 (VRel f1) vs vs' →
      G lp ctx ctx' tmp [] [] f1 s s' K2 (k vs s) (k' vs' s')),
    G lp ctx ctx' tmp es.hoist es.hoistS f st st' K2 (evArgs ev live ctx es st k) (evArgs ev' live ctx' es st' k') := by
  induction es using Exs.rec (motive_1 := fun _ => True) with
  | nil =>
    intro D f st st' _ _ _ I k k' hk
    exact hk f st st' [] [] (Le.refl f) I .nil
  | cons e es _ ih =>
    intro D f st st' hf hnd hdis I k k' hk
    simp only [Exs.fine] at hf
    simp only [Exs.hoist, Exs.hoistS] at hnd hdis I ⊢
    obtain ⟨n1, n2, n3⟩ := List.nodup_append.1 hnd
    simp only [evArgs]
    have hsim := IH lp sc tmp D e f live ctx ctx' st st' hf.1 n1 (fun x h => hdis x (List.mem_append_left _ h))
      (I.sub (fun x h => List.mem_append_left _ h) (fun x h => List.mem_append_left _ h))
    refine G.seq (hs1 := e.hoist) (hn1 := e.hoistS) (hs2 := es.hoist) (hn2 := es.hoistS) (D1 := e.after D) I hsim
      (fun x h => List.mem_append_left _ h) e.hoistS_sub (fun x h => List.mem_append_right _ h) (fun x h => List.mem_append_right _ h)
      es.hoistS_sub (fun x h => .inl fun h' => n3 x h x h' rfl) (fun x h => (hdis x h).2) (fun _ x h => List.mem_append_left _ h) ?_
    intro f1 s s' v v' hle I1 hv
    refine ih hf.2 n2 (fun x h => hdis x (List.mem_append_right _ h)) I1 ?_
    intro f2 s2 s2' vs vs' hle2 I2 hvs
    exact hk f2 s2 s2' _ _ (hle.trans hle2) I2 (.cons (hv.mono hle2) hvs)
  | _ => trivial

/-- Whether a block is evaluated is the same for related values. -/
inductive PickRel (f : Map) : Pick → Pick → Prop
  | run : PickRel f .run .run
  | skip {v v' : Value} : VRel f v v' → PickRel f (.skip v) (.skip v')
  | fail : PickRel f .fail .fail

theorem pick_rel {f : Map} (k : Inl1) {v v' : Value} (hv : VRel f v v') : PickRel f (k.pick v) (k.pick v') := by
  have hh := hv.atom?
  unfold Inl1.pick
  rw [← hh]
  cases k with
  | ifBool b => rcases v.atom? with _ | _ | _ | _ | _ <;> cases b <;> first | exact .run | exact .fail | exact .skip (.atom _)
  | ifNil => rcases v.atom? with _ | _ | _ | _ | _ <;> first | exact .run | exact .skip hv
  | ifNotNil => rcases v.atom? with _ | _ | _ | _ | _ <;> first | exact .run | exact .skip (.atom _)
  | and => rcases v.atom? with _ | _ | _ | _ | _ <;> first | exact .run | exact .fail | exact .skip (.atom _)
  | or => rcases v.atom? with _ | _ | _ | _ | _ <;> first | exact .run | exact .fail | exact .skip (.atom _)

theorem step_sim (P : Prog) (hP : ∀ c sel m, P.meth c sel = some m → m.fine) {ev ev' : Ev} (IH : SimEv ev ev') :
    SimEv (step P false ev) (step P true ev') := by
  intro lp sc tmp D e f live ctx ctx' st st' hf hnd hdis I
  change G lp ctx ctx' tmp e.hoist e.hoistS f st st' _ _ _
  cases e with
  | atom a => exact SimR.val I.rel (.atom a) I.hd
  | self => exact SimR.val I.rel I.self I.hd
  | var x =>
    simp only [step]
    rcases hf with hx | ⟨hx, hxD⟩
    · obtain ⟨l, l', e1, e2, e3⟩ := I.hsc x hx
      obtain ⟨v, v', c1, c2, c3⟩ := I.rel.cell l l' e3
      rw [e1, e2]; simp only [c1, c2]
      exact SimR.val I.rel c3 I.hd
    · obtain ⟨l, l', e1, e2, _⟩ := I.htmp x hx
      obtain ⟨v, v', c1, c2, c3⟩ := I.hd x hx hxD l l' e1 e2
      rw [e1, e2]; simp only [c1, c2]
      exact SimR.val I.rel c3 I.hd
  | asg x e =>
    simp only [step]
    simp only [Ex.fine] at hf
    simp only [Ex.hoist, Ex.hoistS] at hnd hdis I ⊢
    refine G.seq (hs2 := []) (hn2 := []) I (IH lp sc tmp D e f live ctx ctx' st st' hf.1 hnd hdis I) (fun x h => h) e.hoistS_sub
      (fun x h => nomatch h) (fun x h => nomatch h) (fun x h => nomatch h) (fun x h => .inl fun h => nomatch h) (fun x h => (hdis x h).2) (fun _ x h => h) ?_
    intro f1 s s' v v' _ I1 hv
    exact assign_sim I1 x hf.2 hv
  | fld i =>
    simp only [step]
    cases hs : ctx.self with
    | atom a =>
      have := I.self; rw [hs] at this
      generalize ctx'.self = w at this ⊢
      cases this; exact SimR.err _ I.rel
    | clo as ls b env s h =>
      have := I.self; rw [hs] at this
      generalize ctx'.self = w at this ⊢
      cases this; exact SimR.err _ I.rel
    | obj a =>
      have := I.self; rw [hs] at this
      generalize ctx'.self = w at this ⊢
      cases this
      simp only
      cases ho : st.objs[a]? with
      | none =>
        have : st'.objs[a]? = none := by
          rw [List.getElem?_eq_none_iff] at ho ⊢; rw [← I.rel.objs.length]; exact ho
        rw [this]; exact SimR.err _ I.rel
      | some o =>
        obtain ⟨o', ho', hc, hfs⟩ := I.rel.objs.get a o ho
        rw [ho']
        obtain ⟨c, fs⟩ := o
        obtain ⟨c', fs'⟩ := o'
        simp only at hfs ⊢
        cases hi : fs[i]? with
        | none =>
          have : fs'[i]? = none := by
            rw [List.getElem?_eq_none_iff] at hi ⊢; rw [← hfs.length]; exact hi
          rw [this]; exact SimR.err _ I.rel
        | some v =>
          obtain ⟨v', hv', hvv⟩ := hfs.get i v hi
          rw [hv']
          exact SimR.val I.rel hvv I.hd
  | fldW i e =>
    simp only [step]
    simp only [Ex.fine] at hf
    simp only [Ex.hoist, Ex.hoistS, Ex.after] at hnd hdis I ⊢
    refine G.seq (hs2 := []) (hn2 := []) I (IH lp sc tmp D e f live ctx ctx' st st' hf hnd hdis I) (fun x h => h) e.hoistS_sub
      (fun x h => nomatch h) (fun x h => nomatch h) (fun x h => nomatch h) (fun x h => .inl fun h => nomatch h) (fun x h => (hdis x h).2) (fun _ x h => h) ?_
    intro f1 s s' v v' _ I1 hv
    cases hs : ctx.self with
    | atom a =>
      have := I1.self; rw [hs] at this
      generalize ctx'.self = w at this ⊢
      cases this; exact SimR.err _ I1.rel
    | clo as ls b env s h =>
      have := I1.self; rw [hs] at this
      generalize ctx'.self = w at this ⊢
      cases this; exact SimR.err _ I1.rel
    | obj a =>
      have := I1.self; rw [hs] at this
      generalize ctx'.self = w at this ⊢
      cases this
      simp only
      cases ho : s.objs[a]? with
      | none =>
        have : s'.objs[a]? = none := by
          rw [List.getElem?_eq_none_iff] at ho ⊢; rw [← I1.rel.objs.length]; exact ho
        rw [this]; exact SimR.err _ I1.rel
      | some o =>
        obtain ⟨o', ho', hc, hfs⟩ := I1.rel.objs.get a o ho
        rw [ho']
        obtain ⟨c, fs⟩ := o
        obtain ⟨c', fs'⟩ := o'
        simp only at hfs hc ⊢
        subst hc
        rw [← hfs.length]
        split
        · have hoo : ORel f1 (c, fs.set i v) (c, fs'.set i v') := ⟨rfl, hfs.set i hv⟩
          exact objs_sim I1 (I1.rel.objs.set a hoo) hv
        · exact SimR.err _ I1.rel
  | blk as ls b =>
    simp only [step]
    rw [← I.home]
    exact SimR.val I.rel (.clo sc hf I.hsc I.self) I.hd
  | new c =>
    simp only [step]
    rw [← I.rel.objs.length]
    exact objs_sim I (I.rel.objs.append (.cons ⟨rfl, All2.replicate _ (.atom .nil)⟩ .nil)) (.obj _)
  | send sup sel r as =>
    simp only [step]
    simp only [Ex.fine] at hf
    simp only [Ex.hoist, Ex.hoistS, Ex.after] at hnd hdis I ⊢
    obtain ⟨n1, n2, n3⟩ := List.nodup_append.1 hnd
    refine G.seq (hs2 := as.hoist) (hn2 := as.hoistS) I (IH lp sc tmp D r f live ctx ctx' st st' hf.1 n1 (fun x h => hdis x (List.mem_append_left _ h))
        (I.sub (fun x h => List.mem_append_left _ h) (fun x h => List.mem_append_left _ h)))
      (fun x h => List.mem_append_left _ h) r.hoistS_sub (fun x h => List.mem_append_right _ h) (fun x h => List.mem_append_right _ h)
      as.hoistS_sub (fun x h => .inl fun h' => n3 x h x h' rfl) (fun x h => (hdis x h).2) (fun _ x h => List.mem_append_left _ h) ?_
    intro f1 s s' v v' _ I1 hv
    refine evArgs_sim IH live as hf.2 n2 (fun x h => hdis x (List.mem_append_right _ h)) I1 ?_
    intro f2 u u' vs vs' hle2 I2 hvs
    exact SimR.conseq (sendV_sim P hP IH I2.rel live sup sel (hv.mono hle2) hvs) (fun _ h => h.elim) (fun _ h => h.elim) (fun _ h => h.elim)
      (fun _ _ _ hp _ => Kd.frame I2.htmp I2.hd hp (fun _ h => h) (fun _ h => h) (fun _ h => h))
  | inl1 k r ls b =>
    simp only [step]
    simp only [Ex.fine] at hf
    simp only [Ex.hoist, Ex.hoistS, Ex.after] at hnd hdis I ⊢
    obtain ⟨n1, n2, n3⟩ := List.nodup_append.1 hnd
    refine G.seq (hs2 := ls ++ b.hoist) (hn2 := ls ++ b.hoistS) I (IH lp sc tmp D r f live ctx ctx' st st' hf.1 n1 (fun x h => hdis x (List.mem_append_left _ h))
        (I.sub (fun x h => List.mem_append_left _ h) (fun x h => List.mem_append_left _ h)))
      (fun x h => List.mem_append_left _ h) r.hoistS_sub (fun x h => List.mem_append_right _ h) (fun x h => List.mem_append_right _ h)
      (fun x h => by simp only [List.mem_append] at h ⊢; exact h.imp id (b.hoistS_sub x))
      (fun x h => .inl fun h' => n3 x h x h' rfl) (fun x h => (hdis x h).2) (fun _ x h => List.mem_append_left _ h) ?_
    intro f1 s s' v v' _ I1 hv
    have hpk := pick_rel k hv
    generalize k.pick v = p at hpk ⊢
    generalize k.pick v' = p' at hpk ⊢
    cases hpk with
    | run => exact scope_sim IH I1 live (fun x h => h) (fun _ x h => h) n2 (fun x h => hdis x (List.mem_append_right _ h)) hf.2
    | skip hu => exact SimR.val I1.rel hu I1.hd
    | fail => exact SimR.err _ I1.rel
  | inl2 k r ls1 b1 ls2 b2 =>
    simp only [step]
    simp only [Ex.fine] at hf
    simp only [Ex.hoist, Ex.hoistS, Ex.after] at hnd hdis I ⊢
    obtain ⟨n1, n2, n3⟩ := List.nodup_append.1 hnd
    obtain ⟨m1, m2, m3⟩ := List.nodup_append.1 n2
    refine G.seq (hs2 := (ls1 ++ b1.hoist) ++ (ls2 ++ b2.hoist)) (hn2 := (ls1 ++ b1.hoistS) ++ (ls2 ++ b2.hoistS)) I
      (IH lp sc tmp D r f live ctx ctx' st st' hf.1 n1 (fun x h => hdis x (List.mem_append_left _ h))
        (I.sub (fun x h => List.mem_append_left _ h) (fun x h => List.mem_append_left _ h)))
      (fun x h => List.mem_append_left _ h) r.hoistS_sub (fun x h => List.mem_append_right _ h) (fun x h => List.mem_append_right _ h)
      (fun x h => by simp only [List.mem_append] at h ⊢; exact h.imp (Or.imp id (b1.hoistS_sub x)) (Or.imp id (b2.hoistS_sub x)))
      (fun x h => .inl fun h' => n3 x h x h' rfl) (fun x h => (hdis x h).2) (fun _ x h => List.mem_append_left _ h) ?_
    intro f1 s s' v v' _ I1 hv
    have hpk : k.pick v = k.pick v' := by unfold Inl2.pick; rw [hv.atom?]
    rw [← hpk]
    cases k.pick v with
    | none => exact SimR.err _ I1.rel
    | some c =>
      cases c with
      | true =>
        exact (scope_sim IH I1 live (fun x h => List.mem_append_left _ h) (fun _ x h => List.mem_append_left _ h) m1
          (fun x h => hdis x (List.mem_append_right _ (List.mem_append_left _ h))) hf.2.1).mono
            (fun x h => List.mem_append_left _ h) (fun x h => List.mem_append_left _ h)
      | false =>
        exact (scope_sim IH I1 live (fun x h => List.mem_append_right _ h) (fun _ x h => List.mem_append_right _ h) m2
          (fun x h => hdis x (List.mem_append_right _ (List.mem_append_right _ h))) hf.2.2).mono
            (fun x h => List.mem_append_right _ h) (fun x h => List.mem_append_right _ h)
  | «while» w lc c lb b =>
    have I0 := I.loop (hn2 := [])
    have hfw : (Ex.while w lc c lb b).fine true sc tmp D := by simpa only [Ex.fine] using hf
    have hndw := hnd
    have hdisw := hdis
    simp only [Ex.fine] at hf
    simp only [Ex.hoist] at hnd hdis
    obtain ⟨n1, n2, n3⟩ := List.nodup_append.1 hnd
    have subc : ∀ x ∈ lc ++ c.hoistS, x ∈ lc ++ c.hoist := fun x h => by
      simp only [List.mem_append] at h ⊢; exact h.imp id (c.hoistS_sub x)
    have subb : ∀ x ∈ lb ++ b.hoistS, x ∈ lb ++ b.hoist := fun x h => by
      simp only [List.mem_append] at h ⊢; exact h.imp id (b.hoistS_sub x)
    have key : G true ctx ctx' tmp (Ex.while w lc c lb b).hoist [] f st st' (Kd tmp D ctx.env ctx'.env)
        (step P false ev live ctx (.while w lc c lb b) st) (step P true ev' live ctx' (.while w lc c lb b) st') := by
      simp only [step, Ex.hoist] at I0 ⊢
      refine G.seq (hs2 := (lc ++ c.hoist) ++ (lb ++ b.hoist)) (hn2 := []) I0
        (scope_sim IH I0 live (fun x h => List.mem_append_left _ h) (fun h => nomatch h) n1 (fun x h => hdis x (List.mem_append_left _ h)) hf.1)
        (fun x h => List.mem_append_left _ h) subc (fun x h => h) (fun x h => h) (fun x h => nomatch h)
        (fun x h => .inr (.inl ⟨rfl, fun h => nomatch h⟩)) (fun x h => (hdis x h).2) (fun h => nomatch h) ?_
      intro f1 s s' v v' _ I1 hv
      rw [← hv.atom?]
      by_cases hw : v.atom? = some (if w then .tru else .fls)
      · rw [if_pos hw, if_pos hw]
        refine G.seq (hs2 := (lc ++ c.hoist) ++ (lb ++ b.hoist)) (hn2 := []) I1
          (scope_sim IH I1 live (fun x h => List.mem_append_right _ h) (fun h => nomatch h) n2 (fun x h => hdis x (List.mem_append_right _ h)) hf.2)
          (fun x h => List.mem_append_right _ h) subb (fun x h => h) (fun x h => h) (fun x h => nomatch h)
          (fun x h => .inr (.inl ⟨rfl, fun h => nomatch h⟩)) (fun x h => (hdis x h).2) (fun h => nomatch h) ?_
        intro f2 u u' _ _ _ I2 _
        exact IH true sc tmp D (.while w lc c lb b) f2 live ctx ctx' u u' hfw hndw hdisw I2
      · rw [if_neg hw, if_neg hw]
        by_cases hw2 : v.atom? = some (if w then .fls else .tru)
        · rw [if_pos hw2, if_pos hw2]; exact SimR.val I1.rel (.atom .nil) I1.hd
        · rw [if_neg hw2, if_neg hw2]; exact SimR.err _ I1.rel
    exact SimR.conseq key (fun _ h => h) (fun _ h => .inl h) (fun _ h => by cases h.1) (fun _ _ _ _ h => h)
  | seq e1 e2 =>
    simp only [step]
    simp only [Ex.fine] at hf
    simp only [Ex.hoist, Ex.hoistS, Ex.after] at hnd hdis I ⊢
    obtain ⟨n1, n2, n3⟩ := List.nodup_append.1 hnd
    refine G.seq (hs2 := e2.hoist) (hn2 := e2.hoistS) I (IH lp sc tmp D e1 f live ctx ctx' st st' hf.1 n1 (fun x h => hdis x (List.mem_append_left _ h))
        (I.sub (fun x h => List.mem_append_left _ h) (fun x h => List.mem_append_left _ h)))
      (fun x h => List.mem_append_left _ h) e1.hoistS_sub (fun x h => List.mem_append_right _ h) (fun x h => List.mem_append_right _ h)
      e2.hoistS_sub (fun x h => .inl fun h' => n3 x h x h' rfl) (fun x h => (hdis x h).2) (fun _ x h => List.mem_append_left _ h) ?_
    intro f1 s s' v v' _ I1 _
    exact IH lp sc tmp (e1.after D) e2 f1 live ctx ctx' s s' hf.2 n2 (fun x h => hdis x (List.mem_append_right _ h)) I1
  | ret e =>
    simp only [step]
    simp only [Ex.fine] at hf
    simp only [Ex.hoist, Ex.hoistS, Ex.after] at hnd hdis I ⊢
    refine G.seq (hs2 := []) (hn2 := []) I (IH lp sc tmp D e f live ctx ctx' st st' hf hnd hdis I) (fun x h => h) e.hoistS_sub
      (fun x h => nomatch h) (fun x h => nomatch h) (fun x h => nomatch h) (fun x h => .inl fun h => nomatch h) (fun x h => (hdis x h).2) (fun _ x h => h) ?_
    intro f1 s s' v v' _ I1 hv
    rw [← I.home]
    split
    · exact ⟨f1, Post.refl I1.rel, .ret _ hv, fun _ => I1.hd⟩
    · exact SimR.err _ I1.rel

theorem eval_sim (P : Prog) (hP : ∀ c sel m, P.meth c sel = some m → m.fine) (n : Nat) : SimEv (eval P false n) (eval P true n) := by
  induction n with
  | zero =>
    intro lp sc tmp D e f live ctx ctx' st st' _ _ _ I
    exact ⟨f, Post.refl I.rel, .timeout, fun ⟨_, h⟩ => by cases h⟩
  | succ n ih => exact step_sim P hP ih

theorem seen_sim {f : Map} {st st' : State} {T T' H : Nat → Prop} {K : Map → State → State → Prop} {r r' : Res} (h : SimR f st st' T T' H K r r') :
    seen r = seen r' := by
  obtain ⟨f2, hp, ho, _⟩ := h
  unfold seen
  rw [hp.rel.log]
  have h1 : r.1.seen = r'.1.seen := by
    generalize r.1 = o at ho ⊢
    generalize r'.1 = o' at ho ⊢
    cases ho with
    | val hv => simp only [Out.seen, hv.shown]
    | ret h hv => simp only [Out.seen, hv.shown]
    | err e => rfl
    | timeout => rfl
  have h2 := hp.rel.objs.map_eq (fun o : Nat × List Value => (o.1, o.2.map Value.shown)) (fun o => (o.1, o.2.map Value.shown))
    (fun o o' ho => by rw [ho.1, ho.2.map_eq Value.shown Value.shown (fun _ _ h => h.shown)])
  rw [h1, h2]

end PySOM.Clo

import Verif.Lemmas.AstShape
/-!
# Trees and code do the same
-/
set_option autoImplicit false
namespace PySOM.BC
open PySOM

section
variable (I D F C N : Prop) (known : Sel → Bool) (n : Nat) (outer : List (List Nat))

/-- A block: the two methods are inlined to the same. -/
structure BlkOK (env : List Nat) (s : SBlock) (m : Meth) (am : AMeth) : Prop where
  id : m.id = am.id
  th : s.throws = true → outer.length = 0 ∨ N
  inl : ∀ (x : List Nat) (t' : Node) (x' : List Nat), am.inline known outer.length x = .ok (t', x') → env <+: x → x.Nodup →
    x' = x ++ m.locals ∧ x'.Nodup ∧ t'.ok (x' :: outer) ∧ (t'.throws = true → s.throws = true) ∧
    (impossible ∉ (inlCode n m outer.length x).instrs → ∀ (W E : Type) (A : World Nat W E) (U : Sel → Nat → Src.Rel W E) (err : Err → E), Std I D F C N A U outer.length →
      Approx (NoBoolean err) (t'.exec A U err) ((blocksOf (onMeth A) (inliner n) outer.length).body m x))

/-- An expression. -/
structure ExOK (e : Ex SBlock) (e' : Ex Meth) (env : List Nat) (nd : Node) (env2 : List Nat) : Prop where
  genv : ∀ f, (genEx (inliner n) outer.length e' (f, env)).2.2 = env2
  pre : env <+: env2
  nodup : env2.Nodup
  ok : nd.ok (env2 :: outer)
  throws : nd.throws = true → e.throws = true
  needs : ∀ fuse : Prop, (F → fuse) → Src.needsEx True fuse e'
  sem : ∀ f, impossible ∉ (genEx (inliner n) outer.length e' (f, env)).1.instrs → ∀ (W E : Type) (A : World Nat W E) (U : Sel → Nat → Src.Rel W E) (err : Err → E),
    Std I D F C N A U outer.length →
    Approx (NoBoolean err) (nd.exec A U err) (Src.ex (onMeth A) (Src.machine (onMeth A)) (blocksOf (onMeth A) (inliner n) outer.length) outer.length e' env)
  blk : ∀ c s, e = .blk c s → ∃ c' m am, e' = .blk c' m ∧ nd = .blk c' am ∧ env2 = env ∧ BlkOK I D F C N known n outer env s m am
  noBlk : (∀ c s, e ≠ .blk c s) → (∀ c m, e' ≠ .blk c m) ∧ (∀ c m, nd ≠ .blk c m)

/-- Arguments. -/
inductive ExsOK : Exs SBlock → Exs Meth → List Nat → Nodes → List Nat → Prop where
  | nil (env : List Nat) : ExsOK .nil .nil env .nil env
  | cons {e : Ex SBlock} {e' : Ex Meth} {env env1 env2 : List Nat} {nd : Node} {es : Exs SBlock} {es' : Exs Meth} {nds : Nodes} (h1 : ExOK I D F C N known n outer e e' env nd env1)
      (h2 : ExsOK es es' env1 nds env2) : ExsOK (.cons e es) (.cons e' es') env (.cons nd nds) env2

/-- A body. -/
structure BodyOK (isBlock : Bool) (b : Body SBlock) (b' : Body Meth) (env : List Nat) (es : Nodes) (env2 : List Nat) : Prop where
  genv : ∀ f, bodyEnv (inliner n) outer.length b' (f, env) = env2
  pre : env <+: env2
  nodup : env2.Nodup
  ok : es.ok (env2 :: outer)
  throws : es.throws = true → b.throws isBlock = true
  needs : ∀ fuse : Prop, (F → fuse) → Src.needsBody True fuse b'
  sem : ∀ f, impossible ∉ (genBody (inliner n) isBlock outer.length b' (f, env)).instrs → ∀ (W E : Type) (A : World Nat W E) (U : Sel → Nat → Src.Rel W E) (err : Err → E),
    Std I D F C N A U outer.length → (isBlock = false → Src.act A .self = Src.act A (.rdVar true 0 0)) →
    Approx (NoBoolean err) (ends (es.execSeq A U err)) (Src.body (onMeth A) (Src.machine (onMeth A)) (blocksOf (onMeth A) (inliner n) outer.length) isBlock outer.length b' env)
end

section
variable {I D F C N : Prop} {known : Sel → Bool} {n : Nat} {outer : List (List Nat)}

theorem notMem_left {α : Type} {a : α} {x y : List α} (h : a ∉ x ++ y) : a ∉ x := fun h1 => h (List.mem_append_left _ h1)
theorem notMem_right {α : Type} {a : α} {x y : List α} (h : a ∉ x ++ y) : a ∉ y := fun h1 => h (List.mem_append_right _ h1)

theorem Within.head {env env2 : List Nat} (h : env <+: env2) : Within (env :: outer) (env2 :: outer) := .cons h (.refl _)

namespace ExsOK
variable {es : Exs SBlock} {es' : Exs Meth} {env env2 : List Nat} {nds : Nodes}

theorem genv (h : ExsOK I D F C N known n outer es es' env nds env2) : ∀ f, (genExs (inliner n) outer.length es' (f, env)).2.2 = env2 := by
  induction h with
  | nil env => exact fun _ => rfl
  | cons h1 h2 ih =>
    intro f
    simp only [genExs]
    rw [← ih (genEx (inliner n) outer.length _ (f, _)).2.1, ← h1.genv f]

theorem pre (h : ExsOK I D F C N known n outer es es' env nds env2) : env <+: env2 := by
  induction h with
  | nil env => exact List.prefix_refl _
  | cons h1 h2 ih => exact h1.pre.trans ih

theorem nodup (h : ExsOK I D F C N known n outer es es' env nds env2) (hn : env.Nodup) : env2.Nodup := by
  induction h with
  | nil env => exact hn
  | cons h1 h2 ih => exact ih h1.nodup

theorem ok (h : ExsOK I D F C N known n outer es es' env nds env2) : nds.ok (env2 :: outer) := by
  induction h with
  | nil env => trivial
  | cons h1 h2 ih => exact ⟨Node.ok_mono (Within.head h2.pre) _ h1.ok, ih⟩

theorem throws (h : ExsOK I D F C N known n outer es es' env nds env2) (ht : nds.throws = true) : es.throws = true := by
  induction h with
  | nil env => cases ht
  | cons h1 h2 ih =>
    simp only [Nodes.throws, Exs.throws, Bool.or_eq_true] at ht ⊢
    exact ht.imp h1.throws ih

theorem needs (h : ExsOK I D F C N known n outer es es' env nds env2) (fuse : Prop) (hf : F → fuse) : Src.needsExs True fuse es' := by
  induction h with
  | nil env => trivial
  | cons h1 h2 ih => exact ⟨h1.needs fuse hf, ih⟩

theorem sem (h : ExsOK I D F C N known n outer es es' env nds env2) (f : Bool) (hp : impossible ∉ (genExs (inliner n) outer.length es' (f, env)).1.instrs)
    (W E : Type) (A : World Nat W E) (U : Sel → Nat → Src.Rel W E) (err : Err → E) (hS : Std I D F C N A U outer.length) (k2 k1 : List Val → Src.Rel W E)
    (hk : ∀ vs, Approx (NoBoolean err) (k2 vs) (k1 vs)) :
    Approx (NoBoolean err) (nds.exec A U err k2) (Src.exs (onMeth A) (Src.machine (onMeth A)) (blocksOf (onMeth A) (inliner n) outer.length) outer.length es' env k1) := by
  induction h generalizing f k2 k1 with
  | nil env => exact hk []
  | @cons e e' env env1 env2 nd es es' nds h1 h2 ih =>
    simp only [genExs, SC.instrs] at hp
    simp only [Nodes.exec, Src.exs]
    refine (h1.sem f (notMem_left hp) W E A U err hS).bind fun v => ?_
    have he := h1.genv f
    have hg := gen_envEx (onMeth A) n outer.length e' (f, env)
    rw [he] at hg
    rw [← hg]
    have hq := notMem_right hp
    have h3 : (genEx (inliner n) outer.length e' (f, env)).2 = ((genEx (inliner n) outer.length e' (f, env)).2.1, env1) := by rw [← he]
    rw [h3] at hq
    exact ih _ hq _ _ fun vs => hk (v :: vs)

end ExsOK

theorem ExOK.envEx {e : Ex SBlock} {e' : Ex Meth} {env env2 : List Nat} {nd : Node} (h : ExOK I D F C N known n outer e e' env nd env2) {W E : Type} (A : World Meth W E) :
    Src.envEx (blocksOf A (inliner n) outer.length) e' env = env2 := by
  rw [← gen_envEx A n outer.length e' (true, env), h.genv]

theorem ExOK.st {e : Ex SBlock} {e' : Ex Meth} {env env2 : List Nat} {nd : Node} (h : ExOK I D F C N known n outer e e' env nd env2) (f : Bool) :
    (genEx (inliner n) outer.length e' (f, env)).2 = ((genEx (inliner n) outer.length e' (f, env)).2.1, env2) := by rw [← h.genv f]

theorem litPossible (v : Val) : impossible ∉ (litSC (.val v) : SC Meth).instrs := by
  simp only [litSC, SC.instrs, List.mem_singleton]
  intro h; cases h

/-- Something without blocks. -/
theorem ExOK.simple {e : Ex SBlock} {e' : Ex Meth} {env : List Nat} {nd : Node} (hn : env.Nodup) (henv : ∀ f, (genEx (inliner n) outer.length e' (f, env)).2.2 = env)
    (ok : nd.ok (env :: outer)) (throws : nd.throws = false) (needs : ∀ fuse : Prop, Src.needsEx True fuse e') (h1 : ∀ c s, e ≠ .blk c s) (h2 : ∀ c m, e' ≠ .blk c m) (h3 : ∀ c m, nd ≠ .blk c m)
    (sem : ∀ (W E : Type) (A : World Nat W E) (U : Sel → Nat → Src.Rel W E) (err : Err → E), Std I D F C N A U outer.length →
      nd.exec A U err = Src.ex (onMeth A) (Src.machine (onMeth A)) (blocksOf (onMeth A) (inliner n) outer.length) outer.length e' env) :
    ExOK I D F C N known n outer e e' env nd env where
  genv := henv
  pre := List.prefix_refl _
  nodup := hn
  ok := ok
  throws h := by rw [throws] at h; cases h
  needs fuse _ := needs fuse
  sem _ _ W E A U err hS := .of_eq (sem W E A U err hS)
  blk c s h := absurd h (h1 c s)
  noBlk _ := ⟨h2, h3⟩

theorem globNode_ok (known : Sel → Bool) (lvl : Nat) (g : Sel) {chain : List (List Nat)} (hl : lvl + 1 = chain.length) : (globNode known lvl g).ok chain := by
  unfold globNode
  split
  · trivial
  · split
    · trivial
    · split
      · trivial
      · rename_i h1 h2 h3
        have hs : ¬ special g := by rintro (h | h | h) <;> contradiction
        split
        · exact hs
        · exact ⟨hl, hs⟩

theorem globNode_throws (known : Sel → Bool) (lvl : Nat) (g : Sel) : (globNode known lvl g).throws = false := by
  unfold globNode
  repeat' split
  all_goals rfl

theorem globNode_exec {W E : Type} {A : World Nat W E} {U : Sel → Nat → Src.Rel W E} {err : Err → E} {lvl : Nat} (hS : Std I D F C N A U lvl) (known : Sel → Bool) (g : Sel) :
    (globNode known lvl g).exec A U err = Src.glob A g := by
  rw [Src.glob_eq]
  unfold globNode
  by_cases h1 : g = symTrue
  · subst h1; rfl
  · rw [if_neg h1]
    by_cases h2 : g = symFalse
    · subst h2; rfl
    · rw [if_neg h2]
      by_cases h3 : g = symNil
      · subst h3; rfl
      · rw [if_neg h3, if_neg h3, if_neg h1, if_neg h2]
        split
        · rfl
        · exact hS.glob g (by rintro (h | h | h) <;> contradiction)


theorem seqNode_exec {W E : Type} (A : World Nat W E) (U : Sel → Nat → Src.Rel W E) (err : Err → E) (es : Nodes) : (seqNode es).exec A U err = es.execSeq A U err := by
  rcases es with _ | ⟨e, _ | ⟨f, fs⟩⟩ <;> rfl

theorem seqNode_ok {chain : List (List Nat)} {es : Nodes} (h : es.ok chain) : (seqNode es).ok chain := by
  rcases es with _ | ⟨e, _ | ⟨f, fs⟩⟩
  · trivial
  · exact h.1
  · exact h

theorem seqNode_throws {es : Nodes} (h : (seqNode es).throws = true) : es.throws = true := by
  rcases es with _ | ⟨e, _ | ⟨f, fs⟩⟩
  · cases h
  · simp only [seqNode] at h
    simp only [Nodes.throws, h, Bool.true_or]
  · exact h

/-- A leaf in the world of an inlined block. -/
theorem leaf_pull {nd t' : Node} {t : ATriv} {id : Nat} {x x' env env2 : List Nat} (ht : nd.triv = some t) (hok : nd.ok (env2 :: env :: outer))
    (h : (AMeth.triv id t).inline known outer.length x = .ok (t', x')) :
    x' = x ∧ nd.leaf = true ∧ t'.ok (x :: outer) ∧ t'.throws = false ∧ ∀ (W E : Type) (A : World Nat W E) (U : Sel → Nat → Src.Rel W E) (err : Err → E), Std I D F C N A U outer.length →
      ∀ (y z : List Nat), nd.exec (A.pull outer.length y z) (pullU U) (Sum.inl ∘ err) = Src.lift (t'.exec A U err) := by
  rcases triv_cases ht with ⟨v, rfl, rfl⟩ | ⟨g, rfl, rfl⟩ | ⟨g, l, rfl, rfl⟩ | ⟨i, l, rfl, rfl⟩ | ⟨i, j, rfl, _⟩
  · cases h
    exact ⟨rfl, rfl, trivial, rfl, fun W E A U err hS y z => (Src.lift_pure v).symm⟩
  · cases h
  · cases h
    simp only [Node.ok, List.length_cons] at hok
    refine ⟨rfl, rfl, globNode_ok _ _ _ rfl, globNode_throws _ _ _, fun W E A U err hS y z => ?_⟩
    rw [globNode_exec hS]
    have hl : l - 1 = outer.length := by omega
    show Src.lift (U g (l - 1)) = _
    rw [hl, hS.glob g hok.2, Src.glob_eq, if_neg (fun e => hok.2 (.inl e)), if_neg (fun e => hok.2 (.inr (.inl e))), if_neg (fun e => hok.2 (.inr (.inr e)))]
  · cases h
    simp only [Node.ok, List.length_cons] at hok
    refine ⟨rfl, rfl, rfl, rfl, fun W E A U err hS y z => ?_⟩
    have hl : l - 1 = outer.length := by omega
    show Src.act _ (.rdFld i l) = _
    rw [act_pull]
    show Src.lift (Src.act A (.rdFld i (l - 1))) = _
    rw [hl]; rfl
  · cases h

theorem BlkOK.of_body {alloc : LitTs → Val} {id : Nat} {args env env0 env2 : List Nat} {b : Body SBlock} {b' : Body Meth} {m : Meth} {am : AMeth} {es : Nodes}
    (hbuild : b.build known n (outer.length + 1) = .ok b') (wf : b'.wf fun _ => True) (fits : b'.fits true) (hok : BlksOK (outer.length + 1) b'.blks) (tail : m.tail)
    (hm : compileBlock n outer.length id args env0 b' = .ok m) (hast : b.ast known alloc true (env :: outer) env0 = .ok (es, env2))
    (ham : (match (seqNode es).triv with | some t => AMeth.triv id t | none => .ast id args env2 (seqNode es)) = am)
    (tidy : b.tidy env0) (hfair : b.fair I D F C N true) (h : BodyOK I D F C N n (env :: outer) true b b' env0 es env2)
    (th : b.throws true = true → outer.length = 0 ∨ N) : BlkOK I D F C N known n outer env (.mk id args env0 b) m am := by
  obtain ⟨hpos, hcases⟩ := compileBlock_full wf fits hok hm
  have hsok := seqNode_ok h.ok
  -- the meaning, given that of the tree
  have fin : ∀ (x : List Nat) (t' : Node), impossible ∉ (inlCode n m outer.length x).instrs → ∀ (W E : Type) (A : World Nat W E) (U : Sel → Nat → Src.Rel W E) (err : Err → E),
      Std I D F C N A U outer.length →
      (seqNode es).exec (A.pull outer.length (x ++ m.locals) m.locals) (pullU U) (Sum.inl ∘ err) = Src.lift (t'.exec A U err) →
      Approx (NoBoolean err) (t'.exec A U err) ((blocksOf (onMeth A) (inliner n) outer.length).body m x) := by
    intro x t' hp W E A U err hS he
    have hS' := hS.pull (x ++ m.locals) m.locals
    rw [blk_pull wf fits hok tail hm x hp A (h.needs _ hS'.fuse)]
    refine approx_unlift ?_
    rw [← he, seqNode_exec]
    exact h.sem false hpos W (E ⊕ Val) _ _ _ hS' (fun h => nomatch h)
  have hid : m.id = id := by rcases hcases with ⟨t, _, rfl⟩ | ⟨_, _, _, _, _, rfl⟩ <;> rfl
  cases ht : (seqNode es).triv with
  | some t =>
    rw [ht] at ham
    cases ham
    refine ⟨hid, fun h => th h, fun x t' x' hx hpre hnd => ?_⟩
    obtain ⟨rfl, hleaf, hk, hth, hex⟩ := leaf_pull (I := I) (D := D) (F := F) (C := C) (N := N) ht hsok hx
    have hlocals : m.locals = [] := by
      rcases hcases with ⟨t, _, rfl⟩ | ⟨hnone, _, _, _, _, rfl⟩
      · rfl
      · rcases body_leaf hast hleaf with rfl | ⟨e, he, rfl, rfl | rfl⟩
        · simp only [Body.build] at hbuild
          cases hbuild
          cases hnone
        · simp only [Body.build] at hbuild
          obtain ⟨e', h1, h2⟩ := except_bind_ok hbuild
          cases h2
          have : (e'.triv (outer.length + 1)).isSome = true := leaf_triv (by rw [build_leaf h1]; exact he) fun es h3 => by
            subst h3
            cases e <;> simp only [Ex.build] at h1
            case lit l => cases h1; simp only [Body.fair, Ex.fair] at hfair
            case send =>
              obtain ⟨x, _, h2⟩ := except_bind_ok h1
              obtain ⟨y, _, h3⟩ := except_bind_ok h2
              cases h3
            case superSend =>
              obtain ⟨x, _, h2⟩ := except_bind_ok h1
              obtain ⟨y, _, h3⟩ := except_bind_ok h2
              cases h3
            all_goals first | (cases h1; done) | (obtain ⟨x, _, h2⟩ := except_bind_ok h1; cases h2)
          have hnone : e'.triv (outer.length + 1) = none := hnone
          rw [hnone] at this; cases this
        · have e0 : env2 = [] := by
            cases e <;> first | (cases he; done) | exact tidy
          simp only [Meth.locals]
          have := h.genv false
          rw [e0] at this ⊢
          exact this
    refine ⟨by rw [hlocals, List.append_nil], hnd, hk, fun h => (by rw [hth] at h; cases h), fun hp W E A U err hS => ?_⟩
    exact fin _ _ hp W E A U err hS (hex W E A U err hS _ _)
  | none =>
    rw [ht] at ham
    cases ham
    refine ⟨hid, fun h => th h, fun x t' x' hx hpre hnd => ?_⟩
    have hlocals : m.locals = env2 := by
      rcases hcases with ⟨t, ht2, rfl⟩ | ⟨_, _, _, _, _, rfl⟩
      · have := triv_of_leaf (body_triv hbuild hast ht2)
        rw [ht] at this; cases this
      · exact h.genv false
    simp only [AMeth.inline] at hx
    obtain ⟨y, h1, h2⟩ := except_bind_ok hx
    obtain ⟨t1, h3, h4⟩ := except_bind_ok h2
    cases h4
    obtain ⟨rfl, _, hdis⟩ := mergeLocals_ok h1
    have hnd' : (x ++ env2).Nodup := by
      rw [List.nodup_append]
      exact ⟨hnd, h.nodup, fun a ha c hc e => hdis c hc (e ▸ ha)⟩
    have hsok' : (seqNode es).ok (env2 :: (x ++ env2) :: outer) :=
      Node.ok_mono (.cons (List.prefix_refl _) (.cons (hpre.trans (List.prefix_append _ _)) (.refl _))) _ hsok
    obtain ⟨k1, k2⟩ := Node.ok_inline _ _ _ hsok' h3
    refine ⟨by rw [hlocals], hnd', k1, fun hth => ?_, fun hp W E A U err hS => ?_⟩
    · exact h.throws (seqNode_throws (k2 ▸ hth))
    · refine fin _ _ hp W E A U err hS ?_
      rw [hlocals]
      refine Node.exec_inline hnd' rfl _ _ _ hsok' h3 fun hth => ?_
      rcases th (h.throws (seqNode_throws hth)) with h5 | h5
      · exact .inl h5
      · exact hS.nlr h5


/-! ## Sends -/

variable {e : Ex SBlock} {e' : Ex Meth} {env env1 env2 : List Nat} {nd : Node}

theorem ExOK.ofNode (h : ExOK I D F C N known n outer e e' env nd env2) {c : Bool} {am : AMeth} (hb : nd = .blk c am) :
    ∃ c0 s m, e = .blk c0 s ∧ e' = .blk c m ∧ env2 = env ∧ BlkOK I D F C N known n outer env s m am := by
  by_cases hx : ∃ c s, e = .blk c s
  · obtain ⟨c0, s, hx⟩ := hx
    obtain ⟨c', m, am', h1, h2, h3, h4⟩ := h.blk c0 s hx
    rw [hb] at h2
    cases h2
    exact ⟨c0, s, m, hx, h1, h3, h4⟩
  · exact absurd hb ((h.noBlk fun c s hs => hx ⟨c, s, hs⟩).2 c am)

theorem ExOK.ofCode (h : ExOK I D F C N known n outer e e' env nd env2) {c : Bool} {m : Meth} (hb : e' = .blk c m) : ∃ am, nd = .blk c am := by
  by_cases hx : ∃ c s, e = .blk c s
  · obtain ⟨c0, s, hx⟩ := hx
    obtain ⟨c', m, am', h1, h2, h3, h4⟩ := h.blk c0 s hx
    rw [hb] at h1
    cases h1
    exact ⟨_, h2⟩
  · exact absurd hb ((h.noBlk fun c s hs => hx ⟨c, s, hs⟩).1 c m)

theorem ExsOK.one {as : Exs SBlock} {as' : Exs Meth} {c : Bool} {am : AMeth} (h : ExsOK I D F C N known n outer as as' env (.cons (.blk c am) .nil) env2) :
    ∃ c0 s m, as = .cons (.blk c0 s) .nil ∧ as' = .cons (.blk c m) .nil ∧ env2 = env ∧ BlkOK I D F C N known n outer env s m am := by
  cases h with
  | cons h1 h2 =>
    cases h2
    obtain ⟨c0, s, m, rfl, rfl, he, hb⟩ := h1.ofNode rfl
    exact ⟨c0, s, m, rfl, rfl, he, hb⟩

theorem ExsOK.two {as : Exs SBlock} {as' : Exs Meth} {c1 c2 : Bool} {am1 am2 : AMeth} (h : ExsOK I D F C N known n outer as as' env (.cons (.blk c1 am1) (.cons (.blk c2 am2) .nil)) env2) :
    ∃ c3 s1 m1 c4 s2 m2, as = .cons (.blk c3 s1) (.cons (.blk c4 s2) .nil) ∧ as' = .cons (.blk c1 m1) (.cons (.blk c2 m2) .nil) ∧ env2 = env ∧
      BlkOK I D F C N known n outer env s1 m1 am1 ∧ BlkOK I D F C N known n outer env s2 m2 am2 := by
  cases h with
  | cons h1 h2 =>
    obtain ⟨c0, s, m, rfl, rfl, rfl, hb⟩ := h1.ofNode rfl
    obtain ⟨c0', s', m', rfl, rfl, rfl, hb'⟩ := h2.one
    exact ⟨_, _, _, _, _, _, rfl, rfl, rfl, hb, hb'⟩

theorem node_thenBranch (c : JCond) : ∃ k, Special.node (.thenBranch c) = .one k := by cases c <;> exact ⟨_, rfl⟩
theorem node_thenElse (c : JCond) : ∃ k, Special.node (.thenElse c) = .two k := by cases c <;> exact ⟨_, rfl⟩
theorem node_andOr (b : Bool) : ∃ k, Special.node (.andOr b) = .one k := by cases b <;> exact ⟨_, rfl⟩
theorem node_while (b : Bool) : Special.node (.while b) = .while b := rfl

theorem aspecial_some {sel : Sel} {x : ASpecial} (h : aspecial? sel = some x) : ∃ sp, special? sel = some sp ∧ sp.node = x := by
  rw [aspecial_eq] at h
  cases hs : special? sel with
  | none => rw [hs] at h; cases h
  | some sp => rw [hs] at h; cases h; exact ⟨sp, rfl, rfl⟩

theorem aspecial_of {sel : Sel} {sp : Special} (h : special? sel = some sp) : aspecial? sel = some sp.node := by rw [aspecial_eq, h]; rfl

/-- A send whose blocks are inlined. -/
theorem ExOK.ofInlined {sel : Sel} {r : Ex SBlock} {r' : Ex Meth} {as : Exs SBlock} {as' : Exs Meth} {ndr : Node} {env3 : List Nat} {i : Inlined Meth}
    (hr : ExOK I D F C N known n outer r r' env ndr env1) (hi : inlined? sel r' as' = some i)
    (genv : ∀ (f : Bool) (c : SC Meth) (cas : Gen Meth (List Nat)), (genSend (inliner n) outer.length sel (some i) (c, (f, env1)) cas).2.2 = env3)
    (pre : env1 <+: env3) (nodup : env3.Nodup) (ok : nd.ok (env3 :: outer)) (throws : nd.throws = true → r.throws = true ∨ as.throws = true)
    (needs : ∀ fuse : Prop, (F → fuse) → Src.needsExs True fuse as') (noBlk : ∀ c m, nd ≠ .blk c m)
    (sem : ∀ (f : Bool) (c : SC Meth) (cas : Gen Meth (List Nat)), impossible ∉ (genSend (inliner n) outer.length sel (some i) (c, (f, env1)) cas).1.instrs →
      ∀ (W E : Type) (A : World Nat W E) (U : Sel → Nat → Src.Rel W E) (err : Err → E), Std I D F C N A U outer.length → ∀ (R : Src.Rel W E),
      (impossible ∉ c.instrs → Approx (NoBoolean err) (ndr.exec A U err) R) → Approx (NoBoolean err) (nd.exec A U err) (Src.inlined (blocksOf (onMeth A) (inliner n) outer.length) R env1 i)) :
    ExOK I D F C N known n outer (.send sel r as) (.send sel r' as') env nd env3 where
  genv f := by
    simp only [genEx, hi]
    have := hr.st f
    rw [← Prod.eta (genEx (inliner n) outer.length r' (f, env)), this]
    exact genv _ _ _
  pre := hr.pre.trans pre
  nodup := nodup
  ok := ok
  throws h := by
    simp only [Ex.throws, Bool.or_eq_true]
    exact throws h
  needs fuse hf := ⟨hr.needs fuse hf, needs fuse hf⟩
  sem f hp W E A U err hS := by
    simp only [genEx, hi] at hp
    simp only [Src.ex, hi, hr.envEx]
    have := hr.st f
    rw [← Prod.eta (genEx (inliner n) outer.length r' (f, env)), this] at hp
    exact sem _ _ _ hp W E A U err hS _ fun hq => hr.sem f hq W E A U err hS
  blk _ _ h := nomatch h
  noBlk _ := ⟨fun _ _ h => (nomatch h), noBlk⟩

theorem ExOK.send {sel : Sel} {r : Ex SBlock} {r' : Ex Meth} {as : Exs SBlock} {as' : Exs Meth} {ndr : Node} {nds : Nodes} {env3 : List Nat}
    (hr : ExOK I D F C N known n outer r r' env ndr env1) (has : ExsOK I D F C N known n outer as as' env1 nds env2) (hs : sendNode known outer.length sel ndr nds env2 = .ok (nd, env3))
    (hI : sel = "+".toList → nds = .cons (.lit (.int 1)) .nil → I ∧ as' = .cons (.lit (.val (.int 1))) .nil) :
    ExOK I D F C N known n outer (.send sel r as) (.send sel r' as') env nd env3 := by
  have hneeds := has.needs
  have hnb := (sendNode_leaf hs).2
  rcases sendNode_cases hs with ⟨k, c, am, a, hsp, rfl, hin, rfl⟩ | ⟨k, c1, am1, c2, am2, a, enva, b, hsp, rfl, hin1, hin2, rfl⟩ |
    ⟨w, c1, am1, c2, am2, a, enva, b, hsp, rfl, rfl, hin1, hin2, rfl⟩ | ⟨rfl, hpl, n1, n2, n3⟩
  · -- one block
    obtain ⟨c0, s, m, rfl, rfl, rfl, hb⟩ := has.one
    obtain ⟨rfl, hnd, hok, hth, hsem⟩ := hb.inl _ _ _ hin (List.prefix_refl _) hr.nodup
    obtain ⟨sp, hsp, hk⟩ := aspecial_some hsp
    have hok' : (Node.inl1 k ndr a).ok ((env2 ++ m.locals) :: outer) := ⟨Node.ok_mono (Within.head (List.prefix_append _ _)) _ hr.ok, hok⟩
    have hth' : (Node.inl1 k ndr a).throws = true → r.throws = true ∨ (Exs.cons (Ex.blk c0 s) .nil).throws = true := fun h => by
      simp only [Node.throws, Bool.or_eq_true] at h
      simp only [Exs.throws, Ex.throws, Bool.or_eq_true]
      exact h.imp hr.throws fun h => .inl (hth h)
    cases sp with
    | thenBranch j =>
      refine ExOK.ofInlined hr (i := .thenBranch j m) (by simp only [inlined?, hsp]) (fun _ _ _ => rfl) (List.prefix_append _ _) hnd hok' hth' hneeds hnb fun f cc cas hp W E A U err hS R hR => ?_
      simp only [genSend, SC.instrs] at hp
      exact approx_one hk (hR (notMem_left hp)) (hsem (notMem_right hp) W E A U err hS)
    | andOr j =>
      refine ExOK.ofInlined hr (i := .andOr j m) (by simp only [inlined?, hsp]) (fun _ _ _ => rfl) (List.prefix_append _ _) hnd hok' hth' hneeds hnb fun f cc cas hp W E A U err hS R hR => ?_
      simp only [genSend, SC.instrs] at hp
      exact approx_andOr hk (hR (notMem_left hp)) (hsem (notMem_left (notMem_right hp)) W E A U err hS)
    | thenElse j => cases j <;> cases hk
    | «while» j => cases hk
  · -- two blocks
    obtain ⟨c3, s1, m1, c4, s2, m2, rfl, rfl, rfl, hb1, hb2⟩ := has.two
    obtain ⟨rfl, hnd1, hok1, hth1, hsem1⟩ := hb1.inl _ _ _ hin1 (List.prefix_refl _) hr.nodup
    obtain ⟨rfl, hnd2, hok2, hth2, hsem2⟩ := hb2.inl _ _ _ hin2 (List.prefix_append _ _) hnd1
    obtain ⟨sp, hsp, hk⟩ := aspecial_some hsp
    have hok' : (Node.inl2 k ndr a b).ok ((env2 ++ m1.locals ++ m2.locals) :: outer) :=
      ⟨Node.ok_mono (Within.head ((List.prefix_append _ _).trans (List.prefix_append _ _))) _ hr.ok, Node.ok_mono (Within.head (List.prefix_append _ _)) _ hok1, hok2⟩
    have hth' : (Node.inl2 k ndr a b).throws = true → r.throws = true ∨ (Exs.cons (Ex.blk c3 s1) (.cons (.blk c4 s2) .nil)).throws = true := fun h => by
      simp only [Node.throws, Bool.or_eq_true] at h
      simp only [Exs.throws, Ex.throws, Bool.or_eq_true]
      rcases h with h | h | h
      · exact .inl (hr.throws h)
      · exact .inr (.inl (hth1 h))
      · exact .inr (.inr (.inl (hth2 h)))
    cases sp with
    | thenElse j =>
      refine ExOK.ofInlined hr (i := .thenElse j m1 m2) (by simp only [inlined?, hsp]) (fun _ _ _ => rfl) ((List.prefix_append _ _).trans (List.prefix_append _ _)) hnd2 hok' hth' hneeds hnb
        fun f cc cas hp W E A U err hS R hR => ?_
      simp only [genSend, SC.instrs] at hp
      exact approx_two hk (hR (notMem_left hp)) (hsem1 (notMem_left (notMem_right hp)) W E A U err hS) (hsem2 (notMem_right (notMem_right hp)) W E A U err hS)
    | thenBranch j => cases j <;> cases hk
    | andOr j => cases j <;> cases hk
    | «while» j => cases hk
  · -- a loop
    obtain ⟨c4, s2, m2, rfl, rfl, rfl, hb2⟩ := has.one
    obtain ⟨c3, s1, m1, rfl, rfl, rfl, hb1⟩ := hr.ofNode rfl
    obtain ⟨rfl, hnd1, hok1, hth1, hsem1⟩ := hb1.inl _ _ _ hin1 (List.prefix_refl _) hr.nodup
    obtain ⟨rfl, hnd2, hok2, hth2, hsem2⟩ := hb2.inl _ _ _ hin2 (List.prefix_append _ _) hnd1
    obtain ⟨sp, hsp, hk⟩ := aspecial_some hsp
    have hok' : (Node.while w a b).ok ((env2 ++ m1.locals ++ m2.locals) :: outer) := ⟨Node.ok_mono (Within.head (List.prefix_append _ _)) _ hok1, hok2⟩
    have hth' : (Node.while w a b).throws = true → (Ex.blk c3 s1).throws = true ∨ (Exs.cons (Ex.blk c4 s2) .nil).throws = true := fun h => by
      simp only [Node.throws, Bool.or_eq_true] at h
      simp only [Exs.throws, Ex.throws, Bool.or_eq_true]
      exact h.imp hth1 fun h => .inl (hth2 h)
    cases sp with
    | «while» j =>
      cases hk
      refine ExOK.ofInlined hr (i := .while w m1 m2) (by simp only [inlined?, hsp]) (fun _ _ _ => rfl) ((List.prefix_append _ _).trans (List.prefix_append _ _)) hnd2 hok' hth' hneeds hnb
        fun f cc cas hp W E A U err hS R hR => ?_
      simp only [genSend, SC.instrs] at hp
      have hp := notMem_left hp
      exact approx_while (hsem1 (notMem_left hp) W E A U err hS) (hsem2 (notMem_left (notMem_right hp)) W E A U err hS)
    | thenBranch j => cases j <;> cases hk
    | andOr j => cases j <;> cases hk
    | thenElse j => cases j <;> cases hk
  · -- a send
    have hnone : inlined? sel r' as' = none := by
      cases hi : inlined? sel r' as' with
      | none => rfl
      | some i =>
        exfalso
        unfold inlined? at hi
        generalize hsp : special? sel = sp at hi
        split at hi
        · cases has with
          | cons h1 h2 =>
            cases h2
            obtain ⟨am, rfl⟩ := h1.ofCode rfl
            obtain ⟨k, hk⟩ := node_thenBranch ‹_›
            exact n1 k _ _ (by rw [aspecial_of hsp, hk]) rfl
        · cases has with
          | cons h1 h2 =>
            cases h2 with
            | cons h2 h3 =>
              cases h3
              obtain ⟨am, rfl⟩ := h1.ofCode rfl
              obtain ⟨am', rfl⟩ := h2.ofCode rfl
              obtain ⟨k, hk⟩ := node_thenElse ‹_›
              exact n2 k _ _ _ _ (by rw [aspecial_of hsp, hk]) rfl
        · cases has with
          | cons h1 h2 =>
            cases h2
            obtain ⟨am, rfl⟩ := h1.ofCode rfl
            obtain ⟨am', rfl⟩ := hr.ofCode rfl
            exact n3 _ _ _ _ _ (by rw [aspecial_of hsp, node_while]) rfl rfl
        · rename_i jb _ _
          cases has with
          | cons h1 h2 =>
            cases h2
            obtain ⟨am, rfl⟩ := h1.ofCode rfl
            obtain ⟨k, hk⟩ := node_andOr jb
            exact n1 k _ _ (by rw [aspecial_of hsp, hk]) rfl
        · cases hi
    have hthr : ndr.throws = true ∨ nds.throws = true → (Ex.send sel r as).throws = true := fun h => by
      simp only [Ex.throws, Bool.or_eq_true]
      exact h.imp hr.throws has.throws
    have hokr := Node.ok_mono (Within.head has.pre) _ hr.ok
    refine ⟨fun f => ?_, hr.pre.trans has.pre, has.nodup hr.nodup, ?_, ?_, fun fuse hf => ⟨hr.needs fuse hf, has.needs fuse hf⟩, fun f hp W E A U err hS => ?_, fun _ _ h => (nomatch h),
      fun _ => ⟨fun _ _ h => (nomatch h), hnb⟩⟩
    · simp only [genEx, hnone, genSend]
      rw [hr.st f]
      exact has.genv _
    · rcases plainSend_cases hpl with ⟨_, _, rfl⟩ | rfl
      · exact hokr
      · exact ⟨hokr, has.ok⟩
    · rcases plainSend_cases hpl with ⟨_, _, rfl⟩ | rfl
      · exact fun h => hthr (.inl h)
      · intro h
        simp only [Node.throws, Bool.or_eq_true] at h
        exact hthr h
    · simp only [genEx, hnone, genSend, SC.instrs] at hp
      simp only [Src.ex, hnone, hr.envEx]
      have hp1 := notMem_left hp
      have hp2 := notMem_left (notMem_right hp)
      rw [hr.st f] at hp2
      rcases plainSend_cases hpl with ⟨h1, h2, rfl⟩ | rfl
      · obtain ⟨hi, rfl⟩ := hI h1 h2
        refine (hr.sem f hp1 W E A U err hS).bind fun v => .of_eq ?_
        simp only [Src.exs, Src.ex, Src.lit, Src.pure_bind]
        rw [hS.inc hi v, h1]; rfl
      · exact (hr.sem f hp1 W E A U err hS).bind fun v => has.sem _ hp2 W E A U err hS _ _ fun vs => .refl _

theorem ExOK.asg {t : Tgt} {ts : List Tgt} {nd2 : Node} (h : ExOK I D F C N known n outer e e' env nd env2) (hw : writeNodes (env2 :: outer) outer.length nd (t :: ts) = .ok nd2)
    (hF : ∀ nm j l, nd = .inc (.fld j l) → (t :: ts).getLast? = some (.fld nm j) → F) (hN : ∀ i, fusable t ts e' = some i → F) (hC : ts ≠ [] → C) :
    ExOK I D F C N known n outer (.asg t ts e) (.asg t ts e') env nd2 env2 := by
  obtain ⟨_, hth, hok, hex⟩ := writeNodes_ok (I := I) (D := D) (F := F) (C := C) (N := N) rfl h.ok t ts nd2 hw hF
  have hnb : ∀ c m, nd2 ≠ .blk c m := by
    rw [writeNodes] at hw
    obtain ⟨u, _, hw⟩ := except_bind_ok hw
    exact (writeNode_leaf hw).2.1
  refine ⟨fun f => ?_, h.pre, h.nodup, hok, fun h1 => h.throws (hth h1), fun fuse hf => ?_, fun f hp W E A U err hS => ?_, fun _ _ h => (nomatch h), fun _ => ⟨fun _ _ h => (nomatch h), hnb⟩⟩
  · simp only [genEx, genAsg]
    split <;> exact h.genv f
  · refine ⟨?_, h.needs fuse hf⟩
    cases hi : fusable t ts e' with
    | none => exact .inl rfl
    | some i => exact .inr (hf (hN i hi))
  · have hp' : impossible ∉ (genEx (inliner n) outer.length e' (f, env)).1.instrs := by
      simp only [genEx, genAsg] at hp
      split at hp
      · rename_i i _ hfu _
        obtain ⟨_, _, _, _, rfl⟩ := fusable_some hfu
        simp only [genEx, SC.instrs]
        intro hm
        simp only [List.cons_append, List.nil_append, List.mem_cons, List.not_mem_nil, or_false] at hm
        rcases hm with hm | hm <;> cases hm
      · exact notMem_left hp
    rw [hex W E A U err hS]
    simp only [Src.ex]
    refine (h.sem f hp' W E A U err hS).bind fun v => .of_eq ?_
    rw [storesRev_eq hS v t ts hC, stores_onMeth]

theorem ExOK.inc (h : ExOK I D F C N known n outer e e' env nd env2) : ExOK I D F C N known n outer (.inc e) (.inc e') env (.inc nd) env2 := by
  refine ⟨fun f => h.genv f, h.pre, h.nodup, h.ok, h.throws, fun fuse hf => ⟨trivial, h.needs fuse hf⟩, fun f hp W E A U err hS => ?_, fun _ _ h => (nomatch h),
    fun _ => ⟨fun _ _ h => (nomatch h), fun _ _ h => (nomatch h)⟩⟩
  exact (h.sem f (notMem_left hp) W E A U err hS).bind fun v => .refl _

theorem ExOK.dec (h : ExOK I D F C N known n outer e e' env nd env2) (hD : D) :
    ExOK I D F C N known n outer (.dec e) (.dec e') env (.send "-".toList nd (.cons (.lit (.int 1)) .nil)) env2 := by
  refine ⟨fun f => h.genv f, h.pre, h.nodup, ⟨h.ok, trivial, trivial⟩, fun ht => ?_, fun fuse hf => ⟨trivial, h.needs fuse hf⟩, fun f hp W E A U err hS => ?_, fun _ _ h => (nomatch h),
    fun _ => ⟨fun _ _ h => (nomatch h), fun _ _ h => (nomatch h)⟩⟩
  · simp only [Node.throws, Nodes.throws, Bool.or_false] at ht
    exact h.throws ht
  · refine (h.sem f (notMem_left hp) W E A U err hS).bind fun v => .of_eq ?_
    simp only [Nodes.exec, Node.exec, Src.pure_bind]
    exact (hS.dec hD v).symm

theorem ExOK.superSend {sel : Sel} {r : Ex SBlock} {r' : Ex Meth} {as : Exs SBlock} {as' : Exs Meth} {ndr : Node} {nds : Nodes}
    (hr : ExOK I D F C N known n outer r r' env ndr env1) (has : ExsOK I D F C N known n outer as as' env1 nds env2) :
    ExOK I D F C N known n outer (.superSend sel r as) (.superSend sel r' as') env (.superSend sel ndr nds) env2 := by
  refine ⟨fun f => ?_, hr.pre.trans has.pre, has.nodup hr.nodup, ⟨Node.ok_mono (Within.head has.pre) _ hr.ok, has.ok⟩, fun h => ?_, fun fuse hf => ⟨hr.needs fuse hf, has.needs fuse hf⟩,
    fun f hp W E A U err hS => ?_, fun _ _ h => (nomatch h), fun _ => ⟨fun _ _ h => (nomatch h), fun _ _ h => (nomatch h)⟩⟩
  · simp only [genEx]
    rw [hr.st f]
    exact has.genv _
  · simp only [Node.throws, Ex.throws, Bool.or_eq_true] at h ⊢
    exact h.imp hr.throws has.throws
  · simp only [genEx, SC.instrs] at hp
    simp only [Src.ex, hr.envEx]
    have hp2 := notMem_left (notMem_right hp)
    rw [hr.st f] at hp2
    exact (hr.sem f (notMem_left hp) W E A U err hS).bind fun v => has.sem _ hp2 W E A U err hS _ _ fun vs => .refl _

/-! ## Bodies -/

theorem tgt_possible (lvl : Nat) (t : Tgt) : impossible ≠ (t.popIns lvl : Ins Meth) := by
  cases t <;> (intro h; cases h)

theorem effOnly_possible {lvl : Nat} {e' : Ex Meth} {st : Bool × List Nat} {c : SC Meth} (h : effOnly (inliner n) lvl e' st = some c) (hp : impossible ∉ c.instrs) :
    impossible ∉ (genEx (inliner n) lvl e' st).1.instrs := by
  unfold effOnly at h
  split at h
  · rename_i t x
    split at h
    · cases h
      rename_i hst
      unfold genAsgEff at hp
      simp only [genEx, genAsg] at hst ⊢
      cases hfu : fusable t [] x with
      | some i =>
        rw [hfu] at hst
        have h2 : (genEx (inliner n) lvl x st).2.1 = false := by split at hst <;> exact hst
        rw [h2]
        intro hm
        simp only [SC.instrs, List.mem_singleton] at hm
        cases hm
      | none =>
        rw [hfu] at hp
        simp only [SC.instrs] at hp
        simp only [dupsSC, popsSC, SC.instrs, List.mem_append, List.mem_singleton, List.not_mem_nil, or_false, List.append_nil, not_or, List.length_nil]
        exact ⟨notMem_left hp, fun h => (nomatch h), tgt_possible lvl t⟩
    · cases h
  · cases h

theorem genStmt_possible {lvl : Nat} {e' : Ex Meth} {st : Bool × List Nat} (hp : impossible ∉ (genStmt (inliner n) lvl e' st).1.instrs) :
    impossible ∉ (genEx (inliner n) lvl e' st).1.instrs := by
  unfold genStmt at hp
  cases he : effOnly (inliner n) lvl e' st with
  | none => rw [he] at hp; exact notMem_left hp
  | some c => rw [he] at hp; exact effOnly_possible he hp

theorem genReturn_possible {lvl : Nat} {e' : Ex Meth} {st : Bool × List Nat} (hp : impossible ∉ (genReturn (inliner n) lvl e' st).instrs) :
    impossible ∉ (genEx (inliner n) lvl e' st).1.instrs := by
  unfold genReturn at hp
  split at hp
  · split at hp
    · intro hm
      simp only [genEx, SC.instrs, List.mem_singleton] at hm
      cases hm
    · exact notMem_left hp
  · exact notMem_left hp

theorem BodyOK.last {isBlock : Bool} (h : ExOK I D F C N known n outer e e' env nd env2) :
    BodyOK I D F C N n outer isBlock (.last e) (.last e') env (if isBlock then .cons nd .nil else .cons nd (.cons (.self 0) .nil)) env2 := by
  refine ⟨h.genv, h.pre, h.nodup, ?_, fun ht => ?_, h.needs, fun f hp W E A U err hS hself => ?_⟩
  · cases isBlock
    · exact ⟨h.ok, trivial, trivial⟩
    · exact ⟨h.ok, trivial⟩
  · refine h.throws ?_
    cases isBlock <;> simpa only [if_true, Bool.false_eq_true, if_false, Nodes.throws, Node.throws, Bool.or_false] using ht
  · cases isBlock with
    | true =>
      simp only [if_true, Nodes.execSeq, ends_eq]
      exact (h.sem f (notMem_left hp) W E A U err hS).bind fun v => .refl _
    | false =>
      have hp' : impossible ∉ (genEx (inliner n) outer.length e' (f, env)).1.instrs := by
        have hp := notMem_left hp
        cases he : effOnly (inliner n) outer.length e' (f, env) with
        | none => rw [he] at hp; exact hp
        | some c => rw [he] at hp; exact effOnly_possible he hp
      simp only [Nodes.execSeq, Bool.false_eq_true, if_false, ends_bind]
      refine (h.sem f hp' W E A U err hS).bind fun v => .of_eq ?_
      rw [ends_eq]
      exact congrArg (fun R => Src.bind R Src.answer) (hself rfl).symm

theorem BodyOK.done {isBlock : Bool} (hn : env.Nodup) : BodyOK I D F C N n outer isBlock .done .done env (if isBlock then .nil else .cons (.self 0) .nil) env := by
  refine ⟨fun _ => rfl, List.prefix_refl _, hn, ?_, fun ht => ?_, fun _ _ => trivial, fun f hp W E A U err hS hself => ?_⟩
  · cases isBlock
    · exact ⟨trivial, trivial⟩
    · trivial
  · cases isBlock <;> cases ht
  · cases isBlock with
    | true =>
      simp only [if_true, Nodes.execSeq, ends_eq, Src.pure_bind]
      exact .refl _
    | false =>
      simp only [Nodes.execSeq, Bool.false_eq_true, if_false, ends_eq]
      exact .of_eq (congrArg (fun R => Src.bind R Src.answer) (hself rfl).symm)

theorem BodyOK.exit {isBlock : Bool} (h : ExOK I D F C N known n outer e e' env nd env2) :
    BodyOK I D F C N n outer isBlock (.exit e) (.exit e') env (if isBlock then .cons (.retNL outer.length nd) .nil else .cons nd .nil) env2 := by
  refine ⟨h.genv, h.pre, h.nodup, ?_, fun ht => ?_, h.needs, fun f hp W E A U err hS hself => ?_⟩
  · cases isBlock
    · exact ⟨h.ok, trivial⟩
    · exact ⟨⟨rfl, h.ok⟩, trivial⟩
  · cases isBlock with
    | true => rfl
    | false =>
      simp only [Body.throws, Bool.false_or]
      simp only [Nodes.throws, Bool.false_eq_true, if_false, Bool.or_false] at ht
      exact h.throws ht
  · cases isBlock with
    | true =>
      simp only [if_true, Nodes.execSeq, Node.exec, ends_eq, Src.bind_assoc]
      exact (h.sem f (notMem_left hp) W E A U err hS).bind fun v => .refl _
    | false =>
      simp only [Nodes.execSeq, Bool.false_eq_true, if_false, ends_eq]
      exact (h.sem f (genReturn_possible hp) W E A U err hS).bind fun v => .refl _

theorem BodyOK.exitSelf (hn : env.Nodup) : BodyOK I D F C N n outer false .exitSelf .exitSelf env (.cons (.self 0) .nil) env := by
  refine ⟨fun _ => rfl, List.prefix_refl _, hn, ⟨trivial, trivial⟩, fun ht => (nomatch ht), fun _ _ => trivial, fun f hp W E A U err hS hself => ?_⟩
  simp only [Nodes.execSeq, ends_eq]
  exact .of_eq (congrArg (fun R => Src.bind R Src.answer) (hself rfl).symm)

theorem execSeq_cons {W E : Type} {A : World Nat W E} {U : Sel → Nat → Src.Rel W E} {err : Err → E} {nd : Node} {es : Nodes} (h : es ≠ .nil) :
    (Nodes.cons nd es).execSeq A U err = Src.bind (nd.exec A U err) fun _ => es.execSeq A U err := by
  cases es with
  | nil => exact absurd rfl h
  | cons f fs => rfl

theorem genBody_stmt {isBlock : Bool} {lvl : Nat} {rest : Body Meth} (h : rest ≠ .done) {st : Bool × List Nat} :
    genBody (inliner n) isBlock lvl (.stmt e' rest) st = .seq (genStmt (inliner n) lvl e' st).1 (genBody (inliner n) isBlock lvl rest (genStmt (inliner n) lvl e' st).2) := by
  cases rest with
  | done => exact absurd rfl h
  | last f => rfl
  | stmt f r => rfl
  | exit f => rfl
  | exitSelf => rfl

theorem BodyOK.stmt {isBlock : Bool} {rest : Body SBlock} {rest' : Body Meth} {es : Nodes} (h : ExOK I D F C N known n outer e e' env nd env1)
    (hr : BodyOK I D F C N n outer isBlock rest rest' env1 es env2) (hd : rest' = .done → es = if isBlock then .nil else .cons (.self 0) .nil) (hne : rest' ≠ .done → es ≠ .nil) :
    BodyOK I D F C N n outer isBlock (.stmt e rest) (.stmt e' rest') env (.cons nd es) env2 := by
  refine ⟨fun f => ?_, h.pre.trans hr.pre, hr.nodup, ⟨Node.ok_mono (Within.head hr.pre) _ h.ok, hr.ok⟩, fun ht => ?_, fun fuse hf => ⟨h.needs fuse hf, hr.needs fuse hf⟩,
    fun f hp W E A U err hS hself => ?_⟩
  · simp only [bodyEnv]
    rw [h.st f]
    exact hr.genv _
  · simp only [Nodes.throws, Body.throws, Bool.or_eq_true] at ht ⊢
    exact ht.imp h.throws hr.throws
  · by_cases hdone : rest' = .done
    · have := hd hdone
      subst hdone this
      cases isBlock with
      | true =>
        simp only [if_true, Nodes.execSeq, ends_eq]
        exact (h.sem f (notMem_left hp) W E A U err hS).bind fun v => .refl _
      | false =>
        simp only [Nodes.execSeq, Bool.false_eq_true, if_false, ends_bind]
        refine (h.sem f (genStmt_possible (notMem_left hp)) W E A U err hS).bind fun v => .of_eq ?_
        rw [ends_eq]
        exact congrArg (fun R => Src.bind R Src.answer) (hself rfl).symm
    · rw [genBody_stmt hdone] at hp
      rw [execSeq_cons (hne hdone), ends_bind, body_stmt hdone, h.envEx]
      refine (h.sem f (genStmt_possible (notMem_left hp)) W E A U err hS).bind fun v => ?_
      have hq := notMem_right hp
      have : (genStmt (inliner n) outer.length e' (f, env)).2 = ((genEx (inliner n) outer.length e' (f, env)).2.1, env1) := by
        rw [← h.genv f]; rfl
      rw [this] at hq
      exact hr.sem _ hq W E A U err hS hself

theorem ast_notNil {known : Sel → Bool} {alloc : LitTs → Val} {isBlock : Bool} {b : Body SBlock} {es : Nodes} (h : b.ast known alloc isBlock outer env = .ok (es, env2)) (hb : b ≠ .done) : es ≠ .nil := by
  cases b with
  | done => exact absurd rfl hb
  | last f =>
    simp only [Body.ast] at h
    obtain ⟨⟨x, y⟩, _, h⟩ := except_bind_ok h
    cases h
    split <;> exact fun h => nomatch h
  | exit f =>
    simp only [Body.ast] at h
    obtain ⟨⟨x, y⟩, _, h⟩ := except_bind_ok h
    cases h
    split <;> exact fun h => nomatch h
  | exitSelf => simp only [Body.ast] at h; cases h; exact fun h => nomatch h
  | stmt f g =>
    simp only [Body.ast] at h
    obtain ⟨⟨x, y⟩, _, h⟩ := except_bind_ok h
    obtain ⟨⟨z, u⟩, _, h⟩ := except_bind_ok h
    cases h
    exact fun h => nomatch h

/-- Fused assignments in code come from the source. -/
theorem build_fusable {t : Tgt} {ts : List Tgt} {lvl i : Nat} (hb : e.build known n lvl = .ok e') (h : fusable t ts e' = some i) : fuses (t :: ts) e := by
  obtain ⟨rfl, nm, nm', rfl, rfl⟩ := fusable_some h
  cases e <;> simp only [Ex.build] at hb
  case inc x =>
    obtain ⟨y, h1, h2⟩ := except_bind_ok hb
    cases h2
    cases x <;> simp only [Ex.build] at h1
    case fld => cases h1; exact ⟨nm, rfl⟩
    case send =>
      obtain ⟨x, _, h2⟩ := except_bind_ok h1
      obtain ⟨y, _, h3⟩ := except_bind_ok h2
      cases h3
    case superSend =>
      obtain ⟨x, _, h2⟩ := except_bind_ok h1
      obtain ⟨y, _, h3⟩ := except_bind_ok h2
      cases h3
    all_goals first | (cases h1; done) | (obtain ⟨x, _, h2⟩ := except_bind_ok h1; cases h2)
  case send =>
    obtain ⟨x, _, h2⟩ := except_bind_ok hb
    obtain ⟨y, _, h3⟩ := except_bind_ok h2
    cases h3
  case superSend =>
    obtain ⟨x, _, h2⟩ := except_bind_ok hb
    obtain ⟨y, _, h3⟩ := except_bind_ok h2
    cases h3
  all_goals first | (cases hb; done) | (obtain ⟨x, _, h2⟩ := except_bind_ok hb; cases h2)

/-! ## All sources -/

variable {alloc : LitTs → Val}

mutual
theorem Ex.same : ∀ (outer : List (List Nat)) (inner : Bool) (e : Ex SBlock) (e' : Ex Meth) (env : List Nat) (nd : Node) (env2 : List Nat), e.Wf → e.sids.Nodup →
    e.fair I D F C N inner → (outer.length = 0 ∨ inner = true) → env.Nodup → e.build known n outer.length = .ok e' → e.ast known alloc outer env = .ok (nd, env2) →
    ExOK I D F C N known n outer e e' env nd env2
  | outer, inner, .lit (.val v), e', env, nd, env2, hw, hi, hf, ho, hn, hb, ha => by
    simp only [Ex.build] at hb; cases hb
    simp only [Ex.ast] at ha; cases ha
    exact .simple hn (fun _ => rfl) trivial rfl (fun _ => trivial) (fun _ _ h => nomatch h) (fun _ _ h => nomatch h) (fun _ _ h => nomatch h) fun _ _ _ _ _ _ => rfl
  | outer, inner, .lit (.arr es), e', env, nd, env2, hw, hi, hf, ho, hn, hb, ha => by
    simp only [Ex.fair] at hf
  | outer, inner, .glob g, e', env, nd, env2, hw, hi, hf, ho, hn, hb, ha => by
    simp only [Ex.build] at hb; cases hb
    simp only [Ex.ast] at ha; cases ha
    refine .simple hn (fun _ => rfl) (globNode_ok _ _ _ rfl) (globNode_throws _ _ _) (fun _ => trivial) (fun _ _ h => nomatch h) (fun _ _ h => nomatch h) (fun c m h => ?_) fun W E A U err hS => ?_
    · have := globNode_leaf (known := known) outer.length g
      rw [h] at this; cases this
    · exact globNode_exec hS known g
  | outer, inner, .var a i l, e', env, nd, env2, hw, hi, hf, ho, hn, hb, ha => by
    simp only [Ex.build] at hb; cases hb
    cases a with
    | true =>
      simp only [Ex.ast] at ha; cases ha
      by_cases h0 : i = 0
      · subst h0
        exact .simple hn (fun _ => rfl) trivial rfl (fun _ => trivial) (fun _ _ h => nomatch h) (fun _ _ h => nomatch h) (fun _ _ h => nomatch h) fun _ _ _ _ _ _ => rfl
      · rw [if_neg h0]
        exact .simple hn (fun _ => rfl) trivial rfl (fun _ => trivial) (fun _ _ h => nomatch h) (fun _ _ h => nomatch h) (fun _ _ h => nomatch h) fun _ _ _ _ _ _ => rfl
    | false =>
      simp only [Ex.ast] at ha
      obtain ⟨x, hx, h2⟩ := except_bind_ok ha
      cases h2
      exact .simple hn (fun _ => rfl) (sourceOf_ok hx) rfl (fun _ => trivial) (fun _ _ h => nomatch h) (fun _ _ h => nomatch h) (fun _ _ h => nomatch h) fun _ _ _ _ _ _ => rfl
  | outer, inner, .fld g i, e', env, nd, env2, hw, hi, hf, ho, hn, hb, ha => by
    simp only [Ex.build] at hb; cases hb
    simp only [Ex.ast] at ha; cases ha
    exact .simple hn (fun _ => rfl) rfl rfl (fun _ => trivial) (fun _ _ h => nomatch h) (fun _ _ h => nomatch h) (fun _ _ h => nomatch h) fun _ _ _ _ _ _ => rfl
  | outer, inner, .blk c s, e', env, nd, env2, hw, hi, hf, ho, hn, hb, ha => by
    simp only [Ex.build] at hb
    obtain ⟨m, hm, h2⟩ := except_bind_ok hb
    cases h2
    simp only [Ex.ast] at ha
    obtain ⟨am, hm', h2⟩ := except_bind_ok ha
    cases h2
    simp only [Ex.Wf, Ex.sids, Ex.fair] at hw hi hf
    have hbk := SBlock.same outer s m env am hw hi hf.1 (fun ht => ho.imp id fun h => hf.2 h ht) hm hm'
    refine ⟨fun _ => rfl, List.prefix_refl _, hn, trivial, fun h => (nomatch h), fun _ _ => trivial, fun f hp W E A U err hS => ?_, ?_, fun h => absurd rfl (h c s)⟩
    · refine .of_eq ?_
      show Src.act A (.mkBlock _ am.id) = Src.act A (.mkBlock _ m.id)
      rw [hbk.id]
    · intro c1 s1 h1
      cases h1
      exact ⟨_, _, _, rfl, rfl, rfl, hbk⟩
  | outer, inner, .asg t ts e, e', env, nd, env2, hw, hi, hf, ho, hn, hb, ha => by
    simp only [Ex.build] at hb
    obtain ⟨e1, h1, h2⟩ := except_bind_ok hb
    cases h2
    simp only [Ex.ast] at ha
    obtain ⟨⟨x, y⟩, h3, h4⟩ := except_bind_ok ha
    obtain ⟨z, hz, h5⟩ := except_bind_ok h4
    cases h5
    simp only [Ex.Wf, Ex.sids, Ex.fair] at hw hi hf
    have := Ex.same outer inner e e1 env x _ hw hi hf.1 ho hn h1 h3
    refine this.asg hz (fun nm j l hx hl => ?_) (fun i hi => hf.2.2 (build_fusable h1 hi)) hf.2.1
    subst hx
    exact hf.2.2 (ast_incFld hf.1 h3 ⟨nm, hl⟩)
  | outer, inner, .inc e, e', env, nd, env2, hw, hi, hf, ho, hn, hb, ha => by
    simp only [Ex.build] at hb
    obtain ⟨e1, h1, h2⟩ := except_bind_ok hb
    cases h2
    simp only [Ex.ast] at ha
    obtain ⟨⟨x, y⟩, h3, h4⟩ := except_bind_ok ha
    cases h4
    simp only [Ex.Wf, Ex.sids, Ex.fair] at hw hi hf
    exact (Ex.same outer inner e e1 env x _ hw hi hf ho hn h1 h3).inc
  | outer, inner, .dec e, e', env, nd, env2, hw, hi, hf, ho, hn, hb, ha => by
    simp only [Ex.build] at hb
    obtain ⟨e1, h1, h2⟩ := except_bind_ok hb
    cases h2
    simp only [Ex.ast] at ha
    obtain ⟨⟨x, y⟩, h3, h4⟩ := except_bind_ok ha
    cases h4
    simp only [Ex.Wf, Ex.sids, Ex.fair] at hw hi hf
    exact (Ex.same outer inner e e1 env x _ hw hi hf.1 ho hn h1 h3).dec hf.2
  | outer, inner, .send sel r as, e', env, nd, env2, hw, hi, hf, ho, hn, hb, ha => by
    simp only [Ex.build] at hb
    obtain ⟨r1, h1, h2⟩ := except_bind_ok hb
    obtain ⟨as1, h3, h4⟩ := except_bind_ok h2
    cases h4
    simp only [Ex.ast] at ha
    obtain ⟨⟨x, y⟩, h5, h6⟩ := except_bind_ok ha
    obtain ⟨⟨z, u⟩, h7, h8⟩ := except_bind_ok h6
    simp only [Ex.Wf, Ex.sids, Ex.fair, List.nodup_append] at hw hi hf
    have hr := Ex.same outer inner r r1 env x y hw.1 hi.1 hf.1 ho hn h1 h5
    have has := Exs.same outer inner as as1 y z u hw.2.1 hi.2.1 hf.2.1 ho hr.nodup h3 h7
    refine hr.send has h8 fun hs hz => ?_
    subst hz
    have := asts_one hf.2.1 h7
    subst this
    refine ⟨hf.2.2 hs rfl, ?_⟩
    simp only [Exs.build, Ex.build] at h3
    cases h3; rfl
  | outer, inner, .superSend sel r as, e', env, nd, env2, hw, hi, hf, ho, hn, hb, ha => by
    simp only [Ex.build] at hb
    obtain ⟨r1, h1, h2⟩ := except_bind_ok hb
    obtain ⟨as1, h3, h4⟩ := except_bind_ok h2
    cases h4
    simp only [Ex.ast] at ha
    obtain ⟨⟨x, y⟩, h5, h6⟩ := except_bind_ok ha
    obtain ⟨⟨z, u⟩, h7, h8⟩ := except_bind_ok h6
    cases h8
    simp only [Ex.Wf, Ex.sids, Ex.fair, List.nodup_append] at hw hi hf
    have hr := Ex.same outer inner r r1 env x y hw.1 hi.1 hf.1 ho hn h1 h5
    exact hr.superSend (Exs.same outer inner as as1 y z _ hw.2.1 hi.2.1 hf.2 ho hr.nodup h3 h7)
theorem Exs.same : ∀ (outer : List (List Nat)) (inner : Bool) (es : Exs SBlock) (es' : Exs Meth) (env : List Nat) (nds : Nodes) (env2 : List Nat), es.Wf → es.sids.Nodup →
    es.fair I D F C N inner → (outer.length = 0 ∨ inner = true) → env.Nodup → es.build known n outer.length = .ok es' → es.ast known alloc outer env = .ok (nds, env2) →
    ExsOK I D F C N known n outer es es' env nds env2
  | outer, inner, .nil, es', env, nds, env2, hw, hi, hf, ho, hn, hb, ha => by
    simp only [Exs.build] at hb; cases hb
    simp only [Exs.ast] at ha; cases ha
    exact .nil _
  | outer, inner, .cons e es, es', env, nds, env2, hw, hi, hf, ho, hn, hb, ha => by
    simp only [Exs.build] at hb
    obtain ⟨r1, h1, h2⟩ := except_bind_ok hb
    obtain ⟨as1, h3, h4⟩ := except_bind_ok h2
    cases h4
    simp only [Exs.ast] at ha
    obtain ⟨⟨x, y⟩, h5, h6⟩ := except_bind_ok ha
    obtain ⟨⟨z, u⟩, h7, h8⟩ := except_bind_ok h6
    cases h8
    simp only [Exs.Wf, Exs.sids, Exs.fair, List.nodup_append] at hw hi hf
    have hr := Ex.same outer inner e r1 env x y hw.1 hi.1 hf.1 ho hn h1 h5
    exact .cons hr (Exs.same outer inner es as1 y z _ hw.2 hi.2.1 hf.2 ho hr.nodup h3 h7)
theorem Body.same : ∀ (outer : List (List Nat)) (inner isBlock : Bool) (b : Body SBlock) (b' : Body Meth) (env : List Nat) (es : Nodes) (env2 : List Nat), b.Wf → b.fits isBlock →
    b.sids.Nodup → b.fair I D F C N inner → (outer.length = 0 ∨ inner = true) → env.Nodup → b.build known n outer.length = .ok b' →
    b.ast known alloc isBlock outer env = .ok (es, env2) → BodyOK I D F C N n outer isBlock b b' env es env2
  | outer, inner, isBlock, .done, b', env, es, env2, hw, hfit, hi, hf, ho, hn, hb, ha => by
    simp only [Body.build] at hb; cases hb
    simp only [Body.ast] at ha; cases ha
    exact .done hn
  | outer, inner, isBlock, .exitSelf, b', env, es, env2, hw, hfit, hi, hf, ho, hn, hb, ha => by
    simp only [Body.fits] at hfit
    subst hfit
    simp only [Body.build] at hb; cases hb
    simp only [Body.ast] at ha; cases ha
    exact .exitSelf hn
  | outer, inner, isBlock, .last e, b', env, es, env2, hw, hfit, hi, hf, ho, hn, hb, ha => by
    simp only [Body.build] at hb
    obtain ⟨e1, h1, h2⟩ := except_bind_ok hb
    cases h2
    simp only [Body.ast] at ha
    obtain ⟨⟨x, y⟩, h3, h4⟩ := except_bind_ok ha
    cases h4
    simp only [Body.Wf, Body.sids, Body.fair] at hw hi hf
    exact .last (Ex.same outer inner e e1 env x _ hw hi hf ho hn h1 h3)
  | outer, inner, isBlock, .exit e, b', env, es, env2, hw, hfit, hi, hf, ho, hn, hb, ha => by
    simp only [Body.build] at hb
    obtain ⟨e1, h1, h2⟩ := except_bind_ok hb
    cases h2
    simp only [Body.ast] at ha
    obtain ⟨⟨x, y⟩, h3, h4⟩ := except_bind_ok ha
    cases h4
    simp only [Body.Wf, Body.sids, Body.fair] at hw hi hf
    exact .exit (Ex.same outer inner e e1 env x _ hw hi hf ho hn h1 h3)
  | outer, inner, isBlock, .stmt e rest, b', env, es, env2, hw, hfit, hi, hf, ho, hn, hb, ha => by
    simp only [Body.build] at hb
    obtain ⟨e1, h1, h2⟩ := except_bind_ok hb
    obtain ⟨b1, h3, h4⟩ := except_bind_ok h2
    cases h4
    simp only [Body.ast] at ha
    obtain ⟨⟨x, y⟩, h5, h6⟩ := except_bind_ok ha
    obtain ⟨⟨z, u⟩, h7, h8⟩ := except_bind_ok h6
    cases h8
    simp only [Body.Wf, Body.sids, Body.fair, List.nodup_append] at hw hi hf
    have hr := Ex.same outer inner e e1 env x y hw.1 hi.1 hf.1 ho hn h1 h5
    refine .stmt hr (Body.same outer inner isBlock rest b1 y z _ hw.2 hfit hi.2.1 hf.2 ho hr.nodup h3 h7) (fun hd => ?_) (fun hd => ?_)
    · subst hd
      cases rest <;> simp only [Body.build] at h3
      · simp only [Body.ast] at h7; cases h7; rfl
      all_goals first | (cases h3; done) | (obtain ⟨x, _, h9⟩ := except_bind_ok h3; first | (cases h9; done) | (obtain ⟨x, _, h9⟩ := except_bind_ok h9; cases h9))
    · exact ast_notNil h7 fun h => by
        subst h
        simp only [Body.build] at h3; cases h3
        exact hd rfl
theorem SBlock.same : ∀ (outer : List (List Nat)) (s : SBlock) (m : Meth) (env : List Nat) (am : AMeth), s.Wf → s.sids.Nodup → s.fair I D F C N →
    (s.throws = true → outer.length = 0 ∨ N) → s.compile known n outer.length = .ok m → s.ast known alloc (env :: outer) = .ok am → BlkOK I D F C N known n outer env s m am
  | outer, .mk id args env0 b, m, env, am, hw, hi, hf, ht, hm, ha => by
    have hcomp := SBlock.compile_ok known n outer.length _ m hw hi hm
    simp only [SBlock.compile] at hm
    obtain ⟨b1, h1, h2⟩ := except_bind_ok hm
    simp only [SBlock.ast] at ha
    obtain ⟨⟨es, env2⟩, h3, h4⟩ := except_bind_ok ha
    simp only [SBlock.Wf, SBlock.sids, SBlock.fair, SBlock.throws, List.nodup_cons] at hw hi hf ht
    have hB := Body.build_ok known n (outer.length + 1) b b1 hw.1 hi.2 h1
    have hok : BlksOK (outer.length + 1) b1.blks := ⟨fun c m hm => (hB.blocks c m hm).good, fun m hm => (hB.closed m hm).sound _ (hB.blocks _ m hm).good.1⟩
    refine BlkOK.of_body h1 hB.wf (Body.build_fits known n true _ _ _ h1 hw.2) hok hcomp.2.1.tail h2 h3 ?_ hf.2.1 hf.1
      (Body.same (env :: outer) true true b b1 env0 es env2 hw.1 hw.2 hi.2 hf.1 (.inr rfl) hf.2.2 h1 h3) ht
    dsimp only at h4
    split at h4
    · rename_i heq; cases h4; rw [heq]
    · rename_i heq; cases h4; rw [heq]
end

end
end PySOM.BC

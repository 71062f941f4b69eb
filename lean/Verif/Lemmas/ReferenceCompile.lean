import Verif.Lemmas.ReferenceMain
/-!
# The compiler makes translations: expressions, statements and blocks
-/
set_option autoImplicit false
namespace PySOM.BC
open PySOM

/-- The scopes of nested methods and blocks that all have activations of their own: `vs` are the variables declared in them, and `outer` those the compiler knows so far. -/
inductive Chain : List (List Nat) → List (List Nat) → Areas → Prop where
  | nil : Chain [] [] []
  | cons (vars env slots : List Nat) (vs outer : List (List Nat)) (σ : Areas) (hn : vars.Nodup) (hv : vars <+: env) (he : env <+: slots) (h : Chain vs outer σ) :
      Chain (vars :: vs) (env :: outer) (⟨true, vars, slots⟩ :: σ)

theorem Chain.count {vs outer : List (List Nat)} {σ : Areas} (h : Chain vs outer σ) : σ.countP (·.frame) = outer.length := by
  induction h with
  | nil => rfl
  | cons vars env slots vs outer σ hn hv he h ih => rw [List.countP_cons, ih]; rfl

theorem Chain.depth {vs outer : List (List Nat)} {env : List Nat} {σ : Areas} (h : Chain vs (env :: outer) σ) : depth σ = outer.length := by
  unfold BC.depth
  rw [h.count]; rfl

theorem Chain.hops {vs outer : List (List Nat)} {σ : Areas} (h : Chain vs outer σ) (l : Nat) : hops σ l = l := by
  induction h generalizing l with
  | nil => rfl
  | cons vars env slots vs outer σ hn hv he h ih =>
    cases l with
    | zero => rfl
    | succ l => simp only [BC.hops, if_true, ih]

theorem Chain.slot {vs outer : List (List Nat)} {σ : Areas} (h : Chain vs outer σ) {i l s : Nat} (hb : ∃ v, vs[l]? = some v ∧ i < v.length) (hs : sourceOf outer i l = .ok s) : InSlot σ i l s i := by
  obtain ⟨v, hv, hi⟩ := hb
  obtain ⟨ls, hl, hls⟩ := sourceOf_ok hs
  induction h generalizing l with
  | nil => cases hv
  | cons vars env slots vs outer σ hn hp he h ih =>
    cases l with
    | zero =>
      cases hl
      have hvv : vars = v := by simpa using hv
      subst hvv
      have hd : vars[i]? = some s := by
        obtain ⟨zs, rfl⟩ := hp
        rw [List.getElem?_append_left hi] at hls
        exact hls
      exact ⟨hd, firstIdx_prefix he (firstIdx_prefix hp (firstIdx_nodup hn hd))⟩
    | succ l =>
      have hs' : sourceOf outer i l = .ok s := hs
      exact ih hs' hv hl

section
variable {known : Sel → Bool} {alloc : LitTs → Val}

theorem writeNode_tr {vs outer : List (List Nat)} {env : List Nat} {σ : Areas} (h : Chain vs (env :: outer) σ) {x n : Node} {t : Tgt} (hb : t.bound vs) (hx : ∀ i l, x = .inc (.fld i l) → l = depth σ)
    (hw : writeNode (env :: outer) outer.length x t = .ok n) : trTgt σ x t n := by
  rcases t with ⟨nm, _ | _, i, l⟩ | ⟨nm, i⟩
  · simp only [writeNode] at hw
    obtain ⟨s, hs, hw⟩ := except_bind_ok hw
    cases hw
    exact ⟨s, i, h.slot hb hs, by rw [h.hops]⟩
  · simp only [writeNode] at hw
    cases hw
    simp only [trTgt, h.hops]
  · simp only [writeNode] at hw
    simp only [trTgt, h.depth]
    split at hw
    · rename_i j l'
      have := hx j l' rfl
      rw [h.depth] at this
      subst this
      split at hw
      · rename_i hij
        subst hij
        cases hw
        exact .inr ⟨rfl, rfl⟩
      · cases hw; exact .inl rfl
    · cases hw; exact .inl rfl

theorem writeNodes_tr {vs outer : List (List Nat)} {env : List Nat} {σ : Areas} (h : Chain vs (env :: outer) σ) {x : Node} (hx : ∀ i l, x = .inc (.fld i l) → l = depth σ) :
    ∀ (ts : List Tgt) (n : Node), (∀ u ∈ ts, u.bound vs) → writeNodes (env :: outer) outer.length x ts = .ok n → trTgts σ x ts n ∧ ∀ i l, n = .inc (.fld i l) → l = depth σ
  | [], n, _, hw => by cases hw; exact ⟨rfl, hx⟩
  | t :: ts, n, hb, hw => by
    simp only [writeNodes] at hw
    obtain ⟨y, hy, hw⟩ := except_bind_ok hw
    have := writeNodes_tr h hx ts y (fun u hu => hb u (List.mem_cons_of_mem _ hu)) hy
    have h2 := writeNode_tr h (hb t List.mem_cons_self) this.2 hw
    exact ⟨⟨y, this.1, h2⟩, fun i l hn => absurd hn ((trTgt_shape h2).2.1 _)⟩

theorem exs_tr_one {σ : Areas} {as : Exs SBlock} {q : Bool} {m : AMeth} (h : as.tr known σ (.cons (.blk q m) .nil)) : ∃ c s, as = .cons (.blk c s) .nil := by
  cases as with
  | nil => simp only [Exs.tr] at h; cases h
  | cons e es =>
    simp only [Exs.tr] at h
    obtain ⟨x, xs, h1, h2, h3⟩ := h
    cases h3
    cases es with
    | cons => simp only [Exs.tr] at h2; obtain ⟨_, _, _, _, h⟩ := h2; cases h
    | nil =>
      have := (tr_shape h1).2.2.2
      cases e with
      | blk c s => exact ⟨c, s, rfl⟩
      | lit v => cases this
      | glob g => cases this
      | fld n i => cases this
      | var a i l =>
        cases a <;> simp only [Ex.tr] at h1
        · obtain ⟨_, _, _, h⟩ := h1; cases h
        · split at h1 <;> cases h1
      | asg t ts e =>
        simp only [Ex.tr, trTgts] at h1
        obtain ⟨x, _, y, _, h⟩ := h1
        rcases t with ⟨nm, _ | _, i, l⟩ | ⟨nm, i⟩ <;> simp only [trTgt] at h
        · obtain ⟨_, _, _, h⟩ := h; cases h
        · cases h
        · rcases h with h | ⟨_, h⟩ <;> cases h
      | inc e => simp only [Ex.tr] at h1; obtain ⟨_, _, h⟩ := h1; cases h
      | dec e => simp only [Ex.tr] at h1; obtain ⟨_, _, h⟩ := h1; cases h
      | superSend => simp only [Ex.tr] at h1; obtain ⟨_, _, _, _, h⟩ := h1; cases h
      | send sel r as =>
        simp only [Ex.tr] at h1
        split at h1
        · obtain ⟨x, xs, _, _, ⟨_, _, _, _, h⟩ | ⟨_, _, _, _, _, h⟩⟩ := h1 <;> cases h
        · obtain ⟨x, xs, _, _, h⟩ := h1
          cases h
        · obtain ⟨x, xs, hx, _, h | ⟨_, _, h⟩⟩ := h1 <;> cases h

theorem ex_tr_blk {σ : Areas} {e : Ex SBlock} {q : Bool} {m : AMeth} (h : e.tr known σ (.blk q m)) : ∃ c s, e = .blk c s := by
  obtain ⟨c, s, h⟩ := exs_tr_one (known := known) (σ := σ) (as := .cons e .nil) (q := q) (m := m) (by simp only [Exs.tr]; exact ⟨_, _, h, rfl, rfl⟩)
  cases h
  exact ⟨c, s, rfl⟩

theorem exs_tr_two {σ : Areas} {as : Exs SBlock} {q1 q2 : Bool} {m1 m2 : AMeth} (h : as.tr known σ (.cons (.blk q1 m1) (.cons (.blk q2 m2) .nil))) :
    ∃ c1 s1 c2 s2, as = .cons (.blk c1 s1) (.cons (.blk c2 s2) .nil) := by
  cases as with
  | nil => simp only [Exs.tr] at h; cases h
  | cons e es =>
    simp only [Exs.tr] at h
    obtain ⟨x, xs, h1, h2, h3⟩ := h
    cases h3
    obtain ⟨c1, s1, rfl⟩ := ex_tr_blk h1
    obtain ⟨c2, s2, rfl⟩ := exs_tr_one h2
    exact ⟨c1, s1, c2, s2, rfl⟩

theorem blk_tr_inv {σ : Areas} {c q : Bool} {s : SBlock} {m : AMeth} (h : (Ex.blk c s).tr known σ (.blk q m)) : s.tr known σ m := by
  simp only [Ex.tr] at h
  obtain ⟨m', h, h'⟩ := h
  cases h'
  exact h

theorem prefix_app {a b c : List Nat} (h : a ++ b <+: c) : a <+: c := (List.prefix_append a b).trans h

section
variable {I D F C N : Prop}
mutual
theorem Ex.ast_tr : ∀ (inner : Bool) (vs outer : List (List Nat)) (vars : List Nat) (e : Ex SBlock) (env env2 : List Nat) (n : Node), e.bound (vars :: vs) → e.fair I D F C N inner → vars.Nodup →
    vars <+: env → (∃ σ, Chain vs outer σ) → e.ast known alloc outer env = .ok (n, env2) →
    env2 = env ++ e.hoist ∧ ∀ slots σ, env2 <+: slots → Chain vs outer σ → e.tr known (⟨true, vars, slots⟩ :: σ) n
  | inner, vs, outer, vars, .lit (.val v), env, env2, n, hb, hf, hn, hv, hσ, h => by
    simp only [Ex.ast] at h; cases h
    exact ⟨by simp only [Ex.hoist, List.append_nil], fun slots σ hs hc => by simp only [Ex.tr]⟩
  | inner, vs, outer, vars, .lit (.arr a), env, env2, n, hb, hf, hn, hv, hσ, h => by simp only [Ex.fair] at hf
  | inner, vs, outer, vars, .glob g, env, env2, n, hb, hf, hn, hv, hσ, h => by
    simp only [Ex.ast] at h; cases h
    exact ⟨by simp only [Ex.hoist, List.append_nil], fun slots σ hs hc => by simp only [Ex.tr]; exact ⟨_, rfl⟩⟩
  | inner, vs, outer, vars, .var true i l, env, env2, n, hb, hf, hn, hv, hσ, h => by
    simp only [Ex.ast] at h; cases h
    exact ⟨by simp only [Ex.hoist, List.append_nil], fun slots σ hs hc => by
      simp only [Ex.tr]; rw [(Chain.cons vars env slots vs outer σ hn hv hs hc).hops]⟩
  | inner, vs, outer, vars, .var false i l, env, env2, n, hb, hf, hn, hv, hσ, h => by
    simp only [Ex.ast] at h
    obtain ⟨s, hs, h⟩ := except_bind_ok h
    cases h
    refine ⟨by simp only [Ex.hoist, List.append_nil], fun slots σ hp hc => ?_⟩
    have hch := Chain.cons vars env slots vs outer σ hn hv hp hc
    simp only [Ex.bound] at hb
    simp only [Ex.tr]
    exact ⟨s, i, hch.slot hb hs, by rw [hch.hops]⟩
  | inner, vs, outer, vars, .fld nm i, env, env2, n, hb, hf, hn, hv, hσ, h => by
    simp only [Ex.ast] at h; cases h
    exact ⟨by simp only [Ex.hoist, List.append_nil], fun slots σ hs hc => by
      simp only [Ex.tr]; rw [(Chain.cons vars env slots vs outer σ hn hv hs hc).depth]⟩
  | inner, vs, outer, vars, .blk c s, env, env2, n, hb, hf, hn, hv, hσ, h => by
    simp only [Ex.ast] at h
    obtain ⟨m, hm, h⟩ := except_bind_ok h
    cases h
    simp only [Ex.bound] at hb
    simp only [Ex.fair] at hf
    refine ⟨by simp only [Ex.hoist, List.append_nil], fun slots σ hp hc => ?_⟩
    simp only [Ex.tr]
    have hch := Chain.cons vars env slots vs outer σ hn hv hp hc
    exact ⟨m, SBlock.ast_tr (vars :: vs) (env :: outer) s m hb hf.1 (by simp) ⟨_, hch⟩ hm _ hch, rfl⟩
  | inner, vs, outer, vars, .asg t ts e, env, env2, n, hb, hf, hn, hv, hσ, h => by
    simp only [Ex.ast] at h
    obtain ⟨⟨x, env1⟩, hx, h⟩ := except_bind_ok h
    obtain ⟨y, hy, h⟩ := except_bind_ok h
    cases h
    simp only [Ex.bound] at hb
    simp only [Ex.fair] at hf
    obtain ⟨h1, h2⟩ := Ex.ast_tr inner vs outer vars e env env1 x hb.1 hf.1 hn hv hσ hx
    refine ⟨by simpa only [Ex.hoist] using h1, fun slots σ hp hc => ?_⟩
    have hch := Chain.cons vars env1 slots vs outer σ hn (h1 ▸ hv.trans (List.prefix_append _ _)) hp hc
    have h3 := h2 slots σ hp hc
    simp only [Ex.tr]
    exact ⟨x, h3, (writeNodes_tr hch (fun i l (he : x = .inc (.fld i l)) => tr_incFld (he ▸ h3)) (t :: ts) n hb.2 hy).1⟩
  | inner, vs, outer, vars, .inc e, env, env2, n, hb, hf, hn, hv, hσ, h => by
    simp only [Ex.ast] at h
    obtain ⟨⟨x, env1⟩, hx, h⟩ := except_bind_ok h
    cases h
    simp only [Ex.bound] at hb
    simp only [Ex.fair] at hf
    obtain ⟨h1, h2⟩ := Ex.ast_tr inner vs outer vars e env env1 x hb hf hn hv hσ hx
    exact ⟨by simpa only [Ex.hoist] using h1, fun slots σ hp hc => by simp only [Ex.tr]; exact ⟨x, h2 slots σ hp hc, rfl⟩⟩
  | inner, vs, outer, vars, .dec e, env, env2, n, hb, hf, hn, hv, hσ, h => by
    simp only [Ex.ast] at h
    obtain ⟨⟨x, env1⟩, hx, h⟩ := except_bind_ok h
    cases h
    simp only [Ex.bound] at hb
    simp only [Ex.fair] at hf
    obtain ⟨h1, h2⟩ := Ex.ast_tr inner vs outer vars e env env1 x hb hf.1 hn hv hσ hx
    exact ⟨by simpa only [Ex.hoist] using h1, fun slots σ hp hc => by simp only [Ex.tr]; exact ⟨x, h2 slots σ hp hc, rfl⟩⟩
  | inner, vs, outer, vars, .superSend sel r as, env, env2, n, hb, hf, hn, hv, hσ, h => by
    simp only [Ex.ast] at h
    obtain ⟨⟨x, env1⟩, hx, h⟩ := except_bind_ok h
    obtain ⟨⟨xs, env3⟩, hxs, h⟩ := except_bind_ok h
    cases h
    simp only [Ex.bound] at hb
    simp only [Ex.fair] at hf
    obtain ⟨h1, h2⟩ := Ex.ast_tr inner vs outer vars r env env1 x hb.1 hf.1 hn hv hσ hx
    subst h1
    obtain ⟨h3, h4⟩ := Exs.ast_tr inner vs outer vars as _ env3 xs hb.2 hf.2 hn (hv.trans (List.prefix_append _ _)) hσ hxs
    subst h3
    exact ⟨by simp only [Ex.hoist, List.append_assoc], fun slots σ hp hc => by
      simp only [Ex.tr]; exact ⟨x, xs, h2 slots σ (prefix_app hp) hc, h4 slots σ hp hc, rfl⟩⟩
  | inner, vs, outer, vars, .send sel r as, env, env2, n, hb, hf, hn, hv, hσ, h => by
    simp only [Ex.ast] at h
    obtain ⟨⟨x, env1⟩, hx, h⟩ := except_bind_ok h
    obtain ⟨⟨xs, env3⟩, hxs, h⟩ := except_bind_ok h
    dsimp only at h
    simp only [Ex.bound] at hb
    simp only [Ex.fair] at hf
    obtain ⟨h1, h2⟩ := Ex.ast_tr inner vs outer vars r env env1 x hb.1 hf.1 hn hv hσ hx
    have hsh := send_shape hx hxs h
    subst h1
    have hv1 : vars <+: env ++ r.hoist := hv.trans (List.prefix_append _ _)
    obtain ⟨h3, h4⟩ := Exs.ast_tr inner vs outer vars as _ env3 xs hb.2 hf.2.1 hn hv1 hσ hxs
    subst h3
    obtain ⟨σ0, hσ0⟩ := hσ
    have h20 := h2 _ σ0 (List.prefix_refl _) hσ0
    have h40 := h4 _ σ0 (List.prefix_refl _) hσ0
    have hcount : ∀ slots σ, Chain vs outer σ → 0 < (⟨true, vars, slots⟩ :: σ : Areas).countP (·.frame) := fun slots σ _ => by rw [List.countP_cons]; simp
    have hdepth : ∀ slots σ, Chain vs outer σ → depth (⟨true, vars, slots⟩ :: σ) = outer.length := fun slots σ hc => by
      unfold BC.depth; rw [List.countP_cons, hc.count]; rfl
    rcases hsh with ⟨c, k, q, m, a, hs, hk, rfl, hm, rfl⟩ | ⟨c, k, q1, m1, q2, m2, a, env4, b, hs, hk, rfl, hm1, hm2, rfl⟩ |
      ⟨w, q1, m1, q2, m2, a, env4, b, hs, rfl, rfl, hm1, hm2, rfl⟩ | ⟨hs, rfl, hp⟩
    · obtain ⟨c', s, rfl⟩ := exs_tr_one h40
      simp only [Ex.hoist, Ex.tr, hs]
      have blk : ∀ slots σ, (env ++ r.hoist ++ (Exs.cons (.blk c' s) .nil).hoist) <+: slots → Chain vs outer σ → s.tr known (⟨true, vars, slots⟩ :: σ) m := fun slots σ hp hc => by
        have := h4 slots σ hp hc
        simp only [Exs.tr] at this
        obtain ⟨_, _, h, _, he⟩ := this
        cases he
        exact blk_tr_inv h
      have he := inline_env (blk _ σ0 (List.prefix_refl _) hσ0) hm
      subst he
      refine ⟨by simp only [Exs.hoist, Ex.hoist, Exs.inVars, Ex.inVars, List.append_nil, List.append_assoc], fun slots σ hp hc => ?_⟩
      refine ⟨x, .cons a .nil, h2 slots σ (prefix_app (prefix_app hp)) hc, ?_, .inl ⟨k, a, hk, rfl, rfl⟩⟩
      simp only [Exs.trIn, Ex.trIn]
      exact ⟨a, .nil, inline_trIn (blk slots σ (prefix_app hp) hc) hm hp (hdepth slots σ hc) (hcount slots σ hc), rfl, rfl⟩
    · obtain ⟨c1, s1, c2, s2, rfl⟩ := exs_tr_two h40
      simp only [Ex.hoist, Ex.tr, hs]
      have blk : ∀ slots σ, (env ++ r.hoist ++ (Exs.cons (.blk c1 s1) (.cons (.blk c2 s2) .nil)).hoist) <+: slots → Chain vs outer σ →
          s1.tr known (⟨true, vars, slots⟩ :: σ) m1 ∧ s2.tr known (⟨true, vars, slots⟩ :: σ) m2 := fun slots σ hp hc => by
        have := h4 slots σ hp hc
        simp only [Exs.tr] at this
        obtain ⟨_, _, h, ⟨_, _, h', _, he'⟩, he⟩ := this
        cases he
        cases he'
        exact ⟨blk_tr_inv h, blk_tr_inv h'⟩
      have he := inline_env (blk _ σ0 (List.prefix_refl _) hσ0).1 hm1
      subst he
      have he := inline_env (blk _ σ0 (List.prefix_refl _) hσ0).2 hm2
      subst he
      refine ⟨by simp only [Exs.hoist, Ex.hoist, Exs.inVars, Ex.inVars, List.append_nil, List.append_assoc], fun slots σ hp hc => ?_⟩
      refine ⟨x, .cons a (.cons b .nil), h2 slots σ (prefix_app (prefix_app (prefix_app hp))) hc, ?_, .inr ⟨k, a, b, hk, rfl, rfl⟩⟩
      simp only [Exs.trIn, Ex.trIn]
      have hbl := blk slots σ (prefix_app (prefix_app hp)) hc
      exact ⟨a, _, inline_trIn hbl.1 hm1 (prefix_app hp) (hdepth slots σ hc) (hcount slots σ hc),
        ⟨b, .nil, inline_trIn hbl.2 hm2 hp (hdepth slots σ hc) (hcount slots σ hc), rfl, rfl⟩, rfl⟩
    · obtain ⟨c1, s1, rfl⟩ := ex_tr_blk h20
      obtain ⟨c2, s2, rfl⟩ := exs_tr_one h40
      simp only [Ex.hoist, Ex.tr, hs]
      have blk1 : ∀ slots σ, (env ++ (Ex.blk c1 s1).hoist) <+: slots → Chain vs outer σ → s1.tr known (⟨true, vars, slots⟩ :: σ) m1 := fun slots σ hp hc => blk_tr_inv (h2 slots σ hp hc)
      have blk2 : ∀ slots σ, (env ++ (Ex.blk c1 s1).hoist ++ (Exs.cons (.blk c2 s2) .nil).hoist) <+: slots → Chain vs outer σ → s2.tr known (⟨true, vars, slots⟩ :: σ) m2 := fun slots σ hp hc => by
        have := h4 slots σ hp hc
        simp only [Exs.tr] at this
        obtain ⟨_, _, h, _, he⟩ := this
        cases he
        exact blk_tr_inv h
      have he := inline_env (blk1 _ σ0 (List.prefix_refl _) hσ0) hm1
      subst he
      have he := inline_env (blk2 _ σ0 (List.prefix_refl _) hσ0) hm2
      subst he
      refine ⟨by simp only [Exs.hoist, Ex.hoist, Exs.inVars, Ex.inVars, List.append_nil, List.append_assoc], fun slots σ hp hc => ?_⟩
      refine ⟨a, b, ?_, ?_, rfl⟩
      · simp only [Ex.trIn]
        exact inline_trIn (blk1 slots σ (prefix_app (prefix_app (prefix_app hp))) hc) hm1 (prefix_app hp) (hdepth slots σ hc) (hcount slots σ hc)
      · simp only [Exs.trIn, Ex.trIn]
        exact ⟨b, .nil, inline_trIn (blk2 slots σ (prefix_app (prefix_app hp)) hc) hm2 hp (hdepth slots σ hc) (hcount slots σ hc), rfl, rfl⟩
    · simp only [Ex.hoist, Ex.tr, hs]
      refine ⟨by rw [List.append_assoc], fun slots σ hp1 hc => ?_⟩
      refine ⟨x, xs, h2 slots σ (prefix_app hp1) hc, h4 slots σ hp1 hc, ?_⟩
      rcases plainSend_cases hp with h | h
      · exact .inr h
      · exact .inl h
theorem Exs.ast_tr : ∀ (inner : Bool) (vs outer : List (List Nat)) (vars : List Nat) (es : Exs SBlock) (env env2 : List Nat) (ns : Nodes), es.bound (vars :: vs) → es.fair I D F C N inner →
    vars.Nodup → vars <+: env → (∃ σ, Chain vs outer σ) → es.ast known alloc outer env = .ok (ns, env2) →
    env2 = env ++ es.hoist ∧ ∀ slots σ, env2 <+: slots → Chain vs outer σ → es.tr known (⟨true, vars, slots⟩ :: σ) ns
  | inner, vs, outer, vars, .nil, env, env2, ns, hb, hf, hn, hv, hσ, h => by
    simp only [Exs.ast] at h; cases h
    exact ⟨by simp only [Exs.hoist, List.append_nil], fun slots σ hs hc => by simp only [Exs.tr]⟩
  | inner, vs, outer, vars, .cons e es, env, env2, ns, hb, hf, hn, hv, hσ, h => by
    simp only [Exs.ast] at h
    obtain ⟨⟨x, env1⟩, hx, h⟩ := except_bind_ok h
    obtain ⟨⟨xs, env3⟩, hxs, h⟩ := except_bind_ok h
    cases h
    simp only [Exs.bound] at hb
    simp only [Exs.fair] at hf
    obtain ⟨h1, h2⟩ := Ex.ast_tr inner vs outer vars e env env1 x hb.1 hf.1 hn hv hσ hx
    subst h1
    obtain ⟨h3, h4⟩ := Exs.ast_tr inner vs outer vars es _ env3 xs hb.2 hf.2 hn (hv.trans (List.prefix_append _ _)) hσ hxs
    subst h3
    exact ⟨by simp only [Exs.hoist, List.append_assoc], fun slots σ hp hc => by
      simp only [Exs.tr]; exact ⟨x, xs, h2 slots σ (prefix_app hp) hc, h4 slots σ hp hc, rfl⟩⟩
theorem Body.ast_tr : ∀ (inner isBlock : Bool) (vs outer : List (List Nat)) (vars : List Nat) (b : Body SBlock) (env env2 : List Nat) (ns : Nodes), b.bound (vars :: vs) → b.fair I D F C N inner →
    vars.Nodup → vars <+: env → (∃ σ, Chain vs outer σ) → (isBlock = true → 0 < outer.length) → b.ast known alloc isBlock outer env = .ok (ns, env2) →
    env2 = env ++ b.hoist ∧ ∀ slots σ, env2 <+: slots → Chain vs outer σ → b.tr known isBlock (⟨true, vars, slots⟩ :: σ) ns
  | inner, isBlock, vs, outer, vars, .done, env, env2, ns, hb, hf, hn, hv, hσ, ho, h => by
    simp only [Body.ast] at h; cases h
    exact ⟨by simp only [Body.hoist, List.append_nil], fun slots σ hs hc => by simp only [Body.tr]⟩
  | inner, isBlock, vs, outer, vars, .last e, env, env2, ns, hb, hf, hn, hv, hσ, ho, h => by
    simp only [Body.ast] at h
    obtain ⟨⟨x, env1⟩, hx, h⟩ := except_bind_ok h
    cases h
    simp only [Body.bound] at hb
    simp only [Body.fair] at hf
    obtain ⟨h1, h2⟩ := Ex.ast_tr inner vs outer vars e env env1 x hb hf hn hv hσ hx
    exact ⟨by simpa only [Body.hoist] using h1, fun slots σ hp hc => by simp only [Body.tr]; exact ⟨x, h2 slots σ hp hc, rfl⟩⟩
  | inner, isBlock, vs, outer, vars, .stmt e rest, env, env2, ns, hb, hf, hn, hv, hσ, ho, h => by
    simp only [Body.ast] at h
    obtain ⟨⟨x, env1⟩, hx, h⟩ := except_bind_ok h
    obtain ⟨⟨xs, env3⟩, hxs, h⟩ := except_bind_ok h
    cases h
    simp only [Body.bound] at hb
    simp only [Body.fair] at hf
    obtain ⟨h1, h2⟩ := Ex.ast_tr inner vs outer vars e env env1 x hb.1 hf.1 hn hv hσ hx
    subst h1
    obtain ⟨h3, h4⟩ := Body.ast_tr inner isBlock vs outer vars rest _ env3 xs hb.2 hf.2 hn (hv.trans (List.prefix_append _ _)) hσ ho hxs
    subst h3
    exact ⟨by simp only [Body.hoist, List.append_assoc], fun slots σ hp hc => by
      simp only [Body.tr]; exact ⟨x, xs, h2 slots σ (prefix_app hp) hc, h4 slots σ hp hc, rfl⟩⟩
  | inner, isBlock, vs, outer, vars, .exit e, env, env2, ns, hb, hf, hn, hv, hσ, ho, h => by
    simp only [Body.ast] at h
    obtain ⟨⟨x, env1⟩, hx, h⟩ := except_bind_ok h
    cases h
    simp only [Body.bound] at hb
    simp only [Body.fair] at hf
    obtain ⟨h1, h2⟩ := Ex.ast_tr inner vs outer vars e env env1 x hb hf hn hv hσ hx
    refine ⟨by simpa only [Body.hoist] using h1, fun slots σ hp hc => ?_⟩
    simp only [Body.tr]
    refine ⟨x, h2 slots σ hp hc, ?_⟩
    cases isBlock with
    | false => rfl
    | true =>
      have hd : depth (⟨true, vars, slots⟩ :: σ) = outer.length := by unfold BC.depth; rw [List.countP_cons, hc.count]; rfl
      have := ho rfl
      simp only [if_true, retNode, hd, if_neg (Nat.ne_of_gt this)]
  | inner, isBlock, vs, outer, vars, .exitSelf, env, env2, ns, hb, hf, hn, hv, hσ, ho, h => by
    simp only [Body.ast] at h; cases h
    refine ⟨by simp only [Body.hoist, List.append_nil], fun slots σ hp hc => ?_⟩
    simp only [Body.tr]
    cases isBlock with
    | false => rfl
    | true =>
      have hd : depth (⟨true, vars, slots⟩ :: σ) = outer.length := by unfold BC.depth; rw [List.countP_cons, hc.count]; rfl
      have := ho rfl
      simp only [if_true, retNode, hd, if_neg (Nat.ne_of_gt this)]
theorem SBlock.ast_tr : ∀ (vs outer : List (List Nat)) (s : SBlock) (m : AMeth), s.bound vs → s.fair I D F C N → 0 < outer.length → (∃ σ, Chain vs outer σ) → s.ast known alloc outer = .ok m →
    ∀ σ, Chain vs outer σ → s.tr known σ m
  | vs, outer, .mk id args env b, m, hb, hf, ho, hσ, h, σ, hc => by
    simp only [SBlock.ast] at h
    obtain ⟨⟨ns, env2⟩, hx, h⟩ := except_bind_ok h
    simp only [SBlock.bound] at hb
    simp only [SBlock.fair] at hf
    obtain ⟨h1, h2⟩ := Body.ast_tr true true vs outer env b env env2 ns hb hf.1 hf.2.2 (List.prefix_refl _) hσ (fun _ => ho) hx
    subst h1
    have h3 := h2 _ σ (List.prefix_refl _) hc
    have hp := (body_triv_plain h3 (by unfold BC.depth; rw [List.countP_cons, hc.count]; simp; exact ho)).1
    simp only [SBlock.tr]
    refine ⟨ns, h3, ?_⟩
    dsimp only at h
    split at h
    · rename_i t ht
      cases h
      rw [ht] at hp
      exact .inr ⟨hp.symm, t, ht, rfl⟩
    · rename_i ht
      cases h
      rw [ht] at hp
      exact .inl ⟨hp.symm, rfl⟩
end
end
end
end PySOM.BC

import Verif.Lemmas.Closure
/-!
# Simulation, step by step
-/
set_option autoImplicit false
namespace PySOM.Clo

theorem locsOf_mono {env : Var → Option Nat} {xs ys : List Var} (h : ∀ x ∈ xs, x ∈ ys) (l : Nat) (hl : locsOf env xs l) : locsOf env ys l :=
  let ⟨x, hx, e⟩ := hl; ⟨x, h x hx, e⟩

def none3 : Nat → Prop := fun _ => False

theorem SimR.seq {f : Map} {st st' : State} {T T' H T1 T1' H1 : Nat → Prop} {K K2 : Map → State → State → Prop} {r r' : Res}
    {k k' : Value → State → Res} (p : SimR f st st' T1 T1' H1 K r r')
    (w1 : ∀ l, T1 l → T l) (w2 : ∀ l, T1' l → T' l ∨ H l) (w3 : ∀ l, H1 l → H l)
    (hk : ∀ f1 s s' v v', Post f st st' T1 T1' H1 f1 s s' → K f1 s s' → VRel f1 v v' → SimR f1 s s' T T' H K2 (k v s) (k' v' s')) :
    SimR f st st' T T' H K2 (Clo.andThen r k) (Clo.andThen r' k') := by
  obtain ⟨f1, hp, ho, hK⟩ := p
  obtain ⟨o, s⟩ := r
  obtain ⟨o', s'⟩ := r'
  simp only at hp ho hK
  have hw := hp.weaken w1 w2 w3
  cases ho with
  | val hv =>
    obtain ⟨f2, hp2, ho2, hK2⟩ := hk f1 s s' _ _ hp (hK ⟨_, rfl⟩) hv
    exact ⟨f2, hw.trans hp2, ho2, hK2⟩
  | ret h hv => exact ⟨f1, hw, .ret h hv, fun ⟨_, h⟩ => by cases h⟩
  | err e => exact ⟨f1, hw, .err e, fun ⟨_, h⟩ => by cases h⟩
  | timeout => exact ⟨f1, hw, .timeout, fun ⟨_, h⟩ => by cases h⟩

theorem StRel.dom {f : Map} {st st' : State} (h : StRel f st st') {l l' : Nat} (e : f l = some l') : l < st.cells.length ∧ l' < st'.cells.length := by
  obtain ⟨v, v', h1, h2, _⟩ := h.cell l l' e
  exact ⟨(List.getElem?_eq_some_iff.1 h1).1, (List.getElem?_eq_some_iff.1 h2).1⟩

theorem StRel.fresh {f : Map} {st st' : State} (h : StRel f st st') {l : Nat} (hl : st.cells.length ≤ l) : f l = Option.none := by
  cases e : f l with
  | none => rfl
  | some l' => have := (h.dom e).1; omega

theorem ORel.mono {f g : Map} (h : Le f g) {o o' : Nat × List Value} (r : ORel f o o') : ORel g o o' :=
  ⟨r.1, r.2.mono fun _ _ x => x.mono h⟩

/-- Activating related code with related arguments. -/
theorem activate_sim {ev ev' : Ev} (IH : SimEv ev ev') {f : Map} {st st' : State} (hst : StRel f st st') (live : List Nat)
    {as ls sc : List Var} {b : Ex} (hf : (Ex.blk as ls b).fine false sc [] []) {env env' : Var → Option Nat} (henv : EnvRel f sc env env')
    {self self' : Value} (hself : VRel f self self') (home : Nat) {vs vs' : List Value} (hvs : All2 (VRel f) vs vs') :
    SimR f st st' none3 none3 none3 (fun _ _ _ => True)
      (activate false ev live as ls b env self home vs st) (activate true ev' live as ls b env' self' home vs' st') := by
  unfold activate
  rw [← hvs.length]
  by_cases hlen : vs.length = as.length
  · simp only [hlen, if_true, Bool.false_eq_true, if_false, List.append_nil]
    simp only [Ex.fine] at hf
    obtain ⟨hb, hnd, hdis⟩ := hf
    have hnd2 : (as ++ ls).Nodup := by
      rw [← List.append_assoc] at hnd
      exact (List.nodup_append.1 hnd).1
    have hlen' : vs'.length = as.length := by rw [← hvs.length, hlen]
    generalize hn : st.cells.length = n
    generalize hn' : st'.cells.length = n'
    let f2 : Map := fun l => if l < n then f l else if l < n + (as.length + ls.length) then some (n' + (l - n)) else none
    have hle : Le f f2 := by
      intro l l' h
      have := (hst.dom h).1
      simp only [f2]
      rw [if_pos (by omega)]; exact h
    have f2old : ∀ l, l < n → f2 l = f l := by intro l h; simp only [f2]; rw [if_pos h]
    have f2new : ∀ i, i < as.length + ls.length → f2 (n + i) = some (n' + i) := by
      intro i h; simp only [f2]
      rw [if_neg (by omega), if_pos (by omega)]
      congr 1; omega
    have f2some : ∀ l l', f2 l = some l' → (l < n ∧ f l = some l') ∨ (∃ i, i < as.length + ls.length ∧ l = n + i ∧ l' = n' + i) := by
      intro l l' h
      simp only [f2] at h
      split at h
      · exact .inl ⟨‹_›, h⟩
      · split at h
        · cases h
          exact .inr ⟨l - n, by omega, by omega, by omega⟩
        · cases h
    have hrange : ∀ l', n' + (as.length + ls.length) ≤ l' ∨ (l' < n' ∧ ∀ k, f k ≠ some l') → ∀ k, f2 k ≠ some l' := by
      intro l' h k hk
      rcases f2some k l' hk with ⟨h1, h2⟩ | ⟨i, h1, h2, h3⟩
      · rcases h with h | h
        · have := (hst.dom h2).2; omega
        · exact h.2 k h2
      · rcases h with h | h <;> omega
    have hnew : All2 (VRel f2) (vs ++ List.replicate ls.length Value.nil) (vs' ++ List.replicate ls.length Value.nil) :=
      (hvs.mono fun _ _ x => x.mono hle).append (All2.replicate _ (.atom .nil))
    have hxs' : ∀ (i : Nat) (x : Var), (as ++ ls)[i]? = some x → (as ++ (ls ++ b.hoist))[i]? = some x := by
      intro i x h
      rw [← List.append_assoc, List.getElem?_append_left (List.getElem?_eq_some_iff.1 h).1]; exact h
    have hho : ∀ x ∈ b.hoist, ∃ j, j < b.hoist.length ∧ b.hoist[j]? = some x ∧
        bindVars env' (as ++ (ls ++ b.hoist)) n' x = some (n' + (as.length + ls.length) + j) := by
      intro x hx
      obtain ⟨j, hj, hjx⟩ := mem_get hx
      refine ⟨j, hj, hjx, ?_⟩
      rw [bindVars_get _ env' n' (as.length + ls.length + j) x hnd ?_]
      · congr 1; omega
      · rw [← List.append_assoc, List.getElem?_append_right (by simp)]
        simpa using hjx
    have hcells' : st'.cells ++ (vs' ++ List.replicate (ls ++ b.hoist).length Value.nil) =
        st'.cells ++ ((vs' ++ List.replicate ls.length Value.nil) ++ List.replicate b.hoist.length Value.nil) := by
      rw [List.length_append, ← List.replicate_append_replicate]; simp
    have hI : Inv false (as ++ (ls ++ sc)) [] [] b.hoist b.hoistS f2
        ⟨bindVars env (as ++ ls) n, self, home⟩ ⟨bindVars env' (as ++ (ls ++ b.hoist)) n', self', home⟩
        { st with cells := st.cells ++ (vs ++ List.replicate ls.length .nil) }
        { st' with cells := st'.cells ++ (vs' ++ List.replicate (ls ++ b.hoist).length .nil) } := by
      rw [hcells']
      refine ⟨⟨?_, ?_, ?_, hst.log, hst.act⟩, hself.mono hle, rfl, ?_, ?_, ?_, ?_, ?_, ?_, ?_⟩
      · intro l l' h
        rcases f2some l l' h with ⟨h1, h2⟩ | ⟨i, h1, rfl, rfl⟩
        · obtain ⟨v, v', e1, e2, e3⟩ := hst.cell l l' h2
          have := hst.dom h2
          refine ⟨v, v', ?_, ?_, e3.mono hle⟩
          · simp only; rw [List.getElem?_append_left (by omega)]; exact e1
          · simp only; rw [List.getElem?_append_left this.2]; exact e2
        · have hi : i < (vs ++ List.replicate ls.length Value.nil).length := by
            simp only [List.length_append, List.length_replicate]; omega
          obtain ⟨v', e2, e3⟩ := hnew.get i _ (List.getElem?_eq_getElem hi)
          refine ⟨_, v', ?_, ?_, e3⟩
          · simp only
            rw [List.getElem?_append_right (by omega), show n + i - st.cells.length = i by omega]
            exact List.getElem?_eq_getElem hi
          · simp only
            rw [List.getElem?_append_right (by omega), show n' + i - st'.cells.length = i by omega,
              List.getElem?_append_left (by rw [← hnew.length]; exact hi)]
            exact e2
      · intro k l l' h1 h2
        rcases f2some k l' h1 with ⟨a1, a2⟩ | ⟨i, a1, a2, a3⟩ <;> rcases f2some l l' h2 with ⟨b1, b2⟩ | ⟨j, b1, b2, b3⟩
        · exact hst.inj k l l' a2 b2
        · have := (hst.dom a2).2; omega
        · have := (hst.dom b2).2; omega
        · omega
      · exact hst.objs.mono fun _ _ x => x.mono hle
      · intro x hx
        by_cases hxa : x ∈ as ++ ls
        · obtain ⟨i, hi, hix⟩ := mem_get hxa
          refine ⟨n + i, n' + i, bindVars_get _ _ _ i x hnd2 hix, bindVars_get _ _ _ i x hnd (hxs' i x hix), f2new i (by simpa using hi)⟩
        · have hxs : x ∈ sc := by
            rw [← List.append_assoc] at hx
            exact (List.mem_append.1 hx).resolve_left hxa
          obtain ⟨l, l', e1, e2, e3⟩ := henv x hxs
          refine ⟨l, l', ?_, ?_, hle _ _ e3⟩
          · simp only; rw [bindVars_not _ _ _ _ hxa]; exact e1
          · simp only; rw [bindVars_not _ _ _ _ ?_]
            · exact e2
            · rw [← List.append_assoc, List.mem_append, not_or]
              exact ⟨hxa, fun h => hdis x h hxs⟩
      · intro x hx; cases hx
      · intro x hx; cases hx
      · intro x hx
        obtain ⟨j, hj, _, he⟩ := hho x hx
        refine ⟨_, he, ?_, hrange _ (.inl (by omega))⟩
        simp only [List.length_append, List.length_replicate]; omega
      · intro x hx; cases hx
      · intro x hx y hy h
        rw [List.append_nil] at hx hy
        obtain ⟨j, hj, hjx, he⟩ := hho x hx
        obtain ⟨k, hk, hky, he'⟩ := hho y hy
        simp only at h
        rw [he, he'] at h
        simp only [Option.some.injEq] at h
        have : j = k := by omega
        subst this
        rw [hjx] at hky
        exact Option.some.inj hky
      · intro _ x hx l' hl
        obtain ⟨j, hj, _, he⟩ := hho x (b.hoistS_sub x hx)
        simp only at hl
        rw [he] at hl
        cases hl
        simp only
        rw [List.getElem?_append_right (by omega), List.getElem?_append_right (by simp only [List.length_append, List.length_replicate]; omega)]
        rw [List.getElem?_replicate]
        rw [if_pos]
        simp only [List.length_append, List.length_replicate]; omega
    have hR := IH false (as ++ (ls ++ sc)) [] [] b f2 live _ _ _ _ hb
      (List.nodup_append.1 (List.nodup_append.1 hnd).2.1).2.1
      (by
        intro x hx
        refine ⟨?_, by simp⟩
        rw [← List.append_assoc] at hnd ⊢
        rw [List.mem_append, not_or]
        exact ⟨fun h => (List.nodup_append.1 hnd).2.2 x h x hx rfl, hdis x hx⟩) hI
    obtain ⟨f3, hp, ho, _⟩ := hR
    refine ⟨f3, ⟨hp.rel, hle.trans hp.ext, ?_, ?_, ?_, ?_, ?_, ?_⟩, ho, fun _ => trivial⟩
    · refine Nat.le_trans ?_ hp.szp; simp
    · refine Nat.le_trans ?_ hp.szi; simp
    · intro l hl h
      refine hp.newp l ?_ (by rw [f2old l (by omega)]; exact h)
      simp only [List.length_append]; omega
    · intro l hl h _
      rw [hp.frp l (by simp only [List.length_append]; omega) (by rw [f2old l (by omega)]; exact h) (by rintro ⟨x, hx, _⟩; cases hx)]
      simp only
      rw [List.getElem?_append_left (by omega)]
    · intro l' hl h _
      refine hp.newi l' (by simp only [List.length_append]; omega) (hrange l' (.inr ⟨by omega, h⟩)) ?_
      rintro ⟨_, x, hx, he⟩
      obtain ⟨j, _, _, he'⟩ := hho x (b.hoistS_sub x hx)
      simp only at he
      rw [he'] at he; cases he; omega
    · intro l' hl h _ _
      have notx : ∀ x, x ∈ b.hoist → bindVars env' (as ++ (ls ++ b.hoist)) n' x ≠ some l' := by
        intro x hx he
        obtain ⟨j, _, _, he'⟩ := hho x hx
        rw [he'] at he; cases he; omega
      rw [hp.fri l' (by simp only [List.length_append]; omega) (hrange l' (.inr ⟨by omega, h⟩))
        (by rintro ⟨x, hx, he⟩; rw [List.append_nil] at hx; exact notx x hx he)
        (by rintro ⟨_, x, hx, he⟩; exact notx x (b.hoistS_sub x hx) he)]
      simp only
      rw [List.getElem?_append_left (by omega)]
  · simp only [hlen, if_false]
    exact SimR.err _ hst

/-- Invoking a method. -/
theorem invoke_sim {ev ev' : Ev} (IH : SimEv ev ev') {f : Map} {st st' : State} (hst : StRel f st st') (live : List Nat)
    {m : Meth} (hf : m.fine) {self self' : Value} (hself : VRel f self self') {vs vs' : List Value} (hvs : All2 (VRel f) vs vs') :
    SimR f st st' none3 none3 none3 (fun _ _ _ => True) (invoke false ev live m self vs st) (invoke true ev' live m self' vs' st') := by
  unfold invoke
  have hst1 : StRel f { st with act := st.act + 1 } { st' with act := st'.act + 1 } :=
    ⟨hst.cell, hst.inj, hst.objs, hst.log, by simp only; rw [hst.act]⟩
  have h := activate_sim IH hst1 (st.act :: live) (env := fun _ => none) (env' := fun _ => none) (sc := []) hf (fun x hx => by cases hx) hself st.act hvs
  rw [← hst.act]
  rw [← hst.act] at h
  revert h
  generalize activate false ev (st.act :: live) m.args m.locals m.body (fun _ => none) self st.act vs { st with act := st.act + 1 } = r
  generalize activate true ev' (st.act :: live) m.args m.locals m.body (fun _ => none) self' st.act vs' { st' with act := st.act + 1 } = r'
  rintro ⟨f2, hp, ho, _⟩
  obtain ⟨o, s⟩ := r
  obtain ⟨o', s'⟩ := r'
  simp only at hp ho ⊢
  have hp' : Post f st st' none3 none3 none3 f2 s s' := ⟨hp.rel, hp.ext, hp.szp, hp.szi, hp.newp, hp.frp, hp.newi, hp.fri⟩
  cases ho with
  | val _ => exact ⟨f2, hp', .val (hself.mono hp.ext), fun _ => trivial⟩
  | ret h hv =>
    by_cases hh : h = st.act
    · simp only [hh, if_true]; exact ⟨f2, hp', .val hv, fun _ => trivial⟩
    · simp only [hh, if_false]; exact ⟨f2, hp', .ret h hv, fun _ => trivial⟩
  | err e => exact ⟨f2, hp', .err e, fun _ => trivial⟩
  | timeout => exact ⟨f2, hp', .timeout, fun _ => trivial⟩

theorem atoms_rel {f : Map} {vs vs' : List Value} (h : All2 (VRel f) vs vs') : atoms vs = atoms vs' := by
  induction h with
  | nil => rfl
  | cons h _ ih => cases h <;> simp [atoms, ih]

theorem dispatch_sim (P : Prog) (hP : ∀ c sel m, P.meth c sel = some m → m.fine) {ev ev' : Ev} (IH : SimEv ev ev') {f : Map} {st st' : State}
    (hst : StRel f st st') (live : List Nat) (c : Nat) (sel : Sel) {v v' : Value} (hv : VRel f v v') {vs vs' : List Value} (hvs : All2 (VRel f) vs vs') :
    SimR f st st' none3 none3 none3 (fun _ _ _ => True) (dispatch P false ev live c sel v vs st) (dispatch P true ev' live c sel v' vs' st') := by
  unfold dispatch
  cases hm : P.meth c sel with
  | some m => exact invoke_sim IH hst live (hP c sel m hm) hv hvs
  | none =>
    simp only
    rw [← atoms_rel hvs]
    cases hv with
    | atom a =>
      cases atoms vs with
      | none => exact SimR.err _ hst
      | some as =>
        simp only
        cases P.prim sel a as with
        | none => exact SimR.err _ hst
        | some r =>
          refine ⟨f, ⟨⟨hst.cell, hst.inj, hst.objs, ?_, hst.act⟩, Le.refl f, Nat.le_refl _, Nat.le_refl _, fun _ _ h => h, fun _ _ _ _ => rfl,
            fun _ _ h _ => h, fun _ _ _ _ _ => rfl⟩, .val (.atom r), fun _ => trivial⟩
          simp only; rw [hst.log]
    | obj a => exact SimR.err _ hst
    | clo sc hf henv hself => exact SimR.err _ hst

theorem classOf_rel (P : Prog) {f : Map} {st st' : State} (hst : StRel f st st') {v v' : Value} (hv : VRel f v v') : classOf P st v = classOf P st' v' := by
  cases hv with
  | atom a => rfl
  | obj a =>
    simp only [classOf]
    cases h : st.objs[a]? with
    | none =>
      have : st'.objs[a]? = none := by
        rw [List.getElem?_eq_none_iff] at h ⊢; rw [← hst.objs.length]; exact h
      rw [this]
    | some o =>
      obtain ⟨o', h', e, _⟩ := hst.objs.get a o h
      rw [h']
      obtain ⟨c, fs⟩ := o
      obtain ⟨c', fs'⟩ := o'
      exact e
  | clo sc hf henv hself => rfl

theorem sendV_sim (P : Prog) (hP : ∀ c sel m, P.meth c sel = some m → m.fine) {ev ev' : Ev} (IH : SimEv ev ev') {f : Map} {st st' : State}
    (hst : StRel f st st') (live : List Nat) (sup : Option Nat) (sel : Sel) {v v' : Value} (hv : VRel f v v') {vs vs' : List Value} (hvs : All2 (VRel f) vs vs') :
    SimR f st st' none3 none3 none3 (fun _ _ _ => True) (sendV P false ev live sup sel v vs st) (sendV P true ev' live sup sel v' vs' st') := by
  cases sup with
  | some c => exact dispatch_sim P hP IH hst live c sel hv hvs
  | none =>
    cases hv with
    | atom a => exact dispatch_sim P hP IH hst live _ sel (.atom a) hvs
    | obj a =>
      simp only [sendV]
      rw [classOf_rel P hst (.obj a)]
      exact dispatch_sim P hP IH hst live _ sel (.obj a) hvs
    | clo sc hf henv hself =>
      simp only [sendV]
      rw [← hvs.length]
      split
      · exact activate_sim IH hst live hf henv hself _ hvs
      · exact dispatch_sim P hP IH hst live _ sel (.clo sc hf henv hself) hvs

/-! ## Blocks that may be inlined -/

/-- Results that are related for an expression whose inlined blocks have the variables `hs`, of which `hn` are outside of
loops. -/
def G (lp : Bool) (ctx ctx' : Ctx) (tmp hs hn : List Var) (f : Map) (st st' : State) (K : Map → State → State → Prop) (r r' : Res) : Prop :=
  SimR f st st' (locsOf ctx.env tmp) (locsOf ctx'.env (hs ++ tmp)) (fun l => lp = false ∧ locsOf ctx'.env hn l) K r r'

theorem G.mono {lp : Bool} {ctx ctx' : Ctx} {tmp hs hn hs2 hn2 : List Var} {f : Map} {st st' : State} {K : Map → State → State → Prop} {r r' : Res}
    (g : G lp ctx ctx' tmp hs hn f st st' K r r') (h1 : ∀ x ∈ hs, x ∈ hs2) (h2 : ∀ x ∈ hn, x ∈ hn2) : G lp ctx ctx' tmp hs2 hn2 f st st' K r r' :=
  SimR.conseq g (fun _ h => h)
    (fun l h => .inl (locsOf_mono (fun x hx => by
      simp only [List.mem_append] at hx ⊢; exact hx.imp (h1 x) id) l h))
    (fun l h => ⟨h.1, locsOf_mono h2 l h.2⟩) (fun _ _ _ _ h => h)

theorem G.seq {lp : Bool} {ctx ctx' : Ctx} {sc tmp D D1 hs hn hs1 hn1 hs2 hn2 : List Var} {f : Map} {st st' : State}
    {K2 : Map → State → State → Prop} {r r' : Res} {k k' : Value → State → Res}
    (I : Inv lp sc tmp D hs hn f ctx ctx' st st')
    (p : G lp ctx ctx' tmp hs1 hn1 f st st' (Kd tmp D1 ctx.env ctx'.env) r r')
    (a1 : ∀ x ∈ hs1, x ∈ hs) (a2 : ∀ x ∈ hn1, x ∈ hs1) (a3 : ∀ x ∈ hs2, x ∈ hs) (a4 : ∀ x ∈ hn2, x ∈ hn) (a5 : ∀ x ∈ hn2, x ∈ hs2)
    (a6 : ∀ x ∈ hs1, x ∉ hs2 ∨ lp = true ∧ x ∉ hn2 ∨ hn1 = [] ∧ x ∉ hn2) (a7 : ∀ x ∈ hs, x ∉ tmp) (a8 : lp = false → ∀ x ∈ hn1, x ∈ hn)
    (hk : ∀ f1 s s' v v', Le f f1 → Inv lp sc tmp D1 hs2 hn2 f1 ctx ctx' s s' → VRel f1 v v' → G lp ctx ctx' tmp hs2 hn2 f1 s s' K2 (k v s) (k' v' s')) :
    G lp ctx ctx' tmp hs hn f st st' K2 (andThen r k) (andThen r' k') :=
  SimR.seq p (fun _ h => h)
    (fun l h => .inl (locsOf_mono (fun x hx => by simp only [List.mem_append] at hx ⊢; exact hx.imp (a1 x) id) l h))
    (fun l h => ⟨h.1, locsOf_mono (a8 h.1) l h.2⟩)
    (fun f1 s s' v v' hp hK hv => (hk f1 s s' v v' hp.ext (I.next a1 a2 a3 a4 a5 a6 a7 hp hK) hv).mono a3 a4)

theorem scopeT_sim {ev ev' : Ev} (IH : SimEv ev ev') {sc tmp D hs hn : List Var} {f : Map} {ctx ctx' : Ctx} {st st' : State}
    (I : Inv true sc tmp D hs hn f ctx ctx' st st') (live : List Nat) {ls : List Var} {b : Ex}
    (hsub : ∀ x ∈ ls ++ b.hoist, x ∈ hs) (hnd : (ls ++ b.hoist).Nodup) (hdis : ∀ x ∈ ls ++ b.hoist, x ∉ sc ∧ x ∉ tmp)
    (hf : b.fine true sc (ls ++ tmp) D) (hD : ∀ x ∈ ls, x ∉ D) :
    G true ctx ctx' tmp (ls ++ b.hoist) (ls ++ b.hoistS) f st st' (Kd tmp D ctx.env ctx'.env)
      (scope false ev live ctx ls b st) (scope true ev' live ctx' ls b st') := by
  have hl0 : ∀ x ∈ ls, x ∈ ls ++ b.hoist := fun x h => List.mem_append_left _ h
  have hb0 : ∀ x ∈ b.hoist, x ∈ ls ++ b.hoist := fun x h => List.mem_append_right _ h
  simp only [scope, activate, Bool.false_eq_true, if_false, if_true, List.length_nil, List.nil_append, List.append_nil]
  generalize hn : st.cells.length = n
  have bn : ∀ x, x ∉ ls → bindVars ctx.env ls n x = ctx.env x := fun x h => bindVars_not _ _ _ _ h
  have tl : ∀ x ∈ tmp, x ∉ ls := fun x h h' => (hdis x (hl0 x h')).2 h
  have hndl := (List.nodup_append.1 hnd).1
  have lget : ∀ x ∈ ls, ∃ i, ls[i]? = some x ∧ i < ls.length ∧ bindVars ctx.env ls n x = some (n + i) := by
    intro x hx
    obtain ⟨i, hi, hix⟩ := mem_get hx
    exact ⟨i, hix, hi, bindVars_get _ _ _ i x hndl hix⟩
  have hI : Inv true sc (ls ++ tmp) D b.hoist b.hoistS f ⟨bindVars ctx.env ls n, ctx.self, ctx.home⟩ ctx'
      { st with cells := st.cells ++ List.replicate ls.length .nil } st' := by
    refine ⟨⟨?_, I.rel.inj, I.rel.objs, I.rel.log, I.rel.act⟩, I.self, I.home, ?_, ?_, ?_, ?_, ?_, ?_, fun h => by cases h⟩
    · intro l l' h
      obtain ⟨v, v', e1, e2, e3⟩ := I.rel.cell l l' h
      refine ⟨v, v', ?_, e2, e3⟩
      simp only; rw [List.getElem?_append_left (I.rel.dom h).1]; exact e1
    · intro x hx
      simp only
      rw [bn x (fun h => (hdis x (hl0 x h)).1 hx)]
      exact I.hsc x hx
    · intro x hx
      simp only [List.length_append, List.length_replicate]
      by_cases hxl : x ∈ ls
      · obtain ⟨i, _, hi, he⟩ := lget x hxl
        obtain ⟨l', e1, e2, e3⟩ := I.ready x (hsub x (hl0 x hxl))
        exact ⟨n + i, l', he, e1, by omega, e2, I.rel.fresh (by omega), e3⟩
      · obtain ⟨l, l', e1, e2, e3, e4, e5, e6⟩ := I.htmp x ((List.mem_append.1 hx).resolve_left hxl)
        exact ⟨l, l', by rw [bn x hxl]; exact e1, e2, by omega, e4, e5, e6⟩
    · intro x hx hxD l l' hl hl'
      have hxl : x ∉ ls := fun h => hD x h hxD
      have hxt := (List.mem_append.1 hx).resolve_left hxl
      simp only at hl
      rw [bn x hxl] at hl
      obtain ⟨v, v', e1, e2, e3⟩ := I.hd x hxt hxD l l' hl hl'
      refine ⟨v, v', ?_, e2, e3⟩
      simp only; rw [List.getElem?_append_left (List.getElem?_eq_some_iff.1 e1).1]; exact e1
    · intro x hx; exact I.ready x (hsub x (hb0 x hx))
    · intro x hx y hy h
      simp only at h
      by_cases hxl : x ∈ ls <;> by_cases hyl : y ∈ ls
      · obtain ⟨i, h1, _, h2⟩ := lget x hxl
        obtain ⟨j, h3, _, h4⟩ := lget y hyl
        rw [h2, h4] at h
        simp only [Option.some.injEq] at h
        have : i = j := by omega
        subst this
        rw [h1] at h3; exact Option.some.inj h3
      · obtain ⟨i, h1, _, h2⟩ := lget x hxl
        obtain ⟨l, _, e1, _, e3, _⟩ := I.htmp y ((List.mem_append.1 hy).resolve_left hyl)
        rw [h2, bn y hyl, e1] at h
        simp only [Option.some.injEq] at h
        omega
      · obtain ⟨i, h1, _, h2⟩ := lget y hyl
        obtain ⟨l, _, e1, _, e3, _⟩ := I.htmp x ((List.mem_append.1 hx).resolve_left hxl)
        rw [h2, bn x hxl, e1] at h
        simp only [Option.some.injEq] at h
        omega
      · rw [bn x hxl, bn y hyl] at h
        exact I.injp x ((List.mem_append.1 hx).resolve_left hxl) y ((List.mem_append.1 hy).resolve_left hyl) h
    · have hmem : ∀ x, x ∈ b.hoist ++ (ls ++ tmp) → x ∈ hs ++ tmp := by
        intro x hx
        simp only [List.mem_append] at hx ⊢
        rcases hx with h | h | h
        · exact .inl (hsub x (hb0 x h))
        · exact .inl (hsub x (hl0 x h))
        · exact .inr h
      intro x hx y hy
      exact I.inji x (hmem x hx) y (hmem y hy)
  obtain ⟨f2, hp, ho, hK⟩ := IH true sc (ls ++ tmp) D b f live _ ctx' _ st' hf (List.nodup_append.1 hnd).2.1
    (by
      intro x hx
      refine ⟨(hdis x (hb0 x hx)).1, ?_⟩
      rw [List.mem_append, not_or]
      exact ⟨fun h => (List.nodup_append.1 hnd).2.2 x h x hx rfl, (hdis x (hb0 x hx)).2⟩) hI
  have tin : ∀ l, l < n → locsOf (bindVars ctx.env ls n) (ls ++ tmp) l → locsOf ctx.env tmp l := by
    rintro l hl ⟨x, hx, he⟩
    by_cases hxl : x ∈ ls
    · obtain ⟨i, _, _, h2⟩ := lget x hxl
      rw [h2] at he; cases he; omega
    · exact ⟨x, (List.mem_append.1 hx).resolve_left hxl, by rw [← bn x hxl]; exact he⟩
  refine ⟨f2, ⟨hp.rel, hp.ext, ?_, hp.szi, ?_, ?_, ?_, ?_⟩, ho, ?_⟩
  · refine Nat.le_trans ?_ hp.szp; simp
  · intro l hl h
    exact hp.newp l (by simp only [List.length_append]; omega) h
  · intro l hl h hT
    rw [hp.frp l (by simp only [List.length_append]; omega) h (fun hx => hT (tin l (by omega) hx))]
    simp only; rw [List.getElem?_append_left hl]
  · intro l' hl h _
    exact hp.newi l' hl h (fun hx => by cases hx.1)
  · intro l' hl h hT _
    refine hp.fri l' hl h (fun hx => hT (locsOf_mono ?_ l' hx)) (fun hx => by cases hx.1)
    intro x hx
    simp only [List.mem_append] at hx ⊢
    rcases hx with h | h | h
    · exact .inl (.inr h)
    · exact .inl (.inl h)
    · exact .inr h
  · intro hv x hx hxD l l' hl hl'
    refine hK hv x (List.mem_append_right _ hx) (b.sub_after D x hxD) l l' ?_ hl'
    simp only; rw [bn x (tl x hx)]; exact hl

theorem scopeS_sim {ev ev' : Ev} (IH : SimEv ev ev') {sc tmp D hs hn : List Var} {f : Map} {ctx ctx' : Ctx} {st st' : State}
    (I : Inv false sc tmp D hs hn f ctx ctx' st st') (live : List Nat) {ls : List Var} {b : Ex}
    (hsub : ∀ x ∈ ls ++ b.hoist, x ∈ hs) (hsubn : ∀ x ∈ ls ++ b.hoistS, x ∈ hn) (hnd : (ls ++ b.hoist).Nodup)
    (hdis : ∀ x ∈ ls ++ b.hoist, x ∉ sc ∧ x ∉ tmp) (hf : b.fine false (ls ++ sc) tmp D) :
    G false ctx ctx' tmp (ls ++ b.hoist) (ls ++ b.hoistS) f st st' (Kd tmp D ctx.env ctx'.env)
      (scope false ev live ctx ls b st) (scope true ev' live ctx' ls b st') := by
  have hl0 : ∀ x ∈ ls, x ∈ ls ++ b.hoist := fun x h => List.mem_append_left _ h
  have hb0 : ∀ x ∈ b.hoist, x ∈ ls ++ b.hoist := fun x h => List.mem_append_right _ h
  simp only [scope, activate, Bool.false_eq_true, if_false, if_true, List.length_nil, List.nil_append, List.append_nil]
  generalize hn : st.cells.length = n
  have bn : ∀ x, x ∉ ls → bindVars ctx.env ls n x = ctx.env x := fun x h => bindVars_not _ _ _ _ h
  have tl : ∀ x ∈ tmp, x ∉ ls := fun x h h' => (hdis x (hl0 x h')).2 h
  have hndl := (List.nodup_append.1 hnd).1
  have hndd := (List.nodup_append.1 hnd).2.2
  have hsu : ∀ x ∈ ls, x ∈ hs ++ tmp := fun x h => List.mem_append_left _ (hsub x (hl0 x h))
  have lget : ∀ x ∈ ls, ∃ i, ls[i]? = some x ∧ i < ls.length ∧ bindVars ctx.env ls n x = some (n + i) := by
    intro x hx
    obtain ⟨i, hi, hix⟩ := mem_get hx
    exact ⟨i, hix, hi, bindVars_get _ _ _ i x hndl hix⟩
  let f2 : Map := fun l => if l < n then f l else (ls[l - n]?).bind ctx'.env
  have hle : Le f f2 := by
    intro l l' h
    have := (I.rel.dom h).1
    simp only [f2]
    rw [if_pos (by omega)]; exact h
  have f2old : ∀ l, l < n → f2 l = f l := by intro l h; simp only [f2]; rw [if_pos h]
  have f2some : ∀ l l', f2 l = some l' → (l < n ∧ f l = some l') ∨ (∃ i x, ls[i]? = some x ∧ l = n + i ∧ ctx'.env x = some l') := by
    intro l l' h
    simp only [f2] at h
    split at h
    · exact .inl ⟨‹_›, h⟩
    · cases hx : ls[l - n]? with
      | none => rw [hx] at h; cases h
      | some x => rw [hx] at h; exact .inr ⟨l - n, x, hx, by omega, h⟩
  have f2new : ∀ (i : Nat) (x : Var), ls[i]? = some x → f2 (n + i) = ctx'.env x := by
    intro i x h
    simp only [f2]
    rw [if_neg (by omega), show n + i - n = i by omega, h]; rfl
  have memget : ∀ (i : Nat) (x : Var), ls[i]? = some x → x ∈ ls := fun i x h => List.mem_of_getElem? h
  have hrange : ∀ l', (∀ k, f k ≠ some l') → (∀ x ∈ ls, ctx'.env x ≠ some l') → ∀ k, f2 k ≠ some l' := by
    intro l' h1 h2 k hk
    rcases f2some k l' hk with ⟨_, h⟩ | ⟨i, x, h, _, h'⟩
    · exact h1 k h
    · exact h2 x (memget i x h) h'
  have hI : Inv false (ls ++ sc) tmp D b.hoist b.hoistS f2 ⟨bindVars ctx.env ls n, ctx.self, ctx.home⟩ ctx'
      { st with cells := st.cells ++ List.replicate ls.length .nil } st' := by
    refine ⟨⟨?_, ?_, ?_, I.rel.log, I.rel.act⟩, I.self.mono hle, I.home, ?_, ?_, ?_, ?_, ?_, ?_, ?_⟩
    · intro l l' h
      rcases f2some l l' h with ⟨_, h⟩ | ⟨i, x, hx, rfl, h'⟩
      · obtain ⟨v, v', e1, e2, e3⟩ := I.rel.cell l l' h
        refine ⟨v, v', ?_, e2, e3.mono hle⟩
        simp only; rw [List.getElem?_append_left (I.rel.dom h).1]; exact e1
      · refine ⟨.nil, .nil, ?_, I.nil rfl x (hsubn x (List.mem_append_left _ (memget i x hx))) l' h', .atom .nil⟩
        simp only
        rw [List.getElem?_append_right (by omega), List.getElem?_replicate, if_pos]
        have := (List.getElem?_eq_some_iff.1 hx).1
        omega
    · intro k l l' h1 h2
      rcases f2some k l' h1 with ⟨_, a⟩ | ⟨i, x, a1, a2, a3⟩ <;> rcases f2some l l' h2 with ⟨_, c⟩ | ⟨j, y, c1, c2, c3⟩
      · exact I.rel.inj k l l' a c
      · obtain ⟨m, e1, _, e3⟩ := I.ready y (hsub y (hl0 y (memget j y c1)))
        rw [c3] at e1; cases e1
        exact absurd a (e3 k)
      · obtain ⟨m, e1, _, e3⟩ := I.ready x (hsub x (hl0 x (memget i x a1)))
        rw [a3] at e1; cases e1
        exact absurd c (e3 l)
      · have hxy := I.inji x (hsu x (memget i x a1)) y (hsu y (memget j y c1)) (a3.trans c3.symm)
        subst hxy
        have := nodup_idx hndl a1 c1
        omega
    · exact I.rel.objs.mono fun _ _ x => x.mono hle
    · intro x hx
      by_cases hxl : x ∈ ls
      · obtain ⟨i, h1, _, h2⟩ := lget x hxl
        obtain ⟨l', e1, _, _⟩ := I.ready x (hsub x (hl0 x hxl))
        exact ⟨n + i, l', h2, e1, by rw [f2new i x h1]; exact e1⟩
      · obtain ⟨l, l', e1, e2, e3⟩ := I.hsc x ((List.mem_append.1 hx).resolve_left hxl)
        exact ⟨l, l', by simp only; rw [bn x hxl]; exact e1, e2, hle _ _ e3⟩
    · intro x hx
      obtain ⟨l, l', e1, e2, e3, e4, e5, e6⟩ := I.htmp x hx
      simp only [List.length_append, List.length_replicate]
      refine ⟨l, l', by rw [bn x (tl x hx)]; exact e1, e2, by omega, e4, by rw [f2old l (by omega)]; exact e5, hrange l' e6 ?_⟩
      intro y hy he
      have := I.inji y (hsu y hy) x (List.mem_append_right _ hx) (he.trans e2.symm)
      subst this
      exact tl y hx hy
    · intro x hx hxD l l' hl hl'
      simp only at hl
      rw [bn x (tl x hx)] at hl
      obtain ⟨v, v', e1, e2, e3⟩ := I.hd x hx hxD l l' hl hl'
      refine ⟨v, v', ?_, e2, e3.mono hle⟩
      simp only; rw [List.getElem?_append_left (List.getElem?_eq_some_iff.1 e1).1]; exact e1
    · intro x hx
      obtain ⟨l', e1, e2, e3⟩ := I.ready x (hsub x (hb0 x hx))
      refine ⟨l', e1, e2, hrange l' e3 ?_⟩
      intro y hy he
      have := I.inji y (hsu y hy) x (List.mem_append_left _ (hsub x (hb0 x hx))) (he.trans e1.symm)
      exact hndd y hy x hx this
    · intro x hx y hy h
      simp only at h
      rw [bn x (tl x hx), bn y (tl y hy)] at h
      exact I.injp x hx y hy h
    · have hmem : ∀ x, x ∈ b.hoist ++ tmp → x ∈ hs ++ tmp := by
        intro x hx
        simp only [List.mem_append] at hx ⊢
        exact hx.imp (fun h => hsub x (hb0 x h)) id
      intro x hx y hy
      exact I.inji x (hmem x hx) y (hmem y hy)
    · intro _ x hx
      exact I.nil rfl x (hsubn x (List.mem_append_right _ hx))
  obtain ⟨f3, hp, ho, hK⟩ := IH false (ls ++ sc) tmp D b f2 live _ ctx' _ st' hf (List.nodup_append.1 hnd).2.1
    (by
      intro x hx
      refine ⟨?_, (hdis x (hb0 x hx)).2⟩
      rw [List.mem_append, not_or]
      exact ⟨fun h => hndd x h x hx rfl, (hdis x (hb0 x hx)).1⟩) hI
  refine ⟨f3, ⟨hp.rel, hle.trans hp.ext, ?_, hp.szi, ?_, ?_, ?_, ?_⟩, ho, ?_⟩
  · refine Nat.le_trans ?_ hp.szp; simp
  · intro l hl h
    exact hp.newp l (by simp only [List.length_append]; omega) (by rw [f2old l (by omega)]; exact h)
  · intro l hl h hT
    rw [hp.frp l (by simp only [List.length_append]; omega) (by rw [f2old l (by omega)]; exact h) ?_]
    · simp only; rw [List.getElem?_append_left hl]
    · rintro ⟨x, hx, he⟩
      simp only at he
      rw [bn x (tl x hx)] at he
      exact hT ⟨x, hx, he⟩
  · intro l' hl h hH
    refine hp.newi l' hl (hrange l' h fun x hx he => hH ⟨rfl, x, List.mem_append_left _ hx, he⟩) ?_
    exact fun hx => hH ⟨rfl, locsOf_mono (fun x h => List.mem_append_right _ h) l' hx.2⟩
  · intro l' hl h hT hH
    refine hp.fri l' hl (hrange l' h fun x hx he => hH ⟨rfl, x, List.mem_append_left _ hx, he⟩) ?_ ?_
    · refine fun hx => hT (locsOf_mono ?_ l' hx)
      intro x hx
      simp only [List.mem_append] at hx ⊢
      exact hx.imp .inr id
    · exact fun hx => hH ⟨rfl, locsOf_mono (fun x h => List.mem_append_right _ h) l' hx.2⟩
  · intro hv x hx hxD l l' hl hl'
    refine hK hv x hx (b.sub_after D x hxD) l l' ?_ hl'
    simp only; rw [bn x (tl x hx)]; exact hl

theorem scope_sim {ev ev' : Ev} (IH : SimEv ev ev') {lp : Bool} {sc tmp D hs hn : List Var} {f : Map} {ctx ctx' : Ctx} {st st' : State}
    (I : Inv lp sc tmp D hs hn f ctx ctx' st st') (live : List Nat) {ls : List Var} {b : Ex}
    (hsub : ∀ x ∈ ls ++ b.hoist, x ∈ hs) (hsubn : lp = false → ∀ x ∈ ls ++ b.hoistS, x ∈ hn) (hnd : (ls ++ b.hoist).Nodup)
    (hdis : ∀ x ∈ ls ++ b.hoist, x ∉ sc ∧ x ∉ tmp) (hf : blockFine lp sc tmp D ls (fun lp sc tmp D => b.fine lp sc tmp D)) :
    G lp ctx ctx' tmp (ls ++ b.hoist) (ls ++ b.hoistS) f st st' (Kd tmp D ctx.env ctx'.env)
      (scope false ev live ctx ls b st) (scope true ev' live ctx' ls b st') := by
  cases lp with
  | false => exact scopeS_sim IH I live hsub (hsubn rfl) hnd hdis hf
  | true => exact scopeT_sim IH I live hsub hnd hdis hf.1 hf.2

end PySOM.Clo

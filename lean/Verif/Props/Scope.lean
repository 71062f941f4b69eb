import Verif.Lemmas.Scope
/-!
# C28: lexical addressing
-/
set_option autoImplicit false
namespace PySOM.Scope
open PySOM PySOM.Frame
open Spec (SVal SAct St)

/-! ## Static part -/

/-- The declaration of a name in a scope itself: a local hides an argument of the same name. -/
def declares (S : Scope) (x : String) : Prop := x ∈ S.locals ∨ x ∈ S.args

theorem idxOf?_none {l : List String} {x : String} : l.idxOf? x = none ↔ x ∉ l := by
  rw [List.idxOf?_eq_none_iff]

/-- **C28 (static).**  Resolution of a name finds the nearest enclosing declaration: the scope at the level found declares it, no
scope in between does; and it fails only if no enclosing scope declares the name. -/
theorem C28_nearest (ch : List (Nat × Scope)) (x : String) (lvl : Nat) :
    (∀ f, findVar ch x lvl = some f → lvl ≤ f.level ∧ ∃ S, ch[f.level - lvl]? = some (f.scope, S) ∧ declares S x ∧
        (if f.isArg then S.args[f.idx]? = some x ∧ x ∉ S.locals else S.locals[f.idx]? = some x) ∧
        ∀ p ∈ ch.take (f.level - lvl), ¬ declares p.2 x) ∧
    (findVar ch x lvl = none ↔ ∀ p ∈ ch, ¬ declares p.2 x) := by
  induction ch generalizing lvl with
  | nil => simp [findVar]
  | cons c ch ih =>
    obtain ⟨s, S⟩ := c
    simp only [findVar]
    cases hl : S.locals.idxOf? x with
    | some i =>
      have hd : S.locals[i]? = some x := by
        rw [List.idxOf?_eq_some_iff] at hl
        obtain ⟨h1, h2, _⟩ := hl
        simp [h1, h2]
      refine ⟨?_, ?_⟩
      · intro f hf
        simp only [Option.some.injEq] at hf
        subst hf
        exact ⟨Nat.le_refl _, S, by simp, Or.inl (List.mem_of_getElem? hd), by simpa using hd, by simp⟩
      · simp only [reduceCtorEq, false_iff]
        intro h
        exact h (s, S) (by simp) (Or.inl (List.mem_of_getElem? hd))
    | none =>
      have hnl := idxOf?_none.1 hl
      simp only
      cases hA : S.args.idxOf? x with
      | some i =>
        have hd : S.args[i]? = some x := by
          rw [List.idxOf?_eq_some_iff] at hA
          obtain ⟨h1, h2, _⟩ := hA
          simp [h1, h2]
        refine ⟨?_, ?_⟩
        · intro f hf
          simp only [Option.some.injEq] at hf
          subst hf
          exact ⟨Nat.le_refl _, S, by simp, Or.inr (List.mem_of_getElem? hd), by simpa using ⟨hd, hnl⟩, by simp⟩
        · simp only [reduceCtorEq, false_iff]
          intro h
          exact h (s, S) (by simp) (Or.inr (List.mem_of_getElem? hd))
      | none =>
        have hna := idxOf?_none.1 hA
        have hnd : ¬ declares S x := by rintro (h | h); exact hnl h; exact hna h
        obtain ⟨i1, i2⟩ := ih (lvl + 1)
        refine ⟨?_, ?_⟩
        · intro f hf
          obtain ⟨a1, T, a2, a3, a4, a5⟩ := i1 f hf
          refine ⟨by omega, T, ?_, a3, a4, ?_⟩
          · rw [show f.level - lvl = (f.level - (lvl + 1)) + 1 by omega, List.getElem?_cons_succ]; exact a2
          · intro p hp
            rw [show f.level - lvl = (f.level - (lvl + 1)) + 1 by omega, List.take_succ_cons, List.mem_cons] at hp
            rcases hp with rfl | hp
            · exact hnd
            · exact a5 p hp
        · simp only [i2, List.mem_cons, forall_eq_or_imp]
          exact ⟨fun h => ⟨hnd, h⟩, fun h => h.2⟩

/-- Both compilers resolve names in the same way. -/
theorem C28_same_resolution (ch : List (Nat × Scope)) (x : String) (lvl : Nat) :
    findVar ch x lvl = (match getVariable ch x, contextLevel ch x with
      | some (s, k, i), some l => some ⟨lvl + l, s, k, i⟩
      | _, _ => none) := by
  induction ch generalizing lvl with
  | nil => rfl
  | cons c ch ih =>
    obtain ⟨s, S⟩ := c
    simp only [findVar, getVariable, contextLevel]
    cases hl : S.locals.idxOf? x with
    | some i =>
      have : x ∈ S.locals := by
        by_cases h : x ∈ S.locals
        · exact h
        · rw [idxOf?_none.2 h] at hl; cases hl
      simp [this]
    | none =>
      have hnl := idxOf?_none.1 hl
      cases hA : S.args.idxOf? x with
      | some i =>
        have : x ∈ S.args := by
          by_cases h : x ∈ S.args
          · exact h
          · rw [idxOf?_none.2 h] at hA; cases hA
        simp [this]
      | none =>
        have hna := idxOf?_none.1 hA
        simp only [ih, hnl, hna, or_self, if_false]
        cases getVariable ch x with
        | none => rfl
        | some q => cases contextLevel ch x with
          | none => rfl
          | some l => simp only [Option.map_some, Option.some.injEq, Found.mk.injEq, and_true]; omega

/-! ## Dynamic part -/

/-- What an interpreter's access functions have to do for activation `b`'s variable at place `(cap, idx)`. -/
structure Access.Correct (X : Access) : Prop where
  read : ∀ (P : Prog) (iacts : List Act) (a : Nat) ia (b : Nat) ib n s k i cap idx v, iacts[a]? = some ia → iacts[b]? = some ib → place P ⟨n, s, k, i⟩ = .ok (cap, idx) →
    (n = 0 → ia = ib) → (0 < n → cap = true ∧ (∃ t, getBlockAt iacts ia n = .ok (.block t (some b))) ∧ ∃ l, ib.fr.inner = some l) →
    (k = true ∧ i = 0 → idx = 1 ∧ readVar ib.fr false 1 = .ok v) →
    readVar ib.fr cap idx = .ok v → X.read P iacts ia ⟨n, s, k, i⟩ = .ok v
  write : ∀ (P : Prog) (iacts : List Act) (a : Nat) ia (b : Nat) ib n s k i cap idx v fr', iacts[a]? = some ia → iacts[b]? = some ib → place P ⟨n, s, k, i⟩ = .ok (cap, idx) →
    (n = 0 → a = b ∧ ia = ib) → (0 < n → cap = true ∧ (∃ t, getBlockAt iacts ia n = .ok (.block t (some b))) ∧ ∃ l, ib.fr.inner = some l) →
    putAt ib.fr cap idx v = .ok fr' → X.write P iacts a ia ⟨n, s, k, i⟩ v = .ok (iacts.set b { ib with fr := fr' })

/-- The bytecode interpreter. -/
def bcAccess : Access := ⟨readBc, writeBc⟩
/-- The AST interpreter. -/
def astAccess : Access := ⟨readAst, writeAst⟩

theorem setOuter_eq (iacts : List Act) (t b idx : Nat) (ib : Act) (l : List Val) (v : Val) (fr' : Fr Val) (hb : iacts[b]? = some ib)
    (hl : ib.fr.inner = some l) (hp : putAt ib.fr true idx v = .ok fr') :
    setOuter iacts (.block t (some b)) idx v = .ok (iacts.set b { ib with fr := fr' }) := by
  simp only [putAt, if_true, hl, put] at hp
  split at hp
  · rename_i hlt
    simp only [bind, Except.bind, pure, Except.pure, Except.ok.injEq] at hp
    subst hp
    simp only [setOuter, hb, hl, hlt, if_true]
  · cases hp

theorem bcAccess_correct : bcAccess.Correct := by
  refine ⟨?_, ?_⟩
  · intro P iacts a ia b ib n s k i cap idx v ha hb hp h0 h1 hs hr
    simp only [bcAccess, readBc, hp, bind, Except.bind]
    by_cases hn : n = 0
    · have := h0 hn; subst this
      cases cap <;> simp [hn, hr]
    · obtain ⟨hc, ⟨t, ht⟩, l, hl⟩ := h1 (by omega)
      subst hc
      simp only [if_true, hn, if_false, ht]
      exact outer_get iacts t b idx ib l v hb hl hr
  · intro P iacts a ia b ib n s k i cap idx v fr' ha hb hp h0 h1 hw
    simp only [bcAccess, writeBc, hp, bind, Except.bind]
    by_cases hn : n = 0
    · have := h0 hn
      obtain ⟨e1, e2⟩ := this
      subst e1; subst e2
      cases cap <;> simp [hn, hw, pure, Except.pure]
    · obtain ⟨hc, ⟨t, ht⟩, l, hl⟩ := h1 (by omega)
      subst hc
      simp only [if_true, hn, if_false, ht]
      exact setOuter_eq iacts t b idx ib l v fr' hb hl hw

theorem astAccess_correct : astAccess.Correct := by
  refine ⟨?_, ?_⟩
  · intro P iacts a ia b ib n s k i cap idx v ha hb hp h0 h1 hs hr
    simp only [astAccess, readAst]
    by_cases hself : k = true ∧ i = 0
    · obtain ⟨e1, e2⟩ := hs hself
      subst e1
      simp only [hself, and_self, if_true, bind, Except.bind]
      by_cases hn : n = 0
      · have := h0 hn; subst this
        simp only [hn, Nat.lt_irrefl, if_false, rcvrIdx, gt_iff_lt]; exact e2
      · obtain ⟨hc, ⟨t, ht⟩, l, hl⟩ := h1 (by omega)
        subst hc
        simp only [show n > 0 by omega, if_true, ht]
        exact outer_get iacts t b 1 ib l v hb hl hr
    · simp only [hself, if_false, hp, bind, Except.bind]
      by_cases hn : n = 0
      · have := h0 hn; subst this
        simp only [hn, gt_iff_lt, Nat.lt_irrefl, if_false]; exact hr
      · obtain ⟨hc, ⟨t, ht⟩, l, hl⟩ := h1 (by omega)
        subst hc
        simp only [show n > 0 by omega, if_true, ht]
        exact outer_get iacts t b idx ib l v hb hl hr
  · intro P iacts a ia b ib n s k i cap idx v fr' ha hb hp h0 h1 hw
    simp only [astAccess, writeAst, hp, bind, Except.bind]
    by_cases hn : n = 0
    · have := h0 hn
      obtain ⟨e1, e2⟩ := this
      subst e1; subst e2
      simp [hn, hw, pure, Except.pure]
    · obtain ⟨hc, ⟨t, ht⟩, l, hl⟩ := h1 (by omega)
      subst hc
      simp only [show n > 0 by omega, if_true, ht]
      exact setOuter_eq iacts t b idx ib l v fr' hb hl hw

/-- Activations keep their scope. -/
def Same (sacts sacts' : List SAct) : Prop := ∀ (p : Nat) sp, sacts[p]? = some sp → ∃ sp', sacts'[p]? = some sp' ∧ sp'.scope = sp.scope

theorem Valid.mono {P : Prog} {sacts sacts' : List SAct} (h : Same sacts sacts') {v : SVal} (hv : Valid P sacts v) : Valid P sacts' v := by
  cases v with
  | obj n => trivial
  | block t p =>
    obtain ⟨sp, T, h1, h2, h3⟩ := hv
    obtain ⟨sp', e1, e2⟩ := h p sp h1
    exact ⟨sp', T, e1, h2, by rw [e2]; exact h3⟩

theorem ActOK.mono {P : Prog} {sacts sacts' : List SAct} (h : Same sacts sacts') {a : Nat} {sa : SAct} {ia : Act} {S : Scope} {m : Layout}
    (ok : ActOK P sacts a sa ia S m) : ActOK P sacts' a sa ia S m := by
  refine { ok with parentS := ?_ }
  intro o ho
  obtain ⟨p, sp, e1, e2, e3, e4, e5⟩ := ok.parentS o ho
  obtain ⟨sp', f1, f2⟩ := h p sp e3
  exact ⟨p, sp', e1, e2, f1, by rw [f2]; exact e4, e5⟩

theorem same_append (sacts l : List SAct) : Same sacts (sacts ++ l) := by
  intro p sp h
  exact ⟨sp, by rw [List.getElem?_append_left (lt_of_getElem? _ _ _ h)]; exact h, rfl⟩

theorem same_set (sacts : List SAct) (b : Nat) (sb sb' : SAct) (hb : sacts[b]? = some sb) (hs : sb'.scope = sb.scope) : Same sacts (sacts.set b sb') := by
  intro p sp h
  by_cases hp : b = p
  · subst hp
    refine ⟨sb', ?_, ?_⟩
    · rw [List.getElem?_set_self (lt_of_getElem? _ _ _ hb)]
    · rw [hb] at h; injection h with h; rw [hs, h]
  · exact ⟨sp, by rw [List.getElem?_set_ne hp]; exact h, rfl⟩

theorem pick_map (P : Prog) (regs : List SVal) (rs : List Nat) : Spec.pick (regs.map (conc P)) rs = (Spec.pick regs rs).map (List.map (conc P)) := by
  induction rs with
  | nil => rfl
  | cons r rs ih =>
    simp only [Spec.pick, List.getElem?_map, ih]
    cases regs[r]? with
    | none => rfl
    | some v => cases Spec.pick regs rs with
      | none => rfl
      | some vs => rfl

theorem pick_mem {regs : List SVal} {rs : List Nat} {vs : List SVal} (h : Spec.pick regs rs = some vs) : ∀ v ∈ vs, v ∈ regs := by
  induction rs generalizing vs with
  | nil => simp only [Spec.pick, Option.some.injEq] at h; subst h; simp
  | cons r rs ih =>
    simp only [Spec.pick] at h
    split at h
    · rename_i v ws hv hws
      injection h with h
      subst h
      intro w hw
      rcases List.mem_cons.1 hw with rfl | hw
      · exact List.mem_of_getElem? hv
      · exact ih hws w hw
    · cases h

/-- A new activation is fine. -/
theorem fresh_ok {P : Prog} {sacts : List SAct} (hw : WF P) (a s : Nat) (S : Scope) (parent : Option Nat) (v : SVal) (vs : List SVal)
    (hS : P.scopes[s]? = some S) (hlen : vs.length + 1 = S.args.length)
    (hpN : S.outer = none → parent = none)
    (hpS : ∀ o, S.outer = some o → ∃ p sp, parent = some p ∧ p < a ∧ sacts[p]? = some sp ∧ sp.scope = o ∧ v = .block s p) :
    ∃ m f, layoutOf P s S = .ok m ∧ activateAst nilV trueV (conc P v) (vs.map (conc P)) m = .ok f ∧
      ActOK P sacts a ⟨s, parent, v :: vs, List.replicate S.locals.length (.obj 0)⟩ ⟨s, f⟩ S m := by
  obtain ⟨m, hm, lok⟩ := layout_ok P s S (hw _ _ hS).1
  have hm' := hm
  rw [layoutOf, lok.flags] at hm'
  have hlen' : (vs.map (conc P)).length = m.argInner.length := by have := lok.argLen; simp; omega
  obtain ⟨f, h1, h2⟩ := C27_activation_ast nilV trueV (conc P v) (vs.map (conc P)) _ _ _ _ m hm' hlen'
  refine ⟨m, f, hm, h1, ?_⟩
  have hself : ∀ w, svar (⟨s, parent, v :: vs, List.replicate S.locals.length (.obj 0)⟩ : SAct) true 0 = some w → w = v := by
    intro w hw'
    simp only [svar, if_true, List.getElem?_cons_zero, Option.some.injEq] at hw'
    exact hw'.symm
  have hselfI : 0 < m.sizeInner → readVar f true 1 = .ok (conc P v) := by
    intro hs
    obtain ⟨l, e1, e2, e3, e4⟩ := h2.context hs
    rw [readVar_true _ _ e1]; exact e4
  refine ⟨rfl, hS, hm, by simpa using hlen, by simp, ?_, ?_, ?_, h2.size, h2.no_context, ?_, hpN, ?_⟩
  · intro isArg i w k hv hk
    cases isArg with
    | true =>
      cases i with
      | zero =>
        have := hself w hv; subst this
        rw [lok.self] at hk; injection hk with hk; subst hk
        cases hc : captured P s true 0 with
        | false => exact h2.self_frame
        | true =>
          have := lok.inner (Or.inr ⟨true, 0, by simp only [if_true]; omega, hc⟩)
          exact hselfI (by omega)
      | succ i =>
        simp only [svar, if_true, List.getElem?_cons_succ] at hv
        refine h2.arguments i (conc P w) _ k (by simp [hv]) ?_ hk
        rw [← lok.flags, argFlags]
        have hi := lt_of_getElem? _ _ _ hv
        simp [show i + 1 < S.args.length by omega]
    | false =>
      simp only [svar, Bool.false_eq_true, if_false] at hv
      have hi := lt_of_getElem? _ _ _ hv
      simp only [List.length_replicate] at hi
      simp only [List.getElem?_replicate, hi, if_true, Option.some.injEq] at hv
      subst hv
      refine h2.locals i _ k ?_ hk
      simp [localFlags, hi]
  · intro w hv; rw [hself w hv]; exact h2.self_frame
  · intro w hv hs; rw [hself w hv]; exact hselfI hs
  · intro hs
    obtain ⟨l, e1, e2, _⟩ := h2.context hs
    exact ⟨l, e1, e2⟩
  · intro o ho
    obtain ⟨p, sp, e1, e2, e3, e4, e5⟩ := hpS o ho
    subst e5
    exact ⟨p, sp, e1, e2, e3, e4, rfl⟩

theorem append_ok {P : Prog} {sacts : List SAct} {iacts : List Act} (h : ActsOK P sacts iacts) (sa : SAct) (ia : Act) (S : Scope) (m : Layout)
    (ok : ActOK P sacts sacts.length sa ia S m) (hv : ∀ isArg i v, svar sa isArg i = some v → Valid P sacts v) :
    ActsOK P (sacts ++ [sa]) (iacts ++ [ia]) := by
  have hsame := same_append sacts [sa]
  refine ⟨by simp [h.len], ?_, ?_⟩
  · intro a sa' ia' h1 h2
    by_cases hl : a < sacts.length
    · rw [List.getElem?_append_left hl] at h1
      rw [List.getElem?_append_left (by rw [← h.len]; exact hl)] at h2
      obtain ⟨S, m, ok⟩ := h.acts a sa' ia' h1 h2
      exact ⟨S, m, ok.mono hsame⟩
    · have := lt_of_getElem? _ _ _ h1
      simp only [List.length_append, List.length_cons, List.length_nil] at this
      have : a = sacts.length := by omega
      subst this
      simp only [List.getElem?_concat_length, Option.some.injEq] at h1
      rw [h.len] at h2
      simp only [List.getElem?_concat_length, Option.some.injEq] at h2
      subst h1; subst h2
      exact ⟨S, m, ok.mono hsame⟩
  · intro sa' hmem isArg i v hs
    rw [List.mem_append, List.mem_singleton] at hmem
    rcases hmem with hmem | rfl
    · exact (h.valid sa' hmem isArg i v hs).mono hsame
    · exact (hv isArg i v hs).mono hsame

/-- Writing a variable in both machines. -/
theorem write_ok {P : Prog} {sacts : List SAct} {iacts : List Act} (h : ActsOK P sacts iacts) (b : Nat) (sb sb' : SAct) (ib : Act)
    (S : Scope) (m : Layout) (k : Bool) (i idx : Nat) (v : SVal) (fr' : Fr Val)
    (hsb : sacts[b]? = some sb) (hib : iacts[b]? = some ib) (ok : ActOK P sacts b sb ib S m) (lok : LayoutOK P sb.scope S m)
    (hidx : varIdx m k i = some idx) (hns : ¬ (k = true ∧ i = 0)) (hval : Valid P sacts v)
    (hput : putAt ib.fr (captured P sb.scope k i) idx (conc P v) = .ok fr')
    (hsb' : sb'.scope = sb.scope ∧ sb'.parent = sb.parent ∧ sb'.argv.length = sb.argv.length ∧ sb'.locv.length = sb.locv.length ∧
      (∀ k' i', ¬ (k' = k ∧ i' = i) → svar sb' k' i' = svar sb k' i') ∧ svar sb' k i = some v) :
    ActsOK P (sacts.set b sb') (iacts.set b { ib with fr := fr' }) := by
  obtain ⟨s1, s2, s3, s4, s5, s6⟩ := hsb'
  have hsame := same_set sacts b sb sb' hsb s1
  have hin := lok.inside k i idx hidx hns
  obtain ⟨fr'', p1, p2, p3, p4, p5⟩ := putAt_spec ib.fr (captured P sb.scope k i) idx (conc P v) (by
    cases hc : captured P sb.scope k i with
    | true =>
      rw [hc] at hin
      simp only [if_true] at hin
      obtain ⟨l, e1, e2⟩ := ok.innerS (by omega)
      exact ⟨l, e1, by omega⟩
    | false =>
      rw [hc] at hin
      simp only [Bool.false_eq_true, if_false] at hin ⊢
      rw [ok.size]; exact hin.2)
  rw [hput] at p1
  injection p1 with p1
  subst p1
  have hself' : svar sb' true 0 = svar sb true 0 := s5 true 0 (by rintro ⟨rfl, rfl⟩; exact hns ⟨rfl, rfl⟩)
  refine ⟨by simp [h.len], ?_, ?_⟩
  · intro a sa ia h1 h2
    by_cases hab : b = a
    · subst hab
      rw [List.getElem?_set_self (lt_of_getElem? _ _ _ hsb)] at h1
      rw [List.getElem?_set_self (lt_of_getElem? _ _ _ hib)] at h2
      injection h1 with h1; injection h2 with h2
      subst h1; subst h2
      refine ⟨S, m, ?_⟩
      have ok := ok.mono hsame
      refine ⟨by rw [s1]; exact ok.scope, by rw [s1]; exact ok.hS, by rw [s1]; exact ok.hm, by rw [s3]; exact ok.argn,
        by rw [s4]; exact ok.locn, ?_, ?_, ?_, by rw [p4]; exact ok.size, ?_, ?_, by rw [s2]; exact ok.parentN, by rw [s1, s2, hself']; exact ok.parentS⟩
      · intro k' i' w idx' hw' hk'
        rw [s1]
        by_cases hkk : k' = k ∧ i' = i
        · obtain ⟨rfl, rfl⟩ := hkk
          rw [s6] at hw'; injection hw' with hw'; subst hw'
          rw [hidx] at hk'; injection hk' with hk'; subst hk'
          exact p2
        · rw [s5 k' i' hkk] at hw'
          rw [p3 _ _ ?_]
          · exact ok.vars k' i' w idx' hw' hk'
          · intro he
            injection he with he1 he2
            by_cases hs0 : k' = true ∧ i' = 0
            · obtain ⟨rfl, rfl⟩ := hs0
              rw [lok.self] at hk'; injection hk' with hk'
              omega
            · subst he2
              exact hkk (lok.distinct k' i' k i idx' hk' hidx hs0 hns he1)
      · intro w hw'
        rw [hself'] at hw'
        rw [p3 false 1 (by intro he; injection he with _ he; omega)]
        exact ok.selfF w hw'
      · intro w hw' hs
        rw [hself'] at hw'
        rw [p3 true 1 (by intro he; injection he with _ he; omega)]
        exact ok.selfI w hw' hs
      · intro hs
        have := ok.innerN hs
        rw [this] at p5
        cases hf : fr'.inner with
        | none => rfl
        | some l => rw [hf] at p5; cases p5
      · intro hs
        obtain ⟨l, e1, e2⟩ := ok.innerS hs
        rw [e1] at p5
        cases hf : fr'.inner with
        | none => rw [hf] at p5; cases p5
        | some l' => rw [hf] at p5; simp only [Option.map_some, Option.some.injEq] at p5; exact ⟨l', rfl, by omega⟩
    · rw [List.getElem?_set_ne hab] at h1 h2
      obtain ⟨S', m', ok'⟩ := h.acts a sa ia h1 h2
      exact ⟨S', m', ok'.mono hsame⟩
  · intro sa hmem k' i' w hw'
    apply Valid.mono hsame
    rcases List.mem_or_eq_of_mem_set hmem with hmem | rfl
    · exact h.valid sa hmem k' i' w hw'
    · by_cases hkk : k' = k ∧ i' = i
      · obtain ⟨rfl, rfl⟩ := hkk
        rw [s6] at hw'; injection hw' with hw'; subst hw'
        exact hval
      · rw [s5 k' i' hkk] at hw'
        exact h.valid sb (List.mem_of_getElem? hsb) k' i' w hw'

theorem svar_set (sb : SAct) (k : Bool) (i : Nat) (v w : SVal) (h : svar sb k i = some w) (sb' : SAct)
    (hsb : sb' = if k then { sb with argv := sb.argv.set i v } else { sb with locv := sb.locv.set i v }) :
    sb'.scope = sb.scope ∧ sb'.parent = sb.parent ∧ sb'.argv.length = sb.argv.length ∧ sb'.locv.length = sb.locv.length ∧
      (∀ k' i', ¬ (k' = k ∧ i' = i) → svar sb' k' i' = svar sb k' i') ∧ svar sb' k i = some v := by
  subst hsb
  have hi := lt_of_getElem? _ _ _ h
  cases k with
  | true =>
    simp only [if_true] at hi ⊢
    refine ⟨trivial, trivial, by simp, trivial, ?_, ?_⟩
    · intro k' i' hne
      cases k' with
      | true => simp only [svar, if_true]; rw [List.getElem?_set_ne]; rintro rfl; exact hne ⟨rfl, rfl⟩
      | false => rfl
    · simp only [svar, if_true]; rw [List.getElem?_set_self hi]
  | false =>
    simp only [Bool.false_eq_true, if_false] at hi ⊢
    refine ⟨trivial, trivial, trivial, by simp, ?_, ?_⟩
    · intro k' i' hne
      cases k' with
      | false => simp only [svar, Bool.false_eq_true, if_false]; rw [List.getElem?_set_ne]; rintro rfl; exact hne ⟨rfl, rfl⟩
      | true => rfl
    · simp only [svar, Bool.false_eq_true, if_false]; rw [List.getElem?_set_self hi]

/-- A scope whose block needs a context is around it, so it has a context itself. -/
theorem outer_has_ctx {P : Prog} (hw : WF P) (t : Nat) (T : Scope) (hT : P.scopes[t]? = some T) (s : Nat) (hts : T.outer = some s) (S : Scope)
    (hS : P.scopes[s]? = some S) (m : Layout) (lok : LayoutOK P s S m) (hreq : requires P t = true) : 2 ≤ m.sizeInner := by
  have hct := chain_eq _ _ _ hT (hw _ _ hT).2
  rw [hts] at hct
  simp only at hct
  have hcs := chain_eq _ _ _ hS (hw _ _ hS).2
  -- in any chain, what follows `t` is the chain of `s`
  have hsuffix : ∀ (u : Nat) (n : Nat), (∃ c, (chain P.scopes u)[n]? = some (t, c)) → (chain P.scopes u).drop (n + 1) = chain P.scopes s := by
    intro u
    induction u using Nat.strongRecOn with
    | _ u ih =>
      intro n ⟨c, hc⟩
      cases hu : P.scopes[u]? with
      | none => rw [chain, hu] at hc; simp at hc
      | some U =>
        have hcu := chain_eq _ _ _ hu (hw _ _ hu).2
        rw [hcu] at hc ⊢
        cases n with
        | zero =>
          simp only [List.getElem?_cons_zero, Option.some.injEq, Prod.mk.injEq] at hc
          obtain ⟨rfl, rfl⟩ := hc
          rw [hT] at hu; injection hu with hu; subst hu
          simp only [hts]; simp
        | succ n =>
          rw [List.getElem?_cons_succ] at hc
          rw [List.drop_succ_cons]
          cases ho : U.outer with
          | none => rw [ho] at hc; simp at hc
          | some o =>
            rw [ho] at hc
            exact ih o ((hw _ _ hu).2 o ho) n ⟨c, hc⟩
  simp only [requires, Bool.or_eq_true, List.any_eq_true] at hreq
  rcases hreq with ⟨u, hu, hu2⟩ | ⟨u, hu, hu2⟩
  · cases hf : findVar (chain P.scopes u.1) u.2 0 with
    | none => rw [hf] at hu2; cases hu2
    | some f =>
      rw [hf] at hu2
      simp only [List.contains_iff_mem, List.mem_map] at hu2
      obtain ⟨q, hq, hqt⟩ := hu2
      obtain ⟨n, hn⟩ := List.mem_iff_getElem?.1 hq
      have hnl : n < f.level := by
        have := lt_of_getElem? _ _ _ hn
        simp only [List.length_take] at this; omega
      rw [List.getElem?_take_of_lt hnl] at hn
      have hsuf := hsuffix u.1 n ⟨q.2, by rw [hn, ← hqt]⟩
      obtain ⟨_, S', e1, e2, e3, _⟩ := (C28_nearest (chain P.scopes u.1) u.2 0).1 f hf
      simp only [Nat.sub_zero] at e1
      by_cases hnf : n + 1 = f.level
      · -- found in `s` itself
        have e : (chain P.scopes s)[0]? = some (f.scope, S') := by
          rw [← hsuf, List.getElem?_drop, Nat.add_zero, hnf]; exact e1
        rw [hcs, List.getElem?_cons_zero] at e
        injection e with e
        injection e with e4 e5
        subst e5
        have hcap := captured_of_use (f := f) hu hf (by omega)
        refine lok.inner (Or.inr ⟨f.isArg, f.idx, ?_, by rw [e4]; exact hcap⟩)
        cases hk : f.isArg with
        | true => rw [hk] at e3; simp only [if_true] at e3 ⊢; exact lt_of_getElem? _ _ _ e3.1
        | false => rw [hk] at e3; simp only [Bool.false_eq_true, if_false] at e3 ⊢; exact lt_of_getElem? _ _ _ e3
      · refine lok.inner (Or.inl (requires_of_use (f := f) hu hf s ?_))
        rw [List.mem_map]
        refine ⟨(s, S), ?_, rfl⟩
        rw [List.mem_iff_getElem?]
        refine ⟨n + 1, ?_⟩
        rw [List.getElem?_take_of_lt (by omega)]
        have : (chain P.scopes s)[0]? = some (s, S) := by rw [hcs]; rfl
        rw [← hsuf, List.getElem?_drop, Nat.add_zero] at this
        exact this
  · simp only [List.contains_iff_mem, List.mem_map] at hu2
    obtain ⟨q, hq, hqt⟩ := hu2
    obtain ⟨n, hn⟩ := List.mem_iff_getElem?.1 hq
    have hsuf := hsuffix u n ⟨q.2, by rw [hn, ← hqt]⟩
    refine lok.inner (Or.inl ?_)
    simp only [requires, Bool.or_eq_true, List.any_eq_true]
    right
    refine ⟨u, hu, ?_⟩
    simp only [List.contains_iff_mem, List.mem_map]
    refine ⟨(s, S), ?_, rfl⟩
    have : (chain P.scopes s)[0]? = some (s, S) := by rw [hcs]; rfl
    rw [← hsuf, List.getElem?_drop, Nat.add_zero] at this
    exact List.mem_of_getElem? this

theorem step_ok (X : Access) (hX : X.Correct) {P : Prog} (hw : WF P) (st st' : St) (ist : ISt) (op : Op) (h : Inv P st ist)
    (hs : Spec.step P st op = some st') : ∃ ist', istep X P ist op = some ist' ∧ Inv P st' ist' := by
  obtain ⟨sacts, sregs⟩ := st
  obtain ⟨iacts, iregs⟩ := ist
  obtain ⟨ha, hregs, hval⟩ := h
  simp only at ha hregs hval
  subst hregs
  cases op with
  | const n =>
    simp only [Spec.step, Option.some.injEq] at hs
    subst hs
    refine ⟨_, rfl, ha, by simp [conc], ?_⟩
    intro v hv
    simp only [List.mem_append, List.mem_singleton] at hv
    rcases hv with hv | rfl
    · exact hval v hv
    · trivial
  | call s r rs =>
    simp only [Spec.step] at hs
    split at hs
    · rename_i S v vs hS hr hrs
      split at hs
      · rename_i hc
        simp only [Option.some.injEq] at hs
        subst hs
        obtain ⟨m, f, e1, e2, e3⟩ := fresh_ok (sacts := sacts) hw sacts.length s S none v vs hS hc.2 (fun _ => rfl) (by rw [hc.1]; intro o ho; cases ho)
        refine ⟨⟨iacts ++ [⟨s, f⟩], sregs.map (conc P)⟩, ?_, ?_, rfl, ?_⟩
        · simp only [istep, hS, List.getElem?_map, hr, Option.map_some, pick_map, hrs, e1, e2]
        · refine append_ok ha _ _ S m e3 ?_
          intro isArg i w hw'
          cases isArg with
          | true =>
            have := List.mem_of_getElem? hw'
            simp only [if_true, List.mem_cons] at this
            rcases this with rfl | hmem
            · exact hval _ (List.mem_of_getElem? hr)
            · exact hval _ (pick_mem hrs _ hmem)
          | false =>
            have := List.mem_of_getElem? hw'
            simp only [Bool.false_eq_true, if_false, List.mem_replicate] at this
            rw [this.2]; trivial
        · intro w hw'; exact (hval w hw').mono (same_append _ _)
      · cases hs
    · cases hs
  | callBlock r rs =>
    simp only [Spec.step] at hs
    split at hs
    · rename_i t p vs hr hrs
      cases hS : P.scopes[t]? with
      | none => rw [hS] at hs; cases hs
      | some S =>
        rw [hS] at hs
        simp only at hs
        split at hs
        · rename_i hc
          simp only [Option.some.injEq] at hs
          subst hs
          obtain ⟨sp, T, v1, v2, v3⟩ := hval _ (List.mem_of_getElem? hr)
          rw [hS] at v2; injection v2 with v2; subst v2
          obtain ⟨m, f, e1, e2, e3⟩ := fresh_ok (sacts := sacts) hw sacts.length t S (some p) (.block t p) vs hS hc (by rw [v3]; intro h; cases h) (by
            intro o ho
            rw [v3] at ho; injection ho with ho
            exact ⟨p, sp, rfl, lt_of_getElem? _ _ _ v1, v1, ho, rfl⟩)
          refine ⟨⟨iacts ++ [⟨t, f⟩], sregs.map (conc P)⟩, ?_, ?_, rfl, ?_⟩
          · simp only [conc] at e2
            simp only [istep, List.getElem?_map, hr, Option.map_some, pick_map, hrs, conc, hS, e1, e2]
          · refine append_ok ha _ _ S m e3 ?_
            intro isArg i w hw'
            cases isArg with
            | true =>
              have := List.mem_of_getElem? hw'
              simp only [if_true, List.mem_cons] at this
              rcases this with rfl | hmem
              · exact hval _ (List.mem_of_getElem? hr)
              · exact hval _ (pick_mem hrs _ hmem)
            | false =>
              have := List.mem_of_getElem? hw'
              simp only [Bool.false_eq_true, if_false, List.mem_replicate] at this
              rw [this.2]; trivial
          · intro w hw'; exact (hval w hw').mono (same_append _ _)
        · cases hs
    · cases hs
  | mkBlock a t =>
    simp only [Spec.step] at hs
    split at hs
    · rename_i act T hact hT
      split at hs
      · rename_i ho
        simp only [Option.some.injEq] at hs
        subst hs
        obtain ⟨ia, S, m, hia, ok⟩ := ha.get hact
        refine ⟨⟨iacts, sregs.map (conc P) ++ [mkBlock P a ia t]⟩, by simp only [istep, hia], ha, ?_, ?_⟩
        · simp only [List.map_append, List.map_cons, List.map_nil]
          congr 2
          simp only [mkBlock, conc]
          split
          · rename_i hreq
            obtain ⟨m', hm', lok⟩ := layout_ok P act.scope S (hw _ _ ok.hS).1
            rw [ok.hm] at hm'; injection hm' with hm'; subst hm'
            have := outer_has_ctx hw t T hT act.scope ho S ok.hS m lok hreq
            obtain ⟨l, hl, _⟩ := ok.innerS (by omega)
            simp [hl]
          · rfl
        · intro v hv
          simp only [List.mem_append, List.mem_singleton] at hv
          rcases hv with hv | rfl
          · exact hval v hv
          · exact ⟨act, T, hact, hT, ho⟩
      · cases hs
    · cases hs
  | read a x =>
    simp only [Spec.step] at hs
    split at hs
    · rename_i act hact
      split at hs
      · rename_i hu
        obtain ⟨ia, Sa, ma, hia, oka⟩ := ha.get hact
        cases hr : Spec.resolve P.scopes sacts a x with
        | none => simp only [Spec.read, hr] at hs; cases hs
        | some q =>
          obtain ⟨b, k, i⟩ := q
          obtain ⟨n, sb, ib, S, m, idx, v, h1, h2, h3, ok, lok, h4, h5, h6, h7, h8⟩ := access ha hw a act ia x b k i hact hia hu hr
          have hread : Spec.read P.scopes sacts a x = some v := by
            simp only [Spec.read, hr, h2]
            cases k <;> simpa [svar] using h5
          rw [hread] at hs
          simp only [Option.some.injEq] at hs
          subst hs
          have hx := hX.read P iacts a ia b ib n sb.scope k i _ idx (conc P v) hia h3 h6 (fun hn => (h7 hn).2) h8 (by
            rintro ⟨rfl, rfl⟩
            rw [lok.self] at h4; injection h4 with h4
            exact ⟨h4.symm, ok.selfF v h5⟩) (ok.vars k i v idx h5 h4)
          refine ⟨⟨iacts, sregs.map (conc P) ++ [conc P v]⟩, ?_, ha, by simp, ?_⟩
          · simp only [istep, hia, oka.scope, h1, hx]
          · intro w hw'
            simp only [List.mem_append, List.mem_singleton] at hw'
            rcases hw' with hw' | rfl
            · exact hval w hw'
            · exact ha.valid sb (List.mem_of_getElem? h2) k i w h5
      · cases hs
    · cases hs
  | write a x r =>
    simp only [Spec.step] at hs
    split at hs
    · rename_i act v hact hv
      split at hs
      · rename_i hu
        obtain ⟨ia, Sa, ma, hia, oka⟩ := ha.get hact
        cases hr : Spec.resolve P.scopes sacts a x with
        | none => simp only [Spec.write, hr] at hs; cases hs
        | some q =>
          obtain ⟨b, k, i⟩ := q
          obtain ⟨n, sb, ib, S, m, idx, w, h1, h2, h3, ok, lok, h4, h5, h6, h7, h8⟩ := access ha hw a act ia x b k i hact hia hu hr
          have hns : ¬ (k = true ∧ i = 0) := by
            rintro ⟨rfl, rfl⟩
            rw [hr] at hs
            cases hs
          have hs' : st' = ⟨sacts.set b (if k then { sb with argv := sb.argv.set i v } else { sb with locv := sb.locv.set i v }), sregs⟩ := by
            have hwr : Spec.write P.scopes sacts a x v = some (sacts.set b (if k then { sb with argv := sb.argv.set i v } else { sb with locv := sb.locv.set i v })) := by
              simp only [Spec.write, hr, h2]
            rw [hr, hwr] at hs
            cases k with
            | false => simp only [Option.some.injEq] at hs; exact hs.symm
            | true =>
              cases i with
              | zero => exact absurd ⟨rfl, rfl⟩ hns
              | succ i => simp only [Option.some.injEq] at hs; exact hs.symm
          subst hs'
          have hin := lok.inside k i idx h4 hns
          obtain ⟨fr', p1, _⟩ := putAt_spec ib.fr (captured P sb.scope k i) idx (conc P v) (by
            cases hc : captured P sb.scope k i with
            | true =>
              rw [hc] at hin
              simp only [if_true] at hin
              obtain ⟨l, e1, e2⟩ := ok.innerS (by omega)
              exact ⟨l, e1, by omega⟩
            | false =>
              rw [hc] at hin
              simp only [Bool.false_eq_true, if_false] at hin ⊢
              rw [ok.size]; exact hin.2)
          have hx := hX.write P iacts a ia b ib n sb.scope k i _ idx (conc P v) fr' hia h3 h6 h7 h8 p1
          have hset := svar_set sb k i v w h5 _ rfl
          refine ⟨⟨iacts.set b { ib with fr := fr' }, sregs.map (conc P)⟩, ?_, ?_, rfl, ?_⟩
          · simp only [istep, hia, oka.scope, List.getElem?_map, hv, Option.map_some, h1, hx]
          · exact write_ok ha b sb _ ib S m k i idx v fr' h2 h3 ok lok h4 hns (hval v (List.mem_of_getElem? hv)) p1 hset
          · intro z hz
            exact (hval z hz).mono (same_set sacts b sb _ h2 hset.1)
      · cases hs
    · cases hs

/-- **C28.**  For every program and every history of calls, block creations, block calls, variable reads and writes which the
textbook semantics of lexical scoping allows, both interpreters do the same: each access by address reaches the storage of the
variable that the textbook search by name from the current activation outwards finds, and no other, and never fails. -/
theorem C28_addressing (X : Access) (hX : X = bcAccess ∨ X = astAccess) (P : Prog) (hw : WF P) (ops : List Op) (st : St)
    (hrun : Spec.run P ⟨[], []⟩ ops = some st) :
    ∃ ist, irun X P ⟨[], []⟩ ops = some ist ∧ ist.regs = st.regs.map (conc P) := by
  have hX' : X.Correct := by
    rcases hX with rfl | rfl
    · exact bcAccess_correct
    · exact astAccess_correct
  have gen : ∀ (ops : List Op) (s0 : St) (i0 : ISt), Inv P s0 i0 → Spec.run P s0 ops = some st →
      ∃ ist, irun X P i0 ops = some ist ∧ ist.regs = st.regs.map (conc P) := by
    intro ops
    induction ops with
    | nil =>
      intro s0 i0 hinv hr
      simp only [Spec.run, Option.some.injEq] at hr
      subst hr
      exact ⟨i0, rfl, hinv.regs⟩
    | cons op ops ih =>
      intro s0 i0 hinv hr
      simp only [Spec.run] at hr
      cases hs : Spec.step P s0 op with
      | none => rw [hs] at hr; cases hr
      | some s1 =>
        rw [hs] at hr
        obtain ⟨i1, e1, e2⟩ := step_ok X hX' hw s0 s1 i0 op hinv hs
        simp only [irun, e1]
        exact ih s1 i1 e2 hr
  exact gen ops _ _ ⟨⟨rfl, by simp, by simp⟩, rfl, by simp⟩ hrun

/-! ### A counter

`make = ( | n | n := 0. ^ [:d | [ n := d. n ] ] )`: two counters from two calls of `make` do not share `n`; the inner block reaches
`n` over two levels. -/

def exProg : Prog :=
  { scopes := [⟨["self"], ["n"], none⟩, ⟨["$blockSelf", "d"], [], some 0⟩, ⟨["$blockSelf"], [], some 1⟩]
    uses := [(0, "n"), (2, "n"), (2, "d")]
    marks := [] }

theorem exProg_wf : WF exProg := by
  intro s S h
  match s, h with
  | 0, h => simp [exProg] at h; subst h; simp
  | 1, h => simp [exProg] at h; subst h; simp
  | 2, h => simp [exProg] at h; subst h; simp
  | s + 3, h => simp [exProg] at h

def exOps : List Op :=
  [.const 7, .const 10, .const 20,          -- values 0, 1, 2
   .call 0 0 [], .call 0 0 [],               -- activations 0 and 1
   .write 0 "n" 1, .mkBlock 0 1, .mkBlock 1 1, -- values 3 and 4
   .callBlock 3 [2], .mkBlock 2 2,           -- activation 2, value 5
   .callBlock 5 [], .read 3 "d", .write 3 "n" 6, -- activation 3; value 6 is 20
   .read 3 "n", .read 0 "n", .read 1 "n"]    -- values 7, 8, 9: 20, 20, nil

example : (Spec.run exProg ⟨[], []⟩ exOps).map (fun st => st.regs.drop 6) = some [.obj 20, .obj 20, .obj 20, .obj 0] := by decide +kernel
example : (irun bcAccess exProg ⟨[], []⟩ exOps).map (fun st => st.regs.drop 6) = some [.obj 20, .obj 20, .obj 20, .obj 0] := by decide +kernel
example : (irun astAccess exProg ⟨[], []⟩ exOps).map (fun st => st.regs.drop 6) = some [.obj 20, .obj 20, .obj 20, .obj 0] := by decide +kernel

end PySOM.Scope

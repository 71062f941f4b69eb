import Verif.Props.Frame
import Verif.Spec.Scope
set_option autoImplicit false
namespace PySOM.Scope
open PySOM PySOM.Frame

/-! ## Layouts -/

def varIdx (m : Layout) (isArg : Bool) (i : Nat) : Option Nat := (if isArg then m.argIdx else m.localIdx)[i]?

structure LayoutOK (P : Prog) (s : Nat) (S : Scope) (m : Layout) : Prop where
  has : ∀ isArg i, i < (if isArg then S.args.length else S.locals.length) → ∃ k, varIdx m isArg i = some k
  bound : ∀ isArg i k, varIdx m isArg i = some k → i < (if isArg then S.args.length else S.locals.length)
  self : varIdx m true 0 = some 1
  inside : ∀ isArg i k, varIdx m isArg i = some k → ¬ (isArg = true ∧ i = 0) →
    2 ≤ k ∧ k < (if captured P s isArg i then m.sizeInner else m.sizeFrame)
  distinct : ∀ isArg i isArg' i' k, varIdx m isArg i = some k → varIdx m isArg' i' = some k → ¬ (isArg = true ∧ i = 0) → ¬ (isArg' = true ∧ i' = 0) →
    captured P s isArg i = captured P s isArg' i' → isArg = isArg' ∧ i = i'
  frame : 2 ≤ m.sizeFrame
  inner : requires P s = true ∨ (∃ isArg i, i < (if isArg then S.args.length else S.locals.length) ∧ captured P s isArg i = true) → 2 ≤ m.sizeInner
  flags : argFlags P s S = captured P s true 0 :: m.argInner
  argLen : m.argInner.length + 1 = S.args.length

theorem nodup_index {α : Type} (l : List α) (h : l.Nodup) (i j : Nat) (p : α) (hi : l[i]? = some p) (hj : l[j]? = some p) : i = j := by
  obtain ⟨h1, e1⟩ := List.getElem?_eq_some_iff.1 hi
  obtain ⟨h2, e2⟩ := List.getElem?_eq_some_iff.1 hj
  exact (List.getElem_inj h).1 (e1.trans e2.symm)

theorem lt_of_getElem? {α : Type} (l : List α) (i : Nat) (v : α) (h : l[i]? = some v) : i < l.length :=
  (List.getElem?_eq_some_iff.1 h).1

theorem layout_ok (P : Prog) (s : Nat) (S : Scope) (hS : S.args ≠ []) : ∃ m, layoutOf P s S = .ok m ∧ LayoutOK P s S m := by
  obtain ⟨n, hn⟩ : ∃ n, S.args.length = n + 1 := by
    cases h : S.args with
    | nil => exact absurd h hS
    | cons a l => exact ⟨l.length, rfl⟩
  have hfl : argFlags P s S = captured P s true 0 :: (List.range n).map (fun i => captured P s true (i + 1)) := by
    simp only [argFlags, hn, List.range_succ_eq_map, List.map_cons, List.map_map]; rfl
  obtain ⟨m, h1, h2, h3⟩ := C26_separate_storage (captured P s true 0) ((List.range n).map (fun i => captured P s true (i + 1)))
    (localFlags P s S) (requires P s)
  refine ⟨m, by rw [layoutOf, hfl]; exact h1, ?_⟩
  have la : m.argIdx.length = n + 1 := by rw [h3.all_args]; simp
  have ll : m.localIdx.length = S.locals.length := by rw [h3.all_locals]; simp [localFlags]
  obtain ⟨rest, hrest⟩ : ∃ rest, m.argIdx = 1 :: rest := by
    have := h3.receiver
    cases h : m.argIdx with
    | nil => rw [h] at la; cases la
    | cons a l => rw [h] at this; simp at this; subst this; exact ⟨l, rfl⟩
  have lr : rest.length = n := by rw [hrest] at la; simpa using la
  have hp : Frame.Spec.places (captured P s true 0 :: (List.range n).map (fun i => captured P s true (i + 1))) (localFlags P s S) m =
      ((List.range n).map (fun i => captured P s true (i + 1))).zip rest ++ (localFlags P s S).zip m.localIdx := by
    simp [Frame.Spec.places, hrest]
  have posA : ∀ i k, varIdx m true (i + 1) = some k →
      (Frame.Spec.places (captured P s true 0 :: (List.range n).map (fun i => captured P s true (i + 1))) (localFlags P s S) m)[i]? = some (captured P s true (i + 1), k) := by
    intro i k h
    simp only [varIdx, if_true, hrest, List.getElem?_cons_succ] at h
    have hi := lt_of_getElem? _ _ _ h
    rw [hp, List.getElem?_append_left (by simp [lr]; omega), List.getElem?_zip_eq_some]
    exact ⟨by simp [show i < n by omega], h⟩
  have posL : ∀ i k, varIdx m false i = some k →
      (Frame.Spec.places (captured P s true 0 :: (List.range n).map (fun i => captured P s true (i + 1))) (localFlags P s S) m)[n + i]? = some (captured P s false i, k) := by
    intro i k h
    simp only [varIdx, Bool.false_eq_true, if_false] at h
    have hi := lt_of_getElem? _ _ _ h
    have hz : (((List.range n).map (fun i => captured P s true (i + 1))).zip rest).length = n := by simp [lr]
    rw [hp, List.getElem?_append_right (by omega), hz, show n + i - n = i by omega, List.getElem?_zip_eq_some]
    exact ⟨by simp [localFlags, show i < S.locals.length by omega], h⟩
  have pos : ∀ isArg i k, varIdx m isArg i = some k → ¬ (isArg = true ∧ i = 0) →
      (Frame.Spec.places (captured P s true 0 :: (List.range n).map (fun i => captured P s true (i + 1))) (localFlags P s S) m)[if isArg then i - 1 else n + i]? = some (captured P s isArg i, k) := by
    intro isArg i k h hne
    cases isArg with
    | true =>
      cases i with
      | zero => exact absurd ⟨rfl, rfl⟩ hne
      | succ i => simpa using posA i k h
    | false => simpa using posL i k h
  have bound : ∀ isArg i k, varIdx m isArg i = some k → i < (if isArg then S.args.length else S.locals.length) := by
    intro isArg i k h
    cases isArg with
    | true => have := lt_of_getElem? _ _ _ h; simp only [if_true] at this ⊢; omega
    | false => have := lt_of_getElem? _ _ _ h; simp only [Bool.false_eq_true, if_false] at this ⊢; omega
  refine ⟨?_, bound, by simp [varIdx, hrest], ?_, ?_, ?_, ?_, ?_, ?_⟩
  · intro isArg i h
    cases isArg with
    | true => simp only [if_true] at h; exact ⟨m.argIdx[i]'(by omega), by simp [varIdx, show i < m.argIdx.length by omega]⟩
    | false => simp only [Bool.false_eq_true, if_false] at h; exact ⟨m.localIdx[i]'(by omega), by simp [varIdx, show i < m.localIdx.length by omega]⟩
  · intro isArg i k h hne
    have := h3.inside _ (List.mem_of_getElem? (pos isArg i k h hne))
    exact this
  · intro isArg i isArg' i' k h h' hne hne' hc
    have e1 := pos isArg i k h hne
    have e2 := pos isArg' i' k h' hne'
    rw [hc] at e1
    have e := nodup_index _ h3.distinct _ _ _ e1 e2
    have b1 := bound isArg i k h
    have b2 := bound isArg' i' k h'
    cases isArg <;> cases isArg' <;> simp only [Bool.false_eq_true, if_false, if_true, false_and, not_false_eq_true, true_and] at e hne hne' b1 b2 ⊢ <;> omega
  · have := h3.frame_size; omega
  · intro h
    have hi := h3.inner_size
    rw [if_pos] at hi
    · omega
    · rcases h with h | ⟨isArg, i, h1, h2⟩
      · exact Or.inl h
      · refine Or.inr ?_
        rw [List.mem_append]
        cases isArg with
        | true =>
          left
          rw [← hfl, argFlags, List.mem_map]
          exact ⟨i, by simpa using h1, h2⟩
        | false =>
          right
          rw [localFlags, List.mem_map]
          exact ⟨i, by simpa using h1, h2⟩
  · rw [hfl, h2]
  · rw [h2, hn]; simp

theorem place_ok (P : Prog) (l s : Nat) (S : Scope) (m : Layout) (isArg : Bool) (i k : Nat) (hS : P.scopes[s]? = some S)
    (hm : layoutOf P s S = .ok m) (hk : varIdx m isArg i = some k) : place P ⟨l, s, isArg, i⟩ = .ok (captured P s isArg i, k) := by
  simp only [place, hS, hm, bind, Except.bind]
  rw [pyGet_some _ _ _ hk]
  rfl

/-! ## Scopes and activations -/

theorem idxOf?_lt {l : List String} {x : String} {i : Nat} (h : l.idxOf? x = some i) : i < l.length := by
  rw [List.idxOf?_eq_some_iff] at h
  obtain ⟨h, _⟩ := h
  exact h

theorem chain_eq (sc : List Scope) (s : Nat) (S : Scope) (h : sc[s]? = some S) (hw : ∀ o, S.outer = some o → o < s) :
    chain sc s = (s, S) :: (match S.outer with | none => [] | some o => chain sc o) := by
  rw [chain, h]
  cases ho : S.outer with
  | none => simp [ho]
  | some o => simp [ho, hw o ho]

open Spec (SVal SAct St)

/-- The implementation's value for a value of the specification. -/
def conc (P : Prog) : SVal → Val
  | .obj n => .obj n
  | .block t p => .block t (if requires P t then some p else none)

def svar (sa : SAct) (isArg : Bool) (i : Nat) : Option SVal := (if isArg then sa.argv else sa.locv)[i]?

structure ActOK (P : Prog) (sacts : List SAct) (a : Nat) (sa : SAct) (ia : Act) (S : Scope) (m : Layout) : Prop where
  scope : ia.scope = sa.scope
  hS : P.scopes[sa.scope]? = some S
  hm : layoutOf P sa.scope S = .ok m
  argn : sa.argv.length = S.args.length
  locn : sa.locv.length = S.locals.length
  vars : ∀ isArg i v k, svar sa isArg i = some v → varIdx m isArg i = some k → readVar ia.fr (captured P sa.scope isArg i) k = .ok (conc P v)
  selfF : ∀ v, svar sa true 0 = some v → readVar ia.fr false 1 = .ok (conc P v)
  selfI : ∀ v, svar sa true 0 = some v → 0 < m.sizeInner → readVar ia.fr true 1 = .ok (conc P v)
  size : ia.fr.slots.length = m.sizeFrame
  innerN : m.sizeInner = 0 → ia.fr.inner = none
  innerS : 0 < m.sizeInner → ∃ l, ia.fr.inner = some l ∧ l.length = m.sizeInner
  parentN : S.outer = none → sa.parent = none
  parentS : ∀ o, S.outer = some o → ∃ p sp, sa.parent = some p ∧ p < a ∧ sacts[p]? = some sp ∧ sp.scope = o ∧ svar sa true 0 = some (.block sa.scope p)

def Valid (P : Prog) (sacts : List SAct) : SVal → Prop
  | .obj _ => True
  | .block t p => ∃ sp T, sacts[p]? = some sp ∧ P.scopes[t]? = some T ∧ T.outer = some sp.scope

structure ActsOK (P : Prog) (sacts : List SAct) (iacts : List Act) : Prop where
  len : sacts.length = iacts.length
  acts : ∀ (a : Nat) sa ia, sacts[a]? = some sa → iacts[a]? = some ia → ∃ S m, ActOK P sacts a sa ia S m
  valid : ∀ sa ∈ sacts, ∀ isArg i v, svar sa isArg i = some v → Valid P sacts v

structure Inv (P : Prog) (st : St) (ist : ISt) : Prop where
  acts : ActsOK P st.acts ist.acts
  regs : ist.regs = st.regs.map (conc P)
  valid : ∀ v ∈ st.regs, Valid P st.acts v

theorem ActsOK.get {P : Prog} {sacts : List SAct} {iacts : List Act} (h : ActsOK P sacts iacts) {a : Nat} {sa : SAct} (ha : sacts[a]? = some sa) :
    ∃ ia S m, iacts[a]? = some ia ∧ ActOK P sacts a sa ia S m := by
  have hl := lt_of_getElem? _ _ _ ha
  have hi : iacts[a]? = some (iacts[a]'(by rw [← h.len]; exact hl)) := by simp [show a < iacts.length by rw [← h.len]; exact hl]
  obtain ⟨S, m, hok⟩ := h.acts a sa _ ha hi
  exact ⟨_, S, m, hi, hok⟩

theorem ActsOK.geti {P : Prog} {sacts : List SAct} {iacts : List Act} (h : ActsOK P sacts iacts) {a : Nat} {ia : Act} (ha : iacts[a]? = some ia) :
    ∃ sa S m, sacts[a]? = some sa ∧ ActOK P sacts a sa ia S m := by
  have hl := lt_of_getElem? _ _ _ ha
  have hi : sacts[a]? = some (sacts[a]'(by rw [h.len]; exact hl)) := by simp [show a < sacts.length by rw [h.len]; exact hl]
  obtain ⟨S, m, hok⟩ := h.acts a _ ia hi ha
  exact ⟨_, S, m, hi, hok⟩

/-- `b` is `n` steps outwards from `a`. -/
inductive Anc (sacts : List SAct) : Nat → Nat → Nat → Prop
  | refl (a : Nat) : Anc sacts a 0 a
  | step (a n b p : Nat) (sa : SAct) : sacts[a]? = some sa → sa.parent = some p → Anc sacts p n b → Anc sacts a (n + 1) b

theorem Anc.inv {sacts : List SAct} {a n b : Nat} (h : Anc sacts a (n + 1) b) : ∃ p sa, sacts[a]? = some sa ∧ sa.parent = some p ∧ Anc sacts p n b := by
  generalize hm : n + 1 = m at h
  cases h with
  | refl => cases hm
  | step => injection hm with hm; subst hm; exact ⟨_, _, by assumption, by assumption, by assumption⟩

theorem Anc.inv0 {sacts : List SAct} {a b : Nat} (h : Anc sacts a 0 b) : a = b := by
  cases h; rfl

/-- The static search of the compiler finds the declaration which the dynamic search of the specification finds, and the level is
the number of activations in between. -/
theorem resolve_findVar {P : Prog} {sacts : List SAct} {iacts : List Act} (h : ActsOK P sacts iacts) (hw : WF P) (a : Nat) (sa : SAct) (x : String)
    (lvl b : Nat) (k : Bool) (i : Nat) (ha : sacts[a]? = some sa) (hr : Spec.resolve P.scopes sacts a x = some (b, k, i)) :
    ∃ n sb, sacts[b]? = some sb ∧ findVar (chain P.scopes sa.scope) x lvl = some ⟨lvl + n, sb.scope, k, i⟩ ∧ Anc sacts a n b ∧
      ∃ v, svar sb k i = some v := by
  induction a using Nat.strongRecOn generalizing sa lvl with
  | _ a ih =>
    obtain ⟨ia, S, m, _, ok⟩ := h.get ha
    rw [chain_eq _ _ _ ok.hS (hw _ _ ok.hS).2]
    rw [Spec.resolve, ha] at hr
    simp only [ok.hS] at hr
    simp only [findVar]
    cases hl : S.locals.idxOf? x with
    | some j =>
      simp only [hl, Option.some.injEq, Prod.mk.injEq] at hr
      obtain ⟨rfl, rfl, rfl⟩ := hr
      have := idxOf?_lt hl
      exact ⟨0, sa, ha, rfl, Anc.refl _, sa.locv[j]'(by rw [ok.locn]; exact this), by simp [svar, ok.locn, this]⟩
    | none =>
      simp only [hl] at hr
      cases hA : S.args.idxOf? x with
      | some j =>
        simp only [hA, Option.some.injEq, Prod.mk.injEq] at hr
        obtain ⟨rfl, rfl, rfl⟩ := hr
        have := idxOf?_lt hA
        exact ⟨0, sa, ha, rfl, Anc.refl _, sa.argv[j]'(by rw [ok.argn]; exact this), by simp [svar, ok.argn, this]⟩
      | none =>
        simp only [hA] at hr
        cases ho : S.outer with
        | none => rw [ok.parentN ho] at hr; cases hr
        | some o =>
          obtain ⟨p, sp, e1, e2, e3, e4, _⟩ := ok.parentS o ho
          simp only [e1, e2, if_true] at hr
          obtain ⟨n, sb, r1, r2, r3, r4⟩ := ih p e2 sp (lvl + 1) e3 hr
          refine ⟨n + 1, sb, r1, ?_, Anc.step a n b p sa ha e1 r3, r4⟩
          simp only [← e4, r2]
          congr 2; omega

theorem outer_get (iacts : List Act) (t b idx : Nat) (ib : Act) (l : List Val) (v : Val) (hb : iacts[b]? = some ib) (hl : ib.fr.inner = some l)
    (hv : readVar ib.fr true idx = .ok v) : getFromOuter iacts (.block t (some b)) idx = .ok v := by
  rw [readVar_true _ _ hl] at hv
  simp only [getFromOuter, hb, hl, hv]

/-- Walking outwards through the receivers reaches the context of the ancestor. -/
theorem walk {P : Prog} {sacts : List SAct} {iacts : List Act} (h : ActsOK P sacts iacts) (hw : WF P) (n : Nat) (a b : Nat) (sa : SAct) (v : SVal)
    (ha : sacts[a]? = some sa) (hv : svar sa true 0 = some v) (hanc : Anc sacts a (n + 1) b)
    (hreq : ∀ q ∈ ((chain P.scopes sa.scope).take (n + 1)).map Prod.fst, requires P q = true) :
    ∃ t, outerTimes iacts n (conc P v) = .ok (.block t (some b)) := by
  induction n generalizing a sa v with
  | zero =>
    · obtain ⟨q, sa', h1, h2, h3⟩ := hanc.inv
      rw [ha] at h1; injection h1 with h1; subst h1
      have h3 := h3.inv0; subst h3
      obtain ⟨ia, S, m, _, ok⟩ := h.get ha
      cases ho : S.outer with
      | none => rw [ok.parentN ho] at h2; cases h2
      | some o =>
        obtain ⟨p, sp, e1, e2, e3, e4, e5⟩ := ok.parentS o ho
        rw [e1] at h2; injection h2 with h2; subst h2
        rw [hv] at e5; injection e5 with e5; subst e5
        have : requires P sa.scope = true := hreq _ (by rw [chain_eq _ _ _ ok.hS (hw _ _ ok.hS).2]; simp)
        exact ⟨sa.scope, by simp [outerTimes, conc, this]⟩
  | succ n ih =>
    · obtain ⟨q, sa', h1, h2, h3⟩ := hanc.inv
      rw [ha] at h1; injection h1 with h1; subst h1
      obtain ⟨ia, S, m, _, ok⟩ := h.get ha
      cases ho : S.outer with
      | none => rw [ok.parentN ho] at h2; cases h2
      | some o =>
        obtain ⟨p, sp, e1, e2, e3, e4, e5⟩ := ok.parentS o ho
        rw [e1] at h2; injection h2 with h2; subst h2
        rw [hv] at e5; injection e5 with e5; subst e5
        have hc := chain_eq _ _ _ ok.hS (hw _ _ ok.hS).2
        rw [ho] at hc
        have hreq0 : requires P sa.scope = true := hreq _ (by rw [hc]; simp)
        obtain ⟨ip, Sp, mp, hip, okp⟩ := h.get e3
        have hcp := chain_eq _ _ _ okp.hS (hw _ _ okp.hS).2
        have hreq1 : ∀ q ∈ ((chain P.scopes sp.scope).take (n + 1)).map Prod.fst, requires P q = true := by
          intro q hq
          apply hreq
          rw [hc]
          simp only [← e4, List.take_succ_cons, List.map_cons, List.mem_cons]
          exact Or.inr hq
        have hreqp : requires P sp.scope = true := hreq1 _ (by rw [hcp]; simp)
        obtain ⟨mp', hmp, lok⟩ := layout_ok P sp.scope Sp (hw _ _ okp.hS).1
        rw [okp.hm] at hmp; injection hmp with hmp; subst hmp
        have hsi := lok.inner (Or.inl hreqp)
        obtain ⟨l, hl, _⟩ := okp.innerS (by omega)
        obtain ⟨w, hw'⟩ : ∃ w, svar sp true 0 = some w := by
          have : 0 < sp.argv.length := by rw [okp.argn]; exact List.length_pos_iff.2 (hw _ _ okp.hS).1
          exact ⟨sp.argv[0], by simp [svar, this]⟩
        have hget := outer_get iacts sa.scope p 1 ip l (conc P w) hip hl (okp.selfI w hw' (by omega))
        obtain ⟨t, ht⟩ := ih p sp w e3 hw' h3 hreq1
        refine ⟨t, ?_⟩
        simp only [conc, hreq0, if_true, outerTimes, rcvrIdx, hget, bind, Except.bind]
        exact ht

theorem requires_of_use {P : Prog} {s : Nat} {x : String} {f : Found} (hu : (s, x) ∈ P.uses) (hf : findVar (chain P.scopes s) x 0 = some f)
    (q : Nat) (hq : q ∈ ((chain P.scopes s).take f.level).map Prod.fst) : requires P q = true := by
  simp only [requires, Bool.or_eq_true, List.any_eq_true]
  left
  refine ⟨(s, x), hu, ?_⟩
  simp only [hf, List.contains_iff_mem]
  exact hq

theorem captured_of_use {P : Prog} {s : Nat} {x : String} {f : Found} (hu : (s, x) ∈ P.uses) (hf : findVar (chain P.scopes s) x 0 = some f)
    (hl : 0 < f.level) : captured P f.scope f.isArg f.idx = true := by
  simp only [captured, List.any_eq_true]
  refine ⟨(s, x), hu, ?_⟩
  simp [hf, hl]

/-- All about an access from activation `a`: where the variable is and how the walk ends. -/
theorem access {P : Prog} {sacts : List SAct} {iacts : List Act} (h : ActsOK P sacts iacts) (hw : WF P) (a : Nat) (sa : SAct) (ia : Act) (x : String)
    (b : Nat) (k : Bool) (i : Nat) (ha : sacts[a]? = some sa) (hia : iacts[a]? = some ia) (hu : (sa.scope, x) ∈ P.uses)
    (hr : Spec.resolve P.scopes sacts a x = some (b, k, i)) :
    ∃ n sb ib S m idx v, findVar (chain P.scopes sa.scope) x 0 = some ⟨n, sb.scope, k, i⟩ ∧ sacts[b]? = some sb ∧ iacts[b]? = some ib ∧
      ActOK P sacts b sb ib S m ∧ LayoutOK P sb.scope S m ∧ varIdx m k i = some idx ∧ svar sb k i = some v ∧
      place P ⟨n, sb.scope, k, i⟩ = .ok (captured P sb.scope k i, idx) ∧
      (n = 0 → a = b ∧ ia = ib) ∧
      (0 < n → captured P sb.scope k i = true ∧ (∃ t, getBlockAt iacts ia n = .ok (.block t (some b))) ∧ ∃ l, ib.fr.inner = some l) := by
  obtain ⟨n, sb, h1, h2, h3, v, hv⟩ := resolve_findVar h hw a sa x 0 b k i ha hr
  rw [Nat.zero_add] at h2
  obtain ⟨ib, S, m, h4, ok⟩ := h.get h1
  obtain ⟨m', hm, lok⟩ := layout_ok P sb.scope S (hw _ _ ok.hS).1
  rw [ok.hm] at hm; injection hm with hm; subst hm
  have hbound : i < (if k then S.args.length else S.locals.length) := by
    have := lt_of_getElem? _ _ _ hv
    cases k with
    | true => simp only [if_true] at this ⊢; rw [← ok.argn]; exact this
    | false => simp only [Bool.false_eq_true, if_false] at this ⊢; rw [← ok.locn]; exact this
  obtain ⟨idx, hidx⟩ := lok.has k i hbound
  refine ⟨n, sb, ib, S, m, idx, v, h2, h1, h4, ok, lok, hidx, hv, place_ok P n sb.scope S m k i idx ok.hS ok.hm hidx, ?_, ?_⟩
  · intro hn
    subst hn
    cases h3
    refine ⟨rfl, ?_⟩
    rw [hia] at h4; injection h4
  · intro hn
    have hcap := captured_of_use hu h2 hn
    refine ⟨hcap, ?_, ?_⟩
    · obtain ⟨n', rfl⟩ : ∃ n', n = n' + 1 := ⟨n - 1, by omega⟩
      obtain ⟨Sa, ma, oka⟩ := h.acts a sa ia ha hia
      obtain ⟨w, hwv⟩ : ∃ w, svar sa true 0 = some w := by
        have : 0 < sa.argv.length := by rw [oka.argn]; exact List.length_pos_iff.2 (hw _ _ oka.hS).1
        exact ⟨sa.argv[0], by simp [svar, this]⟩
      obtain ⟨t, ht⟩ := walk h hw n' a b sa w ha hwv h3 (fun q hq => requires_of_use hu h2 q hq)
      have hs := oka.selfF w hwv
      simp only [readVar, Bool.false_eq_true, if_false] at hs
      refine ⟨t, ?_⟩
      simp only [getBlockAt, rcvrIdx, hs, bind, Except.bind, Nat.add_sub_cancel]
      exact ht
    · have := lok.inner (Or.inr ⟨k, i, hbound, hcap⟩)
      obtain ⟨l, hl, _⟩ := ok.innerS (by omega)
      exact ⟨l, hl⟩

end PySOM.Scope

import Verif.Spec.Nlr
/-!
# Lemmas about non-local returns: the compiler's notes, and the relation between the machine and its specification
-/
set_option autoImplicit false
namespace PySOM.Nlr
open Spec

/-! ## The compiler -/

theorem Code.lower_blocks (c : Code) : c.lower.blocks = Code.lowerAll c.blocks := by cases c; rfl
theorem Code.lower_throws (c : Code) : c.lower.throws = c.throws := by cases c; rfl
theorem Code.lower_catches (c : Code) : c.lower.catches = c.catches := by cases c; rfl
theorem Code.lower_caret (c : Code) : c.lower.caret = c.caret := by cases c; rfl
theorem Code.lower_lvl (c : Code) : c.lower.lvl = c.lvl - 1 := by cases c; rfl

theorem Code.mem_lowerAll {b : Code} : ∀ {bs : List Code}, b ∈ Code.lowerAll bs →
    ∃ a ∈ bs, b = if a.requiresContext then a.lower else a
  | [], h => by simp only [Code.lowerAll, List.not_mem_nil] at h
  | a :: bs, h => by
    simp only [Code.lowerAll, List.mem_cons] at h
    rcases h with h | h
    · exact ⟨a, List.mem_cons_self, h⟩
    · obtain ⟨a', ha, he⟩ := Code.mem_lowerAll h
      exact ⟨a', List.mem_cons_of_mem _ ha, he⟩

theorem Code.throws_requiresContext {c : Code} (h : c.throws = true) : c.requiresContext = true := by
  cases c; simp only [Code.throws] at h; simp only [Code.requiresContext, h, Bool.true_or]

theorem Code.requiresContext_hasInner {c : Code} (h : c.requiresContext = true) : c.hasInner = true := by
  cases c; simp only [Code.requiresContext, Bool.or_eq_true] at h
  rcases h with h | h <;> simp [Code.hasInner, h]

theorem Code.catches_hasInner {c : Code} (h : c.catches = true) : c.hasInner = true := by
  cases c; simp only [Code.catches] at h; simp [Code.hasInner, h]

theorem ok_shift {k : Nat} {c : Code} (h : Ok k c) : ∀ l, k = l + 1 → 0 < l → c.throws = false → Ok l c := by
  induction h with
  | @intro k c hlvl hcar hcat hn hk ih =>
    intro l hl hpos ht
    subst hl
    have hno : ∀ b ∈ c.blocks, b.throws = false := by
      intro b hb
      cases hbt : b.throws with
      | false => rfl
      | true => have := hk b hb hbt; rw [if_neg (by omega), ht] at this; cases this
    exact ⟨(by rw [ht]; intro h; cases h),
      fun h => (by have := (hcar h).1; rw [ht] at this; cases this),
      fun h => (by have := hcat h; omega),
      fun b hb => ih b hb (l + 1) rfl (by omega) (hno b hb),
      fun b hb h => (by rw [hno b hb] at h; cases h)⟩

theorem ok_lower {k : Nat} {c : Code} (h : Ok k c) : ∀ l, k = l + 1 → 0 < l → Ok l c.lower := by
  induction h with
  | @intro k c hlvl hcar hcat hn hk ih =>
    intro l hl hpos
    subst hl
    refine ⟨?_, ?_, ?_, ?_, ?_⟩
    · rw [Code.lower_throws, Code.lower_lvl]; intro h; rw [hlvl h]; rfl
    · rw [Code.lower_throws, Code.lower_caret]; intro h; exact ⟨(hcar h).1, hpos⟩
    · rw [Code.lower_catches]; intro h; have := hcat h; omega
    · intro b hb
      rw [Code.lower_blocks] at hb
      obtain ⟨a, ha, he⟩ := Code.mem_lowerAll hb
      by_cases hr : a.requiresContext = true
      · rw [if_pos hr] at he; rw [he]; exact ih a ha (l + 1) rfl (by omega)
      · rw [if_neg hr] at he; rw [he]
        refine ok_shift (hn a ha) (l + 1) rfl (by omega) ?_
        cases hat : a.throws with
        | false => rfl
        | true => exact absurd (Code.throws_requiresContext hat) hr
    · intro b hb ht
      rw [Code.lower_blocks] at hb
      obtain ⟨a, ha, he⟩ := Code.mem_lowerAll hb
      rw [if_neg (by omega), Code.lower_throws]
      have hat : a.throws = true := by
        by_cases hr : a.requiresContext = true
        · rw [if_pos hr] at he; rw [he, Code.lower_throws] at ht; exact ht
        · rw [if_neg hr] at he; rw [he] at ht; exact ht
      have := hk a ha hat
      rw [if_neg (by omega)] at this
      exact this

/-- A context at depth `l` knows about `^` inside. -/
def Knows (l : Nat) (g : Genc) : Prop := if l = 0 then g.catches = true else g.throws = true

structure GOk (l : Nat) (g : Genc) : Prop where
  nested : ∀ b ∈ g.blocks, Ok (l + 1) b
  knows : ∀ b ∈ g.blocks, b.throws = true → Knows l g
  caret : g.caret = true → g.throws = true ∧ 0 < l
  catches : g.catches = true → l = 0

def GInv : List Genc → Prop
  | [] => True
  | [g] => GOk 0 g
  | g :: h :: gs => GOk (gs.length + 1) g ∧ (g.throws = true → Knows gs.length h) ∧ GInv (h :: gs)

theorem GInv.head {g : Genc} {gs : List Genc} (h : GInv (g :: gs)) : GOk gs.length g := by
  cases gs with
  | nil => exact h
  | cons a as => exact h.1

theorem GInv.rest {g : Genc} {gs : List Genc} (h : GInv (g :: gs)) : GInv gs := by
  cases gs with
  | nil => trivial
  | cons a as => exact h.2.2

theorem GInv.up {g h : Genc} {gs : List Genc} (hi : GInv (g :: h :: gs)) : g.throws = true → Knows gs.length h := hi.2.1

theorem GInv.mk {g : Genc} {gs : List Genc} (h1 : GOk gs.length g) (h2 : ∀ h ∈ gs.head?, g.throws = true → Knows (gs.length - 1) h)
    (h3 : GInv gs) : GInv (g :: gs) := by
  cases gs with
  | nil => exact h1
  | cons a as => exact ⟨h1, h2 a rfl, h3⟩

theorem GOk.assemble {g : Genc} {l : Nat} (h : GOk l g) (n : Nat) : Ok l (g.assemble n l) :=
  ⟨fun _ => rfl, h.caret, h.catches, h.nested, fun b hb ht => h.knows b hb ht⟩

theorem GOk.blocks_of {g g' : Genc} {l : Nat} (h : GOk l g) (hb : g'.blocks = g.blocks) (hk : Knows l g → Knows l g')
    (hc : g'.caret = true → g'.throws = true ∧ 0 < l) (hcat : g'.catches = true → l = 0) : GOk l g' :=
  ⟨fun b hm => h.nested b (hb ▸ hm), fun b hm ht => hk (h.knows b (hb ▸ hm) ht), hc, hcat⟩

theorem markOuter_length : ∀ gs : List Genc, (markOuter gs).length = gs.length
  | [] => rfl
  | [_] => rfl
  | _ :: h :: gs => by simp only [markOuter, List.length_cons, markOuter_length (h :: gs)]

theorem markOuter_inv : ∀ {gs : List Genc}, GInv gs → GInv (markOuter gs) ∧ ∀ h ∈ (markOuter gs).head?, Knows (gs.length - 1) h
  | [], _ => ⟨trivial, fun h hm => by cases hm⟩
  | [root], hi => ⟨GOk.blocks_of hi rfl (fun _ => by rw [Knows, if_pos rfl]) hi.caret (fun _ => rfl),
      fun h hm => by cases hm; exact rfl⟩
  | g :: h :: gs, hi => by
    have hr := markOuter_inv hi.rest
    constructor
    · refine GInv.mk ?_ ?_ hr.1
      · rw [markOuter_length]
        exact GOk.blocks_of hi.head rfl (fun _ => by rw [Knows, if_neg (by simp only [List.length_cons]; omega)])
          (fun hc => ⟨rfl, (hi.head.caret hc).2⟩) hi.head.catches
      · intro a ha _
        rw [markOuter_length]
        exact hr.2 a ha
    · intro a ha
      cases ha
      exact rfl

theorem useOuter_length : ∀ (k : Nat) (gs : List Genc), (useOuter k gs).length = gs.length
  | _, [] => by cases ‹Nat› <;> rfl
  | 0, _ :: _ => rfl
  | k + 1, _ :: gs => by simp only [useOuter, List.length_cons, useOuter_length k gs]

theorem useOuter_head (k : Nat) (gs : List Genc) : ∀ h ∈ (useOuter k gs).head?, ∃ h0 ∈ gs.head?, h.throws = h0.throws ∧ h.catches = h0.catches := by
  intro h hm
  cases gs with
  | nil => cases k <;> cases hm
  | cons g gs => cases k <;> (cases hm; exact ⟨g, rfl, rfl, rfl⟩)

theorem Knows.congr {l : Nat} {g g' : Genc} (h1 : g'.throws = g.throws) (h2 : g'.catches = g.catches) (h : Knows l g) : Knows l g' := by
  unfold Knows at *
  rw [h1, h2]; exact h

theorem useOuter_inv : ∀ {gs : List Genc} (k : Nat), GInv gs → GInv (useOuter k gs)
  | [], k, _ => by cases k <;> trivial
  | g :: gs, k, hi => by
    have up : ∀ h ∈ gs.head?, g.throws = true → Knows (gs.length - 1) h := by
      cases gs with
      | nil => intro h hm; cases hm
      | cons a as => intro h hm; cases hm; exact hi.up
    cases k with
    | zero =>
      exact GInv.mk (GOk.blocks_of hi.head rfl (Knows.congr rfl rfl) hi.head.caret hi.head.catches) up hi.rest
    | succ k =>
      refine GInv.mk ?_ ?_ (useOuter_inv k hi.rest)
      · rw [useOuter_length]
        exact GOk.blocks_of hi.head rfl (Knows.congr rfl rfl) hi.head.caret hi.head.catches
      · intro h hm ht
        obtain ⟨h0, hm0, e1, e2⟩ := useOuter_head k gs h hm
        rw [useOuter_length]
        exact Knows.congr e1 e2 (up h0 hm0 ht)

theorem Genc.step_inv {gs : List Genc} (hi : GInv gs) (e : Ev) : GInv (Genc.step gs e) := by
  cases e with
  | openBlock =>
    refine GInv.mk ⟨fun b hb => ?_, fun b hb => ?_, fun h => ?_, fun h => ?_⟩ (fun h _ ht => ?_) hi
    · cases hb
    · cases hb
    · cases h
    · cases h
    · cases ht
  | caret =>
    match gs, hi with
    | [], _ => trivial
    | [root], hi => exact hi
    | g :: h :: gs, hi =>
      have hr := markOuter_inv hi.rest
      refine GInv.mk ?_ ?_ hr.1
      · rw [markOuter_length]
        exact GOk.blocks_of hi.head rfl (fun _ => by rw [Knows, if_neg (by simp only [List.length_cons]; omega)])
          (fun _ => ⟨rfl, by simp only [List.length_cons]; omega⟩) hi.head.catches
      · intro a ha _
        rw [markOuter_length]
        exact hr.2 a ha
  | var k =>
    simp only [Genc.step]
    split
    · exact useOuter_inv k hi
    · exact hi
  | closeBlock n =>
    match gs, hi with
    | [], _ => trivial
    | [root], hi => exact hi
    | g :: h :: gs, hi =>
      have hh := hi.rest.head
      refine GInv.mk ⟨?_, ?_, hh.caret, hh.catches⟩ ?_ hi.rest.rest
      · intro b hb
        rcases List.mem_append.mp hb with hb | hb
        · exact hh.nested b hb
        · rw [List.mem_singleton] at hb
          rw [hb]; exact GOk.assemble hi.head n
      · intro b hb ht
        rcases List.mem_append.mp hb with hb | hb
        · exact Knows.congr rfl rfl (hh.knows b hb ht)
        · rw [List.mem_singleton] at hb
          rw [hb] at ht
          exact Knows.congr rfl rfl (hi.up ht)
      · intro a ha ht
        cases gs with
        | nil => cases ha
        | cons x xs => cases ha; exact hi.rest.up ht
  | inlineBlock =>
    match gs, hi with
    | [], _ => trivial
    | [root], hi => exact hi
    | g :: h :: gs, hi =>
      have hh := hi.rest.head
      have hg := hi.head
      refine GInv.mk ⟨?_, ?_, ?_, hh.catches⟩ ?_ hi.rest.rest
      · intro b hb
        rcases List.mem_append.mp hb with hb | hb
        · exact hh.nested b hb
        · obtain ⟨a, ha, he⟩ := Code.mem_lowerAll hb
          have ho := hg.nested a ha
          rw [he]
          by_cases hr : a.requiresContext = true
          · rw [if_pos hr]; exact ok_lower ho _ (by simp only [List.length_cons]) (by omega)
          · rw [if_neg hr]
            refine ok_shift ho _ (by simp only [List.length_cons]) (by omega) ?_
            cases hat : a.throws with
            | false => rfl
            | true => exact absurd (Code.throws_requiresContext hat) hr
      · intro b hb ht
        rcases List.mem_append.mp hb with hb | hb
        · exact Knows.congr rfl rfl (hh.knows b hb ht)
        · obtain ⟨a, ha, he⟩ := Code.mem_lowerAll hb
          have hat : a.throws = true := by
            by_cases hr : a.requiresContext = true
            · rw [if_pos hr] at he; rw [he, Code.lower_throws] at ht; exact ht
            · rw [if_neg hr] at he; rw [he] at ht; exact ht
          have hk := hg.knows a ha hat
          rw [Knows, if_neg (by simp only [List.length_cons]; omega)] at hk
          exact Knows.congr rfl rfl (hi.up hk)
      · intro hc
        simp only [Bool.or_eq_true, Bool.and_eq_true, Bool.not_eq_true', List.isEmpty_eq_false_iff] at hc
        rcases hc with hc | ⟨hc, hne⟩
        · exact hh.caret hc
        · have hk := hi.up (hg.caret hc).1
          have hl : 0 < gs.length := List.length_pos_iff.mpr hne
          rw [Knows, if_neg (by omega)] at hk
          exact ⟨hk, hl⟩
      · intro a ha ht
        cases gs with
        | nil => cases ha
        | cons x xs => cases ha; exact hi.rest.up ht

theorem compile_ok {n : Nat} {evs : List Ev} {c : Code} (h : compile n evs = some c) : Ok 0 c := by
  have hall : ∀ (evs : List Ev) (gs : List Genc), GInv gs → GInv (evs.foldl Genc.step gs) := by
    intro evs
    induction evs with
    | nil => intro gs hi; exact hi
    | cons e evs ih => intro gs hi; exact ih _ (Genc.step_inv hi e)
  have hi := hall evs [{}] ⟨fun b hb => (by cases hb), fun b hb => (by cases hb), fun h => (by cases h), fun h => (by cases h)⟩
  unfold compile at h
  generalize evs.foldl Genc.step [{}] = gs at h hi
  match gs, h, hi with
  | [root], h, hi => cases h; exact GOk.assemble hi n

/-! ## Values -/

/-- `rc`: the receivers of the contexts; `own`: the activation each context belongs to (number and code). -/
inductive VRel (rc : List Val) (own : List (Nat × Code)) : Val → SVal → Prop where
  | obj (n : Nat) : VRel rc own (.obj n) (.obj n)
  | free {c : Code} {o : Option Nat} {h : Nat} {self : SVal} : c.throws = false → VRel rc own (.blk c o) (.blk c h self)
  | top {c m : Code} {x h : Nat} {v : Val} {self : SVal} : rc[x]? = some v → own[x]? = some (h, m) → m.catches = true → c.lvl = 1 →
      VRel rc own v self → VRel rc own (.blk c (some x)) (.blk c h self)
  | nest {c c' : Code} {x h : Nat} {o : Option Nat} {self : SVal} : rc[x]? = some (.blk c' o) → c'.throws = true → c.lvl = c'.lvl + 1 →
      1 ≤ c'.lvl → VRel rc own (.blk c' o) (.blk c' h self) → VRel rc own (.blk c (some x)) (.blk c h self)

theorem VRel.seen {rc : List Val} {own : List (Nat × Code)} {v : Val} {sv : SVal} (h : VRel rc own v sv) : v.seen = sv.seen := by
  cases h <;> rfl

theorem getElem?_append_some {α : Type} {l : List α} {i : Nat} {a : α} (h : l[i]? = some a) (l' : List α) : (l ++ l')[i]? = some a := by
  have hi : i < l.length := (List.getElem?_eq_some_iff.mp h).1
  rw [List.getElem?_append_left hi]; exact h

theorem VRel.mono {rc : List Val} {own : List (Nat × Code)} {v : Val} {sv : SVal} (h : VRel rc own v sv) (rc' : List Val)
    (own' : List (Nat × Code)) : VRel (rc ++ rc') (own ++ own') v sv := by
  induction h with
  | obj n => exact .obj n
  | free ht => exact .free ht
  | top h1 h2 h3 h4 _ ih => exact .top (getElem?_append_some h1 _) (getElem?_append_some h2 _) h3 h4 ih
  | nest h1 h2 h3 h4 _ ih => exact .nest (getElem?_append_some h1 _) h2 h3 h4 ih

/-- The home context of a throwing block. -/
theorem VRel.home {mem : List Context} {own : List (Nat × Code)} {v : Val} {sv : SVal} (h : VRel (mem.map (·.rcvr)) own v sv) :
    ∀ c o hid self, v = .blk c o → sv = .blk c hid self → c.throws = true →
      ∃ (x : Nat) (ctx : Context) (m b : Code), getBlockAt mem v c.lvl = .ok (.blk b (some x)) ∧ mem[x]? = some ctx ∧ own[x]? = some (hid, m) ∧
        m.catches = true ∧ VRel (mem.map (·.rcvr)) own ctx.rcvr self ∧ outerN mem c.lvl v = .ok ctx.rcvr := by
  induction h with
  | obj n => intro c o hid self hv; cases hv
  | free ht => intro c o hid self hv _ h'; cases hv; rw [ht] at h'; cases h'
  | @top c m x hid v self h1 h2 h3 h4 h5 _ =>
    intro c' o' hid' self' hv hsv _
    cases hv; cases hsv
    rw [List.getElem?_map, Option.map_eq_some_iff] at h1
    obtain ⟨ctx, hc, rfl⟩ := h1
    refine ⟨x, ctx, m, c, ?_, hc, h2, h3, h5, ?_⟩
    · rw [h4]; rfl
    · rw [h4]; simp only [outerN, getFromOuter, hc, bind, Except.bind]
  | @nest c c' x hid o self h1 h2 h3 h4 h5 ih =>
    intro c'' o'' hid' self' hv hsv _
    cases hv; cases hsv
    rw [List.getElem?_map, Option.map_eq_some_iff] at h1
    obtain ⟨ctx, hc, hr⟩ := h1
    obtain ⟨y, cy, m, b, e1, e2, e3, e4, e5, e6⟩ := ih c' o hid self rfl rfl h2
    refine ⟨y, cy, m, b, ?_, e2, e3, e4, e5, ?_⟩
    · rw [getBlockAt, if_pos (by omega)] at e1 ⊢
      have : c.lvl - 1 = (c'.lvl - 1) + 1 := by omega
      rw [this]
      simp only [outerN, getFromOuter, hc, bind, Except.bind, hr]
      exact e1
    · rw [h3]
      simp only [outerN, getFromOuter, hc, bind, Except.bind, hr]
      exact e6

/-! ## States -/

/-- Two lists of the same length, related element by element. -/
inductive All2 {α β : Type} (R : α → β → Prop) : List α → List β → Prop where
  | nil : All2 R [] []
  | cons {a : α} {b : β} {as : List α} {bs : List β} : R a b → All2 R as bs → All2 R (a :: as) (b :: bs)

theorem All2.imp {α β : Type} {R S : α → β → Prop} {as : List α} {bs : List β} (h : All2 R as bs)
    (f : ∀ a b, b ∈ bs → R a b → S a b) : All2 S as bs := by
  induction h with
  | nil => exact .nil
  | cons h _ ih => exact .cons (f _ _ List.mem_cons_self h) (ih fun a b hb => f a b (List.mem_cons_of_mem _ hb))

theorem All2.append {α β : Type} {R : α → β → Prop} {as as' : List α} {bs bs' : List β} (h : All2 R as bs) (h' : All2 R as' bs') :
    All2 R (as ++ as') (bs ++ bs') := by
  induction h with
  | nil => exact h'
  | cons h _ ih => exact .cons h ih

theorem All2.length {α β : Type} {R : α → β → Prop} {as : List α} {bs : List β} (h : All2 R as bs) : as.length = bs.length := by
  induction h with
  | nil => rfl
  | cons _ _ ih => simp only [List.length_cons, ih]

theorem All2.get {α β : Type} {R : α → β → Prop} {as : List α} {bs : List β} (h : All2 R as bs) : ∀ i : Nat,
    (as[i]? = none ∧ bs[i]? = none) ∨ ∃ a b, as[i]? = some a ∧ bs[i]? = some b ∧ R a b := by
  induction h with
  | nil => intro i; left; simp
  | @cons a b as bs h _ ih =>
    intro i
    cases i with
    | zero => right; exact ⟨a, b, rfl, rfl, h⟩
    | succ i => simpa using ih i

theorem All2.map_eq {α β γ : Type} {R : α → β → Prop} {as : List α} {bs : List β} (h : All2 R as bs) (f : α → γ) (g : β → γ)
    (hfg : ∀ a b, R a b → f a = g b) : as.map f = bs.map g := by
  induction h with
  | nil => rfl
  | cons h _ ih => rw [List.map_cons, List.map_cons, ih, hfg _ _ h]

def BlockOk : Val → Prop
  | .obj _ => True
  | .blk c _ => ∃ l, 0 < l ∧ Ok l c

structure FRel (rc : List Val) (own : List (Nat × Code)) (f : Frame) (a : Act) : Prop where
  code : f.code = a.code
  tail : f.tail = a.tail
  rcvr : VRel rc own f.rcvr a.rcvr
  vok : BlockOk f.rcvr
  kind : (Ok 0 f.code ∧ a.home = a.id ∧ a.self = a.rcvr) ∨
    (f.code.catches = false ∧ (∃ l, 0 < l ∧ Ok l f.code) ∧ (∃ o, f.rcvr = .blk f.code o) ∧ a.rcvr = .blk f.code a.home a.self)
  ctx : match f.ctx with
    | none => f.code.hasInner = false ∧ a.id ∉ own.map (·.1)
    | some x => rc[x]? = some f.rcvr ∧ own[x]? = some (a.id, f.code)

theorem FRel.mono {rc : List Val} {own : List (Nat × Code)} {f : Frame} {a : Act} (h : FRel rc own f a) (rc' : List Val)
    (own' : List (Nat × Code)) (hn : a.id ∉ own'.map (·.1)) : FRel (rc ++ rc') (own ++ own') f a := by
  refine ⟨h.code, h.tail, h.rcvr.mono _ _, h.vok, h.kind, ?_⟩
  have hc := h.ctx
  cases hx : f.ctx with
  | none =>
    rw [hx] at hc
    refine ⟨hc.1, ?_⟩
    rw [List.map_append, List.mem_append]
    rintro (h' | h')
    · exact hc.2 h'
    · exact hn h'
  | some x => rw [hx] at hc; exact ⟨getElem?_append_some hc.1 _, getElem?_append_some hc.2 _⟩

/-- The markers of the contexts of catching methods are true for the activations `ids`. -/
def Marks (mem : List Context) (own : List (Nat × Code)) (ids : List Nat) : Prop :=
  ∀ (x : Nat) (ctx : Context) (h : Nat) (m : Code), mem[x]? = some ctx → own[x]? = some (h, m) → m.catches = true → (ctx.on = true ↔ h ∈ ids)

/-- The stacks of the machine and of the specification. -/
structure SRel (own : List (Nat × Code)) (mem : List Context) (fs : List Frame) (as : List Act) : Prop where
  frames : All2 (FRel (mem.map (·.rcvr)) own) fs as
  nodup : (as.map (·.id)).Nodup
  marks : Marks mem own (as.map (·.id))

theorem own_inj {own : List (Nat × Code)} (h : (own.map (·.1)).Nodup) {x y i : Nat} {m n : Code} (hx : own[x]? = some (i, m))
    (hy : own[y]? = some (i, n)) : x = y ∧ m = n := by
  have hl : x < (own.map (·.1)).length := by
    rw [List.length_map]; exact (List.getElem?_eq_some_iff.mp hx).1
  have : x = y := (List.getElem?_inj hl h).mp (by rw [List.getElem?_map, List.getElem?_map, hx, hy]; rfl)
  subst this
  rw [hx] at hy
  cases hy
  exact ⟨rfl, rfl⟩

theorem own_mem {own : List (Nat × Code)} {x i : Nat} {m : Code} (hx : own[x]? = some (i, m)) : i ∈ own.map (·.1) :=
  List.mem_map.mpr ⟨_, List.mem_of_getElem? hx, rfl⟩

theorem leave_ok {own : List (Nat × Code)} (hn : (own.map (·.1)).Nodup) {mem : List Context} {f : Frame} {fs : List Frame} {a : Act}
    {as : List Act} (h : SRel own mem (f :: fs) (a :: as)) :
    ∃ mem', leave f mem = .ok mem' ∧ mem'.map (·.rcvr) = mem.map (·.rcvr) ∧ SRel own mem' fs as := by
  obtain ⟨hf, hd, hm⟩ := h
  cases hf with
  | cons hfa hfs =>
  have hctx := hfa.ctx
  rw [List.map_cons, List.nodup_cons] at hd
  have sameOwner : ∀ (x : Nat) (m : Code), own[x]? = some (a.id, m) → f.ctx = some x ∧ f.code = m := by
    intro x m hx
    cases hc : f.ctx with
    | none => rw [hc] at hctx; exact absurd (own_mem hx) hctx.2
    | some y =>
      rw [hc] at hctx
      obtain ⟨e1, e2⟩ := own_inj hn hctx.2 hx
      exact ⟨by rw [e1], e2⟩
  by_cases hcat : f.code.catches = true
  · cases hc : f.ctx with
    | none => rw [hc] at hctx; rw [Code.catches_hasInner hcat] at hctx; cases hctx.1
    | some x =>
      rw [hc] at hctx
      obtain ⟨hr, ho⟩ := hctx
      rw [List.getElem?_map, Option.map_eq_some_iff] at hr
      obtain ⟨c, hx, hcr⟩ := hr
      have hon : c.on = true := (hm x c a.id f.code hx ho hcat).mpr List.mem_cons_self
      refine ⟨mem.set x { c with on := false }, ?_, ?_, ⟨?_, hd.2, ?_⟩⟩
      · simp only [leave, hcat, if_true, hc, hx, hon]
      · rw [List.map_set]
        apply List.ext_getElem?
        intro i
        rw [List.getElem?_set]
        split
        · rename_i hi; subst hi
          rw [List.getElem?_map, hx]
          have hl : x < mem.length := (List.getElem?_eq_some_iff.mp hx).1
          rw [List.length_map, if_pos hl]; rfl
        · rfl
      · have : (mem.set x { c with on := false }).map (·.rcvr) = mem.map (·.rcvr) := by
          rw [List.map_set]
          apply List.ext_getElem?
          intro i
          rw [List.getElem?_set]
          split
          · rename_i hi; subst hi
            rw [List.getElem?_map, hx]
            have hl : x < mem.length := (List.getElem?_eq_some_iff.mp hx).1
            rw [List.length_map, if_pos hl]; rfl
          · rfl
        rw [this]; exact hfs
      · intro y cy hid m hy hoy hmc
        rw [List.getElem?_set] at hy
        by_cases hxy : x = y
        · subst hxy
          have hl : x < mem.length := (List.getElem?_eq_some_iff.mp hx).1
          rw [if_pos rfl, if_pos hl] at hy
          cases hy
          rw [ho] at hoy; cases hoy
          exact ⟨fun h => (by cases h), fun h => absurd h hd.1⟩
        · rw [if_neg hxy] at hy
          rw [hm y cy hid m hy hoy hmc, List.map_cons, List.mem_cons]
          constructor
          · rintro (h | h)
            · subst h; exact absurd (own_inj hn ho hoy).1 hxy
            · exact h
          · exact Or.inr
  · refine ⟨mem, ?_, rfl, ⟨hfs, hd.2, ?_⟩⟩
    · simp only [leave, if_neg hcat]
    · intro y cy hid m hy hoy hmc
      rw [hm y cy hid m hy hoy hmc, List.map_cons, List.mem_cons]
      constructor
      · rintro (h | h)
        · subst h; exact absurd ((sameOwner y m hoy).2 ▸ hmc) hcat
        · exact h
      · exact Or.inr

theorem ret_ok {own : List (Nat × Code)} (hn : (own.map (·.1)).Nodup) : ∀ (fs : List Frame) {mem : List Context} {f : Frame} {a : Act}
    {as : List Act}, SRel own mem (f :: fs) (a :: as) →
    ∃ mem' fs', ret mem (f :: fs) = .ok (mem', fs') ∧ mem'.map (·.rcvr) = mem.map (·.rcvr) ∧ SRel own mem' fs' (as.dropWhile (·.tail)) := by
  intro fs
  induction fs with
  | nil =>
    intro mem f a as h
    obtain ⟨mem', h1, h2, h3⟩ := leave_ok hn h
    have : as = [] := by
      have := h3.frames; cases this; rfl
    subst this
    exact ⟨mem', [], by simp only [ret, h1, bind, Except.bind], h2, h3⟩
  | cons g gs ih =>
    intro mem f a as h
    obtain ⟨mem', h1, h2, h3⟩ := leave_ok hn h
    have hfr := h3.frames
    cases hfr with
    | @cons _ b _ bs hgb hgs =>
    by_cases ht : g.tail = true
    · obtain ⟨mem'', fs', e1, e2, e3⟩ := ih h3
      refine ⟨mem'', fs', ?_, e2.trans h2, ?_⟩
      · rw [ret]; simp only [h1, bind, Except.bind, if_pos ht]; exact e1
      · rw [List.dropWhile_cons_of_pos (by rw [← hgb.tail]; exact ht)]; exact e3
    · refine ⟨mem', g :: gs, ?_, h2, ?_⟩
      · rw [ret]; simp only [h1, bind, Except.bind, if_neg ht]
      · rw [List.dropWhile_cons_of_neg (by rw [← hgb.tail]; exact ht)]; exact h3

theorem unwind_ok {own : List (Nat × Code)} (hn : (own.map (·.1)).Nodup) {x hid : Nat} {m : Code} (hx : own[x]? = some (hid, m))
    (hm : m.catches = true) : ∀ (fs : List Frame) {mem : List Context} {as : List Act}, SRel own mem fs as → hid ∈ as.map (·.id) →
    ∃ mem' fs', unwind x mem fs = .ok (mem', fs') ∧ mem'.map (·.rcvr) = mem.map (·.rcvr) ∧
      SRel own mem' fs' ((callersOf hid as).dropWhile (·.tail)) := by
  intro fs
  induction fs with
  | nil => intro mem as h hin; have := h.frames; cases this; cases hin
  | cons f fs ih =>
    intro mem as h hin
    have hfr := h.frames
    cases hfr with
    | @cons _ a _ as hfa hfs =>
    have hctx := hfa.ctx
    by_cases hid' : a.id = hid
    · have hc : f.ctx = some x ∧ f.code = m := by
        cases hc : f.ctx with
        | none => rw [hc, hid'] at hctx; exact absurd (own_mem hx) hctx.2
        | some y =>
          rw [hc, hid'] at hctx
          obtain ⟨e1, e2⟩ := own_inj hn hctx.2 hx
          exact ⟨by rw [e1], e2⟩
      obtain ⟨mem', fs', e1, e2, e3⟩ := ret_ok hn fs h
      refine ⟨mem', fs', ?_, e2, ?_⟩
      · rw [unwind, if_pos (by rw [hc.2]; exact hm), if_pos hc.1]; exact e1
      · rw [callersOf, List.dropWhile_cons_of_neg (by simpa using hid')]; exact e3
    · have hin' : hid ∈ as.map (·.id) := by
        rw [List.map_cons, List.mem_cons] at hin
        rcases hin with h | h
        · exact absurd h.symm hid'
        · exact h
      have hcal : callersOf hid (a :: as) = callersOf hid as := by
        rw [callersOf, List.dropWhile_cons_of_pos (by simpa using hid')]; rfl
      have hne : f.ctx ≠ some x := by
        intro hc
        rw [hc] at hctx
        rw [hctx.2] at hx
        cases hx; exact hid' rfl
      obtain ⟨mem', h1, h2, h3⟩ := leave_ok hn h
      obtain ⟨mem'', fs', e1, e2, e3⟩ := ih h3 hin'
      refine ⟨mem'', fs', ?_, e2.trans h2, hcal ▸ e3⟩
      by_cases hcat : f.code.catches = true
      · rw [unwind, if_pos hcat, if_neg hne]; simp only [h1, bind, Except.bind]; exact e1
      · rw [unwind, if_neg hcat]
        simp only [leave, if_neg hcat, Except.ok.injEq] at h1
        rw [h1]; exact e1

structure Rel (own : List (Nat × Code)) (s : State) (t : Spec.State) : Prop where
  len : s.mem.length = own.length
  pool : All2 (VRel (s.mem.map (·.rcvr)) own) s.pool t.pool
  poolOk : ∀ v ∈ s.pool, BlockOk v
  memOk : ∀ v ∈ s.mem.map (·.rcvr), BlockOk v
  stack : SRel own s.mem s.stack t.stack
  obj : s.nextObj = t.nextObj
  log : s.log = t.log
  below : ∀ i ∈ t.stack.map (·.id), i < t.nextId
  ownNodup : (own.map (·.1)).Nodup
  ownBelow : ∀ i ∈ own.map (·.1), i < t.nextId
  aged : ∀ (x y : Nat) (c : Code), (s.mem.map (·.rcvr))[x]? = some (.blk c (some y)) → y < x
  poolAged : ∀ (c : Code) (y : Nat), Val.blk c (some y) ∈ s.pool → y < s.mem.length

theorem Rel.view {own : List (Nat × Code)} {s : State} {t : Spec.State} (h : Rel own s t) : s.view = t.view := by
  unfold State.view Spec.State.view
  rw [h.log, h.pool.map_eq _ _ (fun _ _ hv => hv.seen),
    h.stack.frames.map_eq (fun f => (f.code, f.rcvr.seen, f.tail)) (fun a => (a.code, a.rcvr.seen, a.tail))
      (fun f a hf => by rw [hf.code, hf.rcvr.seen, hf.tail])]

theorem All2.mem_left {α β : Type} {R : α → β → Prop} {as : List α} {bs : List β} (h : All2 R as bs) : ∀ b ∈ bs, ∃ a ∈ as, R a b := by
  induction h with
  | nil => intro b hb; cases hb
  | cons h _ ih =>
    intro b hb
    rcases List.mem_cons.mp hb with rfl | hb
    · exact ⟨_, List.mem_cons_self, h⟩
    · obtain ⟨a, ha, hr⟩ := ih b hb
      exact ⟨a, List.mem_cons_of_mem _ ha, hr⟩

/-- A new activation. -/
theorem activate_rel {own : List (Nat × Code)} {s : State} {t : Spec.State} (h : Rel own s t) {m : Code} {v : Val} {a : Act}
    (hv : VRel (s.mem.map (·.rcvr)) own v a.rcvr) (hvok : BlockOk v) (hag : ∀ c y, v = .blk c (some y) → y < s.mem.length)
    (hcode : a.code = m) (htail : a.tail = false) (hid : a.id = t.nextId)
    (hkind : (Ok 0 m ∧ a.home = a.id ∧ a.self = a.rcvr) ∨
      (m.catches = false ∧ (∃ l, 0 < l ∧ Ok l m) ∧ (∃ o, v = .blk m o) ∧ a.rcvr = .blk m a.home a.self)) :
    ∃ own', Rel own' (activate m v s) { t with stack := a :: t.stack, nextId := t.nextId + 1 } ∧
      (own' = own ∧ (activate m v s).mem = s.mem ∨ (own' = own ++ [(t.nextId, m)] ∧ (activate m v s).mem.map (·.rcvr) = s.mem.map (·.rcvr) ++ [v])) := by
  have hnd : ((a :: t.stack).map (·.id)).Nodup := by
    rw [List.map_cons, List.nodup_cons]
    exact ⟨fun hi => by have := h.below _ hi; omega, h.stack.nodup⟩
  have hbel : ∀ i ∈ (a :: t.stack).map (·.id), i < t.nextId + 1 := by
    intro i hi
    rw [List.map_cons, List.mem_cons] at hi
    rcases hi with rfl | hi
    · omega
    · have := h.below _ hi; omega
  by_cases hin : m.hasInner = true
  · refine ⟨own ++ [(t.nextId, m)], ?_, Or.inr ⟨rfl, ?_⟩⟩
    · have hact : activate m v s = { s with mem := s.mem ++ [⟨true, v⟩], stack := ⟨m, v, some s.mem.length, false⟩ :: s.stack } := by
        rw [activate, if_pos hin]
      rw [hact]
      have hmap : (s.mem ++ [Context.mk true v]).map (·.rcvr) = s.mem.map (·.rcvr) ++ [v] := by rw [List.map_append]; rfl
      have hfresh : ∀ b ∈ t.stack, b.id ∉ ([(t.nextId, m)] : List (Nat × Code)).map (·.1) := by
        intro b hb hi
        have := h.below b.id (List.mem_map.mpr ⟨b, hb, rfl⟩)
        simp only [List.map_cons, List.map_nil, List.mem_singleton] at hi
        omega
      constructor
      · simp only [List.length_append, h.len, List.length_cons, List.length_nil]
      · simp only [hmap]; exact h.pool.imp fun _ _ _ hr => hr.mono _ _
      · exact h.poolOk
      · intro w hw
        simp only [hmap] at hw
        rcases List.mem_append.mp hw with hw | hw
        · exact h.memOk w hw
        · rw [List.mem_singleton] at hw; rw [hw]; exact hvok
      · refine ⟨?_, hnd, ?_⟩
        · simp only [hmap]
          refine .cons ⟨hcode.symm, htail.symm, hv.mono _ _, hvok, ?_, ?_⟩ (h.stack.frames.imp fun f b hb hr => hr.mono _ _ (hfresh b hb))
          · exact hkind
          · refine ⟨?_, ?_⟩
            · rw [List.getElem?_append_right (by rw [List.length_map]; omega), List.length_map, Nat.sub_self]; rfl
            · rw [h.len, List.getElem?_append_right (Nat.le_refl _), Nat.sub_self, hid]; rfl
        · intro x ctx hh m' hx ho hm'
          by_cases hl : x < s.mem.length
          · rw [List.getElem?_append_left hl] at hx
            rw [List.getElem?_append_left (by rw [← h.len]; exact hl)] at ho
            rw [h.stack.marks x ctx hh m' hx ho hm', List.map_cons, List.mem_cons]
            have := h.ownBelow hh (own_mem ho)
            constructor
            · exact Or.inr
            · rintro (e | e)
              · omega
              · exact e
          · rw [List.getElem?_append_right (by omega)] at hx
            rw [List.getElem?_append_right (by rw [← h.len]; omega)] at ho
            have : x - s.mem.length = 0 := by
              have := (List.getElem?_eq_some_iff.mp hx).1
              simp only [List.length_cons, List.length_nil] at this; omega
            rw [this] at hx
            rw [← h.len, this] at ho
            simp only [List.getElem?_cons_zero, Option.some.injEq, Prod.mk.injEq] at hx ho
            rw [← hx, ← ho.1, List.map_cons, List.mem_cons, hid]
            exact ⟨fun _ => Or.inl rfl, fun _ => rfl⟩
      · exact h.obj
      · exact h.log
      · exact hbel
      · rw [List.map_append, List.nodup_append]
        refine ⟨h.ownNodup, by simp, ?_⟩
        intro i hi j hj
        simp only [List.map_cons, List.map_nil, List.mem_singleton] at hj
        have := h.ownBelow i hi
        omega
      · intro i hi
        rw [List.map_append, List.mem_append] at hi
        rcases hi with hi | hi
        · have := h.ownBelow i hi; exact Nat.lt_succ_of_lt this
        · simp only [List.map_cons, List.map_nil, List.mem_singleton] at hi
          rw [hi]; exact Nat.lt_succ_self _
      · intro x y c hx
        simp only [hmap] at hx
        by_cases hl : x < s.mem.length
        · rw [List.getElem?_append_left (by rw [List.length_map]; exact hl)] at hx
          exact h.aged x y c hx
        · rw [List.getElem?_append_right (by rw [List.length_map]; omega)] at hx
          have := (List.getElem?_eq_some_iff.mp hx).1
          simp only [List.length_cons, List.length_nil, List.length_map] at this
          have hz : x - (s.mem.map (·.rcvr)).length = 0 := by rw [List.length_map]; omega
          rw [hz] at hx
          simp only [List.getElem?_cons_zero, Option.some.injEq] at hx
          have := hag c y hx
          omega
      · intro c y hp
        have := h.poolAged c y hp
        simp only [List.length_append, List.length_cons, List.length_nil]; omega
    · rw [activate, if_pos hin]; simp only [List.map_append]; rfl
  · have hact : activate m v s = { s with stack := ⟨m, v, none, false⟩ :: s.stack } := by
      rw [activate, if_neg hin]
    rw [hact]
    refine ⟨own, ?_, Or.inl ⟨rfl, rfl⟩⟩
    have hno : a.id ∉ own.map (·.1) := fun hi => by have := h.ownBelow _ hi; omega
    refine ⟨h.len, h.pool, h.poolOk, h.memOk, ⟨?_, hnd, ?_⟩, h.obj, h.log, hbel, h.ownNodup, ?_, h.aged, h.poolAged⟩
    · refine .cons ⟨hcode.symm, htail.symm, hv, hvok, hkind, ?_⟩ h.stack.frames
      exact ⟨by simpa using hin, hno⟩
    · intro x ctx hh m' hx ho hm'
      rw [h.stack.marks x ctx hh m' hx ho hm', List.map_cons, List.mem_cons]
      constructor
      · exact Or.inr
      · rintro (e | e)
        · exact absurd (e ▸ own_mem ho) hno
        · exact e
    · intro i hi; exact Nat.lt_succ_of_lt (h.ownBelow i hi)

/-- Needed for the bytecode interpreter: methods that catch returns are not invoked on blocks. -/
def Plain (rc : List Val) (own : List (Nat × Code)) : Prop :=
  ∀ (x h : Nat) (m : Code) (v : Val), own[x]? = some (h, m) → m.catches = true → rc[x]? = some v → ∃ n, v = .obj n

theorem VRel.dyn {mem : List Context} {own : List (Nat × Code)} {v : Val} {sv : SVal} (h : VRel (mem.map (·.rcvr)) own v sv)
    (hp : Plain (mem.map (·.rcvr)) own)
    (hag : ∀ (x y : Nat) (c : Code), (mem.map (·.rcvr))[x]? = some (.blk c (some y)) → y < x) :
    ∀ (c : Code) (y : Nat) (fuel : Nat), v = .blk c (some y) → c.throws = true → y < fuel →
      ∃ n, selfDynamically mem (fuel + 1) v = .ok (.obj n) ∧ outerN mem c.lvl v = .ok (.obj n) := by
  induction h with
  | obj n => intro c y f hv; cases hv
  | free ht => intro c y f hv ht'; cases hv; rw [ht] at ht'; cases ht'
  | @top c m x hid v self h1 h2 h3 h4 h5 _ =>
    intro c' y fuel hv _ hf
    cases hv
    obtain ⟨n, rfl⟩ := hp x hid m v h2 h3 h1
    rw [List.getElem?_map, Option.map_eq_some_iff] at h1
    obtain ⟨ctx, hc, hr⟩ := h1
    refine ⟨n, ?_, ?_⟩
    · simp only [selfDynamically, getFromOuter, hc, bind, Except.bind, hr]
    · rw [h4]; simp only [outerN, getFromOuter, hc, bind, Except.bind, hr]
  | @nest c c' x hid o self h1 h2 h3 h4 h5 ih =>
    intro c'' y fuel hv _ hf
    cases hv
    have h1' := h1
    rw [List.getElem?_map, Option.map_eq_some_iff] at h1
    obtain ⟨ctx, hc, hr⟩ := h1
    cases o with
    | none => cases h5 with | free ht => rw [ht] at h2; cases h2
    | some z =>
      have hz := hag x z c' h1'
      obtain ⟨n, e1, e2⟩ := ih c' z (fuel - 1) rfl h2 (by omega)
      have : fuel - 1 + 1 = fuel := by omega
      rw [this] at e1
      refine ⟨n, ?_, ?_⟩
      · simp only [selfDynamically, getFromOuter, hc, bind, Except.bind, hr]; exact e1
      · rw [h3]; simp only [outerN, getFromOuter, hc, bind, Except.bind, hr]; exact e2

theorem Rel.settle {own : List (Nat × Code)} {s : State} {t : Spec.State} (h : Rel own s t) {mem' : List Context} {fs' : List Frame}
    {as : List Act} (hm : mem'.map (·.rcvr) = s.mem.map (·.rcvr)) (hs : SRel own mem' fs' (as.dropWhile (·.tail)))
    (hsub : ∀ i ∈ (as.dropWhile (·.tail)).map (·.id), i < t.nextId) (r : Nat) :
    Rel own (s.settle r (mem', fs')) (resume r as t) := by
  have hl : mem'.length = s.mem.length := by
    have := congrArg List.length hm; simpa using this
  refine ⟨hl.trans h.len, ?_, h.poolOk, (by show ∀ v ∈ mem'.map (·.rcvr), BlockOk v; rw [hm]; exact h.memOk), hs, h.obj, ?_, hsub, h.ownNodup, h.ownBelow, ?_, ?_⟩
  · show All2 (VRel (mem'.map (·.rcvr)) own) s.pool t.pool
    rw [hm]; exact h.pool
  · show s.log ++ _ = t.log ++ _
    rw [h.log, hs.frames.length]
  · show ∀ (x y : Nat) (c : Code), (mem'.map (·.rcvr))[x]? = some (.blk c (some y)) → y < x
    rw [hm]; exact h.aged
  · intro c y hp
    show y < mem'.length
    rw [hl]; exact h.poolAged c y hp

theorem dropWhile_sub {p : Act → Bool} {l : List Act} {i : Nat} (h : i ∈ (l.dropWhile p).map (·.id)) : i ∈ l.map (·.id) := by
  rw [List.mem_map] at h ⊢
  obtain ⟨a, ha, e⟩ := h
  exact ⟨a, (List.dropWhile_suffix p).subset ha, e⟩

theorem callersOf_sub {hid i : Nat} {l : List Act} (h : i ∈ (callersOf hid l).map (·.id)) : i ∈ l.map (·.id) := by
  rw [List.mem_map] at h ⊢
  obtain ⟨a, ha, e⟩ := h
  exact ⟨a, (List.dropWhile_suffix _).subset (List.mem_of_mem_tail ha), e⟩

/-- The outcome of a step of the machine, given that of the specification. -/
def Sim (esc : Seen → Option Code) (e : Engine) : Except Fail State → Option Spec.State → Prop
  | .ok s, some t => ∃ own, Rel own s t ∧ (e = .bc → Plain (s.mem.map (·.rcvr)) own)
  | .error er, none => (∀ v, esc v ≠ none) → er = .refused
  | _, _ => False

theorem Rel.addPool {own : List (Nat × Code)} {s : State} {t : Spec.State} (h : Rel own s t) {v : Val} {sv : SVal}
    (hv : VRel (s.mem.map (·.rcvr)) own v sv) (hok : BlockOk v) (hag : ∀ c y, v = .blk c (some y) → y < s.mem.length) :
    Rel own { s with pool := s.pool ++ [v] } { t with pool := t.pool ++ [sv] } := by
  refine ⟨h.len, h.pool.append (.cons hv .nil), ?_, h.memOk, h.stack, h.obj, h.log, h.below, h.ownNodup, h.ownBelow, h.aged, ?_⟩
  · intro w hw
    rcases List.mem_append.mp hw with hw | hw
    · exact h.poolOk w hw
    · rw [List.mem_singleton] at hw; rw [hw]; exact hok
  · intro c y hp
    rcases List.mem_append.mp hp with hp | hp
    · exact h.poolAged c y hp
    · rw [List.mem_singleton] at hp; exact hag c y hp.symm

theorem Plain.activate {own own' : List (Nat × Code)} {s : State} {m : Code} {v : Val} {i : Nat} (hp : Plain (s.mem.map (·.rcvr)) own)
    (hl : s.mem.length = own.length)
    (ho : own' = own ∧ (activate m v s).mem = s.mem ∨ (own' = own ++ [(i, m)] ∧ (Nlr.activate m v s).mem.map (·.rcvr) = s.mem.map (·.rcvr) ++ [v]))
    (hm : m.catches = true → ∃ n, v = .obj n) : Plain ((Nlr.activate m v s).mem.map (·.rcvr)) own' := by
  rcases ho with ⟨rfl, hme⟩ | ⟨rfl, hme⟩
  · rw [hme]; exact hp
  · rw [hme]
    intro x h m' w ho hc hr
    by_cases hx : x < own.length
    · rw [List.getElem?_append_left hx] at ho
      rw [List.getElem?_append_left (by rw [List.length_map]; omega)] at hr
      exact hp x h m' w ho hc hr
    · rw [List.getElem?_append_right (by omega)] at ho
      have hz : x - own.length = 0 := by
        have := (List.getElem?_eq_some_iff.mp ho).1
        simp only [List.length_cons, List.length_nil] at this; omega
      rw [hz] at ho
      rw [List.getElem?_append_right (by rw [List.length_map]; omega), List.length_map, hl, hz] at hr
      simp only [List.getElem?_cons_zero, Option.some.injEq, Prod.mk.injEq] at ho hr
      rw [← hr]
      exact hm (ho.2 ▸ hc)

theorem step_sim (e : Engine) (esc : Seen → Option Code) (hesc : ∀ v m, esc v = some m → Ok 0 m) {own : List (Nat × Code)} {s : State}
    {t : Spec.State} (h : Rel own s t) (hpl : e = .bc → Plain (s.mem.map (·.rcvr)) own) (q : Req) (hq : ReqOk q)
    (hnb : e = .bc → NoBlockReceiver t q) : Sim esc e (step e esc s q) (Spec.step esc t q) := by
  obtain ⟨mem, stack, pool, nextObj, log⟩ := s
  obtain ⟨tstack, tpool, tobj, tid, tlog⟩ := t
  have hst := h.stack
  obtain ⟨hfr, hnd, hmk⟩ := hst
  simp only at hfr hnd hmk
  cases hfr with
  | nil => exact fun _ => rfl
  | @cons f a fs as hfa hfs =>
  have hcode := hfa.code
  have hctx := hfa.ctx
  have hsrel : SRel own mem (f :: fs) (a :: as) := ⟨.cons hfa hfs, hnd, hmk⟩
  have hbel : ∀ i ∈ (a :: as).map (·.id), i < tid := h.below
  cases q with
  | new =>
    have hobj : nextObj = tobj := h.obj
    subst hobj
    have := h.addPool (v := .obj nextObj) (sv := .obj nextObj) (.obj _) trivial (fun c y hv => by cases hv)
    exact ⟨own, ⟨this.len, this.pool, this.poolOk, this.memOk, this.stack, rfl, this.log, this.below, this.ownNodup, this.ownBelow, this.aged, this.poolAged⟩, hpl⟩
  | block i =>
    simp only [step, Spec.step, ← hcode]
    cases hb : f.code.blocks[i]? with
    | none => exact fun _ => rfl
    | some c =>
      have hcm : c ∈ f.code.blocks := List.mem_of_getElem? hb
      have hag : ∀ c' y, Val.blk c (if c.requiresContext then f.ctx else none) = .blk c' (some y) → y < mem.length := by
        intro c' y he
        by_cases hr : c.requiresContext = true
        · rw [if_pos hr] at he
          have : f.ctx = some y := by injection he
          rw [this] at hctx
          have := (List.getElem?_eq_some_iff.mp hctx.1).1
          simpa using this
        · rw [if_neg hr] at he; cases he
      have hfok : ∃ l, Ok l f.code ∧ ((l = 0 ∧ a.home = a.id ∧ a.self = a.rcvr) ∨
          (0 < l ∧ (∃ o, f.rcvr = .blk f.code o) ∧ a.rcvr = .blk f.code a.home a.self)) := by
        rcases hfa.kind with ⟨k1, k2, k3⟩ | ⟨k0, ⟨l, k1, k2⟩, k3, k4⟩
        · exact ⟨0, k1, Or.inl ⟨rfl, k2, k3⟩⟩
        · exact ⟨l, k2, Or.inr ⟨k1, k3, k4⟩⟩
      obtain ⟨l, hl, hkd⟩ := hfok
      cases hl with
      | intro hlvl hcar hcat hnest hknows =>
      have hbok := hnest c hcm
      refine ⟨own, h.addPool ?_ ⟨l + 1, by omega, hbok⟩ hag, hpl⟩
      by_cases ht : c.throws = true
      · have hk := hknows c hcm ht
        rw [if_pos (Code.throws_requiresContext ht)]
        have hclvl : c.lvl = l + 1 := by cases hbok with | intro h1 _ _ _ _ => exact h1 ht
        rcases hkd with ⟨hl0, k2, k3⟩ | ⟨hl0, ⟨o, k3⟩, k4⟩
        · rw [if_pos hl0] at hk
          cases hc : f.ctx with
          | none => rw [hc, Code.catches_hasInner hk] at hctx; cases hctx.1
          | some x =>
            rw [hc] at hctx
            rw [k2, k3]
            exact .top hctx.1 hctx.2 hk (by omega) hfa.rcvr
        · rw [if_neg (by omega)] at hk
          cases hc : f.ctx with
          | none => rw [hc, Code.requiresContext_hasInner (Code.throws_requiresContext hk)] at hctx; cases hctx.1
          | some x =>
            rw [hc, k3] at hctx
            have hrv := hfa.rcvr
            rw [k3, k4] at hrv
            have := hlvl hk
            exact .nest hctx.1 hk (by omega) (by omega) hrv
      · exact .free (by simpa using ht)
  | send r m =>
    simp only [step, Spec.step]
    rcases h.pool.get r with ⟨e1, e2⟩ | ⟨v, sv, e1, e2, hv⟩
    · simp only at e1 e2; rw [e1, e2]; exact fun _ => rfl
    · simp only at e1 e2; rw [e1, e2]
      have hvm : v ∈ pool := List.mem_of_getElem? e1
      obtain ⟨own', h1, h2⟩ := activate_rel h (m := m) (v := v) (a := ⟨m, sv, tid, tid, sv, false⟩) hv (h.poolOk v hvm)
        (fun c y he => h.poolAged c y (he ▸ hvm)) rfl rfl rfl (Or.inl ⟨hq, rfl, rfl⟩)
      refine ⟨own', h1, fun he => ?_⟩
      refine Plain.activate (i := tid) (hpl he) h.len h2 ?_
      · intro hc
        cases hv with
        | obj n => exact ⟨n, rfl⟩
        | free _ => exact absurd e2 (hnb he hc _ _ _)
        | top _ _ _ _ _ => exact absurd e2 (hnb he hc _ _ _)
        | nest _ _ _ _ _ => exact absurd e2 (hnb he hc _ _ _)
  | value b =>
    simp only [step, Spec.step]
    rcases h.pool.get b with ⟨e1, e2⟩ | ⟨v, sv, e1, e2, hv⟩
    · simp only at e1 e2; rw [e1, e2]; exact fun _ => rfl
    · simp only at e1 e2; rw [e1, e2]
      have hvm : v ∈ pool := List.mem_of_getElem? e1
      have key : ∀ c o hid self, v = .blk c o → sv = .blk c hid self →
          Sim esc e (.ok (activate c (.blk c o) ⟨mem, f :: fs, pool, nextObj, log⟩)) (some (evaluate c hid self ⟨a :: as, tpool, tobj, tid, tlog⟩)) := by
        intro c o hid self hv1 hv2
        subst hv1 hv2
        obtain ⟨l, hl1, hl2⟩ := h.poolOk _ hvm
        have hnc : c.catches = false := by
          cases hl2 with
          | intro _ _ hc _ _ =>
            cases hcc : c.catches with
            | false => rfl
            | true => have := hc hcc; omega
        obtain ⟨own', h1, h2⟩ := activate_rel h (m := c) (v := .blk c o) (a := ⟨c, .blk c hid self, tid, hid, self, false⟩) hv ⟨l, hl1, hl2⟩
          (fun c' y he => h.poolAged c' y (he ▸ hvm)) rfl rfl rfl (Or.inr ⟨hnc, ⟨l, hl1, hl2⟩, ⟨o, rfl⟩, rfl⟩)
        refine ⟨own', h1, fun he => ?_⟩
        exact Plain.activate (i := tid) (hpl he) h.len h2 (fun hc => by rw [hnc] at hc; cases hc)
      have hv' := hv
      cases hv' with
      | obj n => exact fun _ => rfl
      | free _ => exact key _ _ _ _ rfl rfl
      | top _ _ _ _ _ => exact key _ _ _ _ rfl rfl
      | nest _ _ _ _ _ => exact key _ _ _ _ rfl rfl
  | ret r =>
    simp only [step, Spec.step]
    rcases h.pool.get r with ⟨e1, e2⟩ | ⟨v, sv, e1, e2, hv⟩
    · simp only at e1 e2; rw [e1, e2]; exact fun _ => rfl
    · simp only at e1 e2; rw [e1, e2]
      obtain ⟨mem', fs', k1, k2, k3⟩ := ret_ok h.ownNodup fs hsrel
      simp only [k1, bind, Except.bind]
      refine ⟨own, h.settle k2 k3 (fun i hi => hbel i ?_) r, fun he => ?_⟩
      · rw [List.map_cons]; exact List.mem_cons_of_mem _ (dropWhile_sub hi)
      · show Plain (mem'.map (·.rcvr)) own
        rw [k2]; exact hpl he
  | exit r =>
    simp only [step, Spec.step]
    rcases h.pool.get r with ⟨e1, e2⟩ | ⟨v, sv, e1, e2, hv⟩
    · simp only at e1 e2; rw [e1, e2]; exact fun _ => rfl
    · simp only at e1 e2; rw [e1, e2]
      by_cases hcat : f.code.catches = true
      · simp only [hcat, ← hcode, if_true]
        cases hc : f.ctx with
        | none => rw [hc, Code.catches_hasInner hcat] at hctx; cases hctx.1
        | some x =>
          rw [hc] at hctx
          obtain ⟨hr, ho⟩ := hctx
          rw [List.getElem?_map, Option.map_eq_some_iff] at hr
          obtain ⟨c, hx, _⟩ := hr
          have hon : c.on = true := (hmk x c a.id f.code hx ho hcat).mpr List.mem_cons_self
          obtain ⟨mem', fs', k1, k2, k3⟩ := ret_ok h.ownNodup fs hsrel
          have hu : unwind x mem (f :: fs) = .ok (mem', fs') := by rw [unwind, if_pos hcat, if_pos hc]; exact k1
          simp only [hx, hon, if_true, hu, bind, Except.bind]
          refine ⟨own, h.settle k2 k3 (fun i hi => hbel i ?_) r, fun he => ?_⟩
          · rw [List.map_cons]; exact List.mem_cons_of_mem _ (dropWhile_sub hi)
          · show Plain (mem'.map (·.rcvr)) own
            rw [k2]; exact hpl he
      · simp only [← hcode, if_neg hcat]; exact fun _ => rfl
  | caret r =>
    simp only [step, Spec.step]
    rcases h.pool.get r with ⟨e1, e2⟩ | ⟨v, sv, e1, e2, hv⟩
    · simp only at e1 e2; rw [e1, e2]; exact fun _ => rfl
    · simp only at e1 e2; rw [e1, e2]
      by_cases hcar : f.code.caret = true
      · simp only [hcar, ← hcode, if_true]
        -- the activation is one of a block that throws
        have hblk : f.code.throws = true ∧ (∃ o, f.rcvr = .blk f.code o) ∧ a.rcvr = .blk f.code a.home a.self := by
          rcases hfa.kind with ⟨k1, _, _⟩ | ⟨_, ⟨l, k1, k2⟩, k3, k4⟩
          · cases k1 with | intro _ hc _ _ _ => have := (hc hcar).2; omega
          · cases k2 with | intro _ hc _ _ _ => exact ⟨(hc hcar).1, k3, k4⟩
        obtain ⟨hth, ⟨o, hro⟩, har⟩ := hblk
        obtain ⟨x, ctx, m, b, g1, g2, g3, g4, g5, g6⟩ := hfa.rcvr.home f.code o a.home a.self hro har hth
        have hmarks := hmk x ctx a.home m g2 g3 g4
        simp only [doReturnNonLocal, g1, g2, bind, Except.bind]
        by_cases hon : ctx.on = true
        · obtain ⟨mem', fs', k1, k2, k3⟩ := unwind_ok h.ownNodup g3 g4 (f :: fs) hsrel (hmarks.mp hon)
          rw [if_pos hon]
          simp only [k1, Spec.caret]
          rw [if_pos (hmarks.mp hon)]
          refine ⟨own, h.settle k2 k3 (fun i hi => hbel i (callersOf_sub (dropWhile_sub hi))) r, fun he => ?_⟩
          show Plain (mem'.map (·.rcvr)) own
          rw [k2]; exact hpl he
        · rw [if_neg hon]
          have hself : outerSelf e mem f.rcvr f.code.lvl = .ok ctx.rcvr := by
            cases e with
            | ast => exact g6
            | bc =>
              rw [outerSelf, hro]
              have hrv := hfa.rcvr
              rw [hro, har] at hrv
              cases ho : o with
              | none => rw [ho] at hrv; cases hrv with | free ht => rw [ht] at hth; cases hth
              | some y =>
                rw [ho] at hrv
                have hy : y < mem.length := by
                  cases hrv with
                  | free ht => rw [ht] at hth; cases hth
                  | top q1 _ _ _ _ => have := (List.getElem?_eq_some_iff.mp q1).1; simpa using this
                  | nest q1 _ _ _ _ => have := (List.getElem?_eq_some_iff.mp q1).1; simpa using this
                obtain ⟨n, d1, d2⟩ := hrv.dyn (hpl rfl) h.aged f.code y mem.length rfl hth hy
                rw [hro, ho, d2] at g6
                rw [d1]; exact g6
          simp only [hself, Spec.caret]
          rw [if_neg (fun hi => hon (hmarks.mpr hi)), g5.seen]
          cases hes : esc a.self.seen with
          | none => exact fun hall => absurd hes (hall _)
          | some m' =>
            have hbo : BlockOk ctx.rcvr ∧ ∀ c y, ctx.rcvr = .blk c (some y) → y < mem.length := by
              refine ⟨h.memOk _ (List.mem_map.mpr ⟨ctx, List.mem_of_getElem? g2, rfl⟩), fun c y hc => ?_⟩
              have h1 := h.aged x y c (by rw [List.getElem?_map, g2, ← hc]; rfl)
              have h2 := (List.getElem?_eq_some_iff.mp g2).1
              omega
            have hr1 := h.addPool (v := ctx.rcvr) (sv := a.self) g5 hbo.1 hbo.2
            have hr2 : Rel own ⟨mem, { f with tail := true } :: fs, pool ++ [ctx.rcvr], nextObj, log ++ [.escaped a.self.seen f.rcvr.seen]⟩
                ⟨{ a with tail := true } :: as, tpool ++ [a.self], tobj, tid, tlog ++ [.escaped a.self.seen a.rcvr.seen]⟩ := by
              refine ⟨hr1.len, hr1.pool, hr1.poolOk, hr1.memOk, ⟨.cons ?_ hfs, hnd, hmk⟩, hr1.obj, ?_, h.below, hr1.ownNodup, hr1.ownBelow, hr1.aged, hr1.poolAged⟩
              · exact ⟨hfa.code, rfl, hfa.rcvr, hfa.vok, hfa.kind, hfa.ctx⟩
              · show log ++ _ = tlog ++ _
                rw [hfa.rcvr.seen, show log = tlog from h.log]
            obtain ⟨own', h1, h2⟩ := activate_rel hr2 (m := m') (v := ctx.rcvr) (a := ⟨m', a.self, tid, tid, a.self, false⟩) g5 hbo.1 hbo.2 rfl rfl rfl
              (Or.inl ⟨hesc _ _ hes, rfl, rfl⟩)

            refine ⟨own', h1, fun he => ?_⟩
            refine Plain.activate (i := tid) (hpl he) h.len h2 (fun _ => ?_)
            exact hpl he x a.home m ctx.rcvr g3 g4 (by rw [List.getElem?_map, g2]; rfl)
      · simp only [← hcode, if_neg hcar]; exact fun _ => rfl
end PySOM.Nlr

import Verif.Spec.Universe
/-!
# Starting and loading: invariants
-/
set_option autoImplicit false
namespace PySOM.Boot

/-! ## The state -/

theorem U.at_upd (u : U) (c : Cid) (f : Cls → Cls) (hf : ∀ d : Cid, c = d → ¬ d < u.classes.length → f {} = {} ∨ True) (d : Cid) :
    (u.upd c f).at d = if c = d ∧ d < u.classes.length then f (u.at d) else u.at d := by
  unfold U.at U.upd
  simp only [List.getD_eq_getElem?_getD, List.getElem?_modify]
  by_cases h : c = d
  · subst h
    by_cases hl : c < u.classes.length
    · simp [hl]
    · simp [hl]
  · simp [h]

theorem U.at_app (u : U) (xs : List Cls) (g : List (Name × Glob)) (c : Cid) (h : c < u.classes.length) : (U.at ⟨u.classes ++ xs, g⟩ c) = u.at c := by
  unfold U.at
  simp only [List.getD_eq_getElem?_getD, List.getElem?_append_left h]

theorem U.at_out (u : U) (c : Cid) (h : u.classes.length ≤ c) : u.at c = {} := by
  unfold U.at
  simp only [List.getD_eq_getElem?_getD, List.getElem?_eq_none h, Option.getD_none]

theorem U.lt_of_cls {u : U} {c m : Cid} (h : (u.at c).cls = some m) : c < u.classes.length := by
  rcases Nat.lt_or_ge c u.classes.length with h1 | h1
  · exact h1
  · rw [U.at_out u c h1] at h; cases h

theorem U.lt_of_sup {u : U} {c m : Cid} (h : (u.at c).sup = some m) : c < u.classes.length := by
  rcases Nat.lt_or_ge c u.classes.length with h1 | h1
  · exact h1
  · rw [U.at_out u c h1] at h; cases h

/-! ## Invariant -/

/-- A class of `G`, or the class of one. -/
def Kn (u : U) (G : Cid → Prop) (c : Cid) : Prop := G c ∨ ∃ p, G p ∧ (u.at p).cls = some c

/-- `G` are the ordinary classes. -/
structure Inv (s : Sys) (u : U) (G : Cid → Prop) : Prop where
  ord : ∀ c, G c → ∃ m, m ≠ s.meta ∧ Ordinary s u c m ∧ (u.at c).fields.isSome = true ∧ (u.at m).fields.isSome = true
  sup : ∀ c d, G c → (u.at c).sup = some d → Kn u G d
  inj : ∀ c d m, G c → G d → (u.at c).cls = some m → (u.at d).cls = some m → c = d
  inst : ∀ d m, (u.at d).cls = some m → m = s.meta ∨ G d
  obj : G s.object ∧ (u.at s.object).sup = none ∧ (u.at s.object).name = some symObject
  clas : G s.class_
  met : G s.meta ∧ (u.at s.meta).name = some "Metaclass".toList ∧ Inherits u s.meta s.class_
  glob : ∀ n c, (n, Glob.cls c) ∈ u.globals → Kn u G c

/-- From one state to a later one. -/
structure Step (s : Sys) (u : U) (G : Cid → Prop) (u' : U) (G' : Cid → Prop) : Prop where
  inv : Inv s u' G'
  mono : ∀ c, G c → G' c
  keep : ∀ c, G c → (u'.at c).cls = (u.at c).cls ∧ (u'.at c).name = (u.at c).name ∧ (u'.at c).sup = (u.at c).sup

theorem Step.refl {s : Sys} {u : U} {G : Cid → Prop} (h : Inv s u G) : Step s u G u G := ⟨h, fun _ h => h, fun _ _ => ⟨rfl, rfl, rfl⟩⟩

theorem Step.trans {s : Sys} {u u' u'' : U} {G G' G'' : Cid → Prop} (h : Step s u G u' G') (h' : Step s u' G' u'' G'') : Step s u G u'' G'' :=
  ⟨h'.inv, fun c hc => h'.mono c (h.mono c hc), fun c hc =>
    ⟨(h'.keep c (h.mono c hc)).1.trans (h.keep c hc).1, (h'.keep c (h.mono c hc)).2.1.trans (h.keep c hc).2.1, (h'.keep c (h.mono c hc)).2.2.trans (h.keep c hc).2.2⟩⟩

theorem Kn.step {s : Sys} {u u' : U} {G G' : Cid → Prop} (h : Step s u G u' G') {c : Cid} (hc : Kn u G c) : Kn u' G' c := by
  rcases hc with hc | ⟨p, hp, hc⟩
  · exact .inl (h.mono c hc)
  · exact .inr ⟨p, h.mono p hp, (h.keep p hp).1.trans hc⟩

theorem Kn.cls {s : Sys} {u : U} {G : Cid → Prop} (h : Inv s u G) {c : Cid} (hc : Kn u G c) : ∃ m, (u.at c).cls = some m ∧ Kn u G m ∧ (u.at c).fields.isSome = true ∧ (u.at m).fields.isSome = true ∧
    Inherits u m s.class_ := by
  rcases hc with hc | ⟨p, hp, hc⟩
  · obtain ⟨m, hm, ho, h1, h2⟩ := h.ord c hc
    exact ⟨m, ho.class_, .inr ⟨c, hc, ho.class_⟩, h1, h2, ho.behaviour⟩
  · obtain ⟨m, hm, ho, h1, h2⟩ := h.ord p hp
    have : m = c := Option.some.inj (ho.class_.symm.trans hc)
    subst this
    obtain ⟨mm, _, _, h3, _⟩ := h.ord s.meta h.met.1
    exact ⟨s.meta, ho.metaclass, .inl h.met.1, h2, h3, h.met.2.2⟩

theorem Inherits.trans {u : U} {a b c : Cid} (h : Inherits u a b) (h' : Inherits u b c) : Inherits u a c := by
  induction h with
  | refl => exact h'
  | step c s d h _ ih => exact .step _ _ _ h (ih h')

theorem Kn.object {s : Sys} {u : U} {G : Cid → Prop} (h : Inv s u G) {c : Cid} (hc : Kn u G c) : Inherits u c s.object := by
  rcases hc with hc | ⟨p, hp, hc⟩
  · obtain ⟨m, hm, ho, h1, h2⟩ := h.ord c hc
    exact ho.object
  · obtain ⟨m, hm, ho, h1, h2⟩ := h.ord p hp
    have : m = c := Option.some.inj (ho.class_.symm.trans hc)
    subst this
    obtain ⟨mm, _, ho', _, _⟩ := h.ord s.class_ h.clas
    exact ho.behaviour.trans ho'.object

theorem Kn.sup {s : Sys} {u : U} {G : Cid → Prop} (h : Inv s u G) {c d : Cid} (hc : Kn u G c) (hd : (u.at c).sup = some d) : Kn u G d := by
  rcases hc with hc | ⟨p, hp, hc⟩
  · exact h.sup c d hc hd
  · obtain ⟨m, hm, ho, h1, h2⟩ := h.ord p hp
    have : m = c := Option.some.inj (ho.class_.symm.trans hc)
    subst this
    cases hs : (u.at p).sup with
    | none =>
      rw [(ho.root hs).2] at hd
      cases hd
      exact .inl h.clas
    | some e =>
      rw [ho.parallel e hs] at hd
      obtain ⟨me, he, hk, _⟩ := (h.sup p e hp hs).cls h
      rw [he] at hd
      cases hd
      exact hk

/-! ## Changes in place -/

/-- Only fields and tables change. -/
structure InPlace (u u' : U) : Prop where
  globals : u'.globals = u.globals
  cls : ∀ c, (u'.at c).cls = (u.at c).cls
  sup : ∀ c, (u'.at c).sup = (u.at c).sup
  name : ∀ c, (u'.at c).name = (u.at c).name
  fields : ∀ c, (u.at c).fields.isSome = true → (u'.at c).fields.isSome = true

theorem Inherits.mono {u u' : U} (h : ∀ c s, (u.at c).sup = some s → (u'.at c).sup = some s) {c d : Cid} (hc : Inherits u c d) : Inherits u' c d := by
  induction hc with
  | refl => exact .refl _
  | step c s d h1 _ ih => exact .step _ _ _ (h c s h1) ih

theorem Ordinary.inPlace {s : Sys} {u u' : U} (h : InPlace u u') {c m : Cid} (ho : Ordinary s u c m) : Ordinary s u' c m where
  class_ := (h.cls c).trans ho.class_
  metaclass := (h.cls m).trans ho.metaclass
  name := by rw [h.name, h.name]; exact ho.name
  root := by rw [h.sup, h.sup]; exact ho.root
  parallel := fun d => by rw [h.sup, h.sup, h.cls]; exact ho.parallel d
  object := ho.object.mono fun c s hs => (h.sup c).trans hs
  behaviour := ho.behaviour.mono fun c s hs => (h.sup c).trans hs

theorem Inv.inPlace {s : Sys} {u u' : U} {G : Cid → Prop} (h : InPlace u u') (hi : Inv s u G) : Step s u G u' G := by
  have hK : ∀ {c}, Kn u G c → Kn u' G c := fun hc => hc.imp id fun ⟨p, hp, hc⟩ => ⟨p, hp, (h.cls p).trans hc⟩
  refine ⟨⟨?_, ?_, ?_, ?_, ?_, hi.clas, ?_, ?_⟩, fun _ h => h, fun c _ => ⟨h.cls c, h.name c, h.sup c⟩⟩
  · intro c hc
    obtain ⟨m, hm, ho, h1, h2⟩ := hi.ord c hc
    exact ⟨m, hm, ho.inPlace h, h.fields c h1, h.fields m h2⟩
  · intro c d hc hd
    rw [h.sup] at hd
    exact hK (hi.sup c d hc hd)
  · intro c d m hc hd
    rw [h.cls, h.cls]
    exact hi.inj c d m hc hd
  · intro d m
    rw [h.cls]
    exact hi.inst d m
  · rw [h.sup, h.name]; exact hi.obj
  · rw [h.name]; exact ⟨hi.met.1, hi.met.2.1, hi.met.2.2.mono fun c s hs => (h.sup c).trans hs⟩
  · intro n c hc
    rw [h.globals] at hc
    exact hK (hi.glob n c hc)

theorem InPlace.upd (u : U) (c : Cid) (f : Cls → Cls) (h1 : ∀ x, (f x).cls = x.cls) (h2 : ∀ x, (f x).sup = x.sup) (h3 : ∀ x, (f x).name = x.name) (h4 : ∀ x, x.fields.isSome = true → (f x).fields.isSome = true) :
    InPlace u (u.upd c f) := by
  refine ⟨rfl, fun d => ?_, fun d => ?_, fun d => ?_, fun d => ?_⟩ <;> rw [U.at_upd _ _ _ (fun _ _ _ => .inr trivial)] <;> split
  · exact h1 _
  · rfl
  · exact h2 _
  · rfl
  · exact h3 _
  · rfl
  · exact h4 _
  · exact id

theorem Inv.global {s : Sys} {u : U} {G : Cid → Prop} (hi : Inv s u G) (n : Name) (v : Glob) (hv : ∀ c, v = .cls c → Kn u G c) : Step s u G { u with globals := (n, v) :: u.globals } G := by
  have sub : ∀ {c d}, Inherits u c d → Inherits { u with globals := (n, v) :: u.globals } c d := fun {c d} h =>
    Inherits.mono (u := u) (u' := { u with globals := (n, v) :: u.globals }) (fun _ _ h => h) h
  refine ⟨⟨fun c hc => ?_, hi.sup, hi.inj, hi.inst, hi.obj, hi.clas, ⟨hi.met.1, hi.met.2.1, sub hi.met.2.2⟩, fun n' c hc => ?_⟩, fun _ h => h, fun _ _ => ⟨rfl, rfl, rfl⟩⟩
  · obtain ⟨m, hm, ho, h1, h2⟩ := hi.ord c hc
    exact ⟨m, hm, ⟨ho.class_, ho.metaclass, ho.name, ho.root, ho.parallel, sub ho.object, sub ho.behaviour⟩, h1, h2⟩
  · rcases List.mem_cons.mp hc with h | h
    · cases h; exact hv c rfl
    · exact hi.glob n' c h

/-! ## New classes -/

/-- A class without ordinary instances is added; nothing else changes. -/
theorem Inv.junk {s : Sys} {u : U} {G : Cid → Prop} (hi : Inv s u G) (x : Cls) (hx : x.cls = some s.meta) : Step s u G ⟨u.classes ++ [x], u.globals⟩ G := by
  have old : ∀ c, c < u.classes.length → (U.at ⟨u.classes ++ [x], u.globals⟩ c) = u.at c := fun c h => U.at_app u [x] u.globals c h
  have lt : ∀ c, G c → c < u.classes.length := fun c hc => by obtain ⟨m, _, ho, _⟩ := hi.ord c hc; exact U.lt_of_cls ho.class_
  have sub : ∀ {c d}, Inherits u c d → Inherits ⟨u.classes ++ [x], u.globals⟩ c d := fun h => h.mono fun c s hs => by rw [old c (U.lt_of_sup hs)]; exact hs
  have hK : ∀ {c}, Kn u G c → Kn ⟨u.classes ++ [x], u.globals⟩ G c := fun hc => hc.imp id fun ⟨p, hp, hc⟩ => ⟨p, hp, by rw [old p (lt p hp)]; exact hc⟩
  have ltK : ∀ {c}, Kn u G c → c < u.classes.length := fun hc => by obtain ⟨m, hm, _⟩ := hc.cls hi; exact U.lt_of_cls hm
  refine ⟨⟨?_, ?_, ?_, ?_, ?_, hi.clas, ?_, ?_⟩, fun _ h => h, fun c hc => by rw [old c (lt c hc)]; exact ⟨rfl, rfl, rfl⟩⟩
  · intro c hc
    obtain ⟨m, hm, ho, h1, h2⟩ := hi.ord c hc
    have hcl := lt c hc
    have hml := U.lt_of_cls ho.metaclass
    refine ⟨m, hm, ⟨?_, ?_, ?_, ?_, ?_, sub ho.object, sub ho.behaviour⟩, ?_, ?_⟩
    · rw [old c hcl]; exact ho.class_
    · rw [old m hml]; exact ho.metaclass
    · rw [old c hcl, old m hml]; exact ho.name
    · rw [old c hcl, old m hml]; exact ho.root
    · intro d hd
      rw [old c hcl] at hd
      rw [old m hml, old d (ltK (hi.sup c d hc hd))]; exact ho.parallel d hd
    · rw [old c hcl]; exact h1
    · rw [old m hml]; exact h2
  · intro c d hc hd
    rw [old c (lt c hc)] at hd
    exact hK (hi.sup c d hc hd)
  · intro c d m hc hd
    rw [old c (lt c hc), old d (lt d hd)]
    exact hi.inj c d m hc hd
  · intro d m hd
    rcases Nat.lt_or_ge d u.classes.length with h | h
    · rw [old d h] at hd; exact hi.inst d m hd
    · have hl := U.lt_of_cls hd
      simp only [List.length_append, List.length_cons, List.length_nil] at hl
      have : d = u.classes.length := Nat.le_antisymm (Nat.le_of_lt_succ hl) h
      subst this
      have hat : (U.at ⟨u.classes ++ [x], u.globals⟩ u.classes.length) = x := by unfold U.at; simp
      rw [hat, hx] at hd
      exact .inl (Option.some.inj hd).symm
  · rw [old _ (lt _ hi.obj.1)]; exact hi.obj
  · rw [old _ (lt _ hi.met.1)]; exact ⟨hi.met.1, hi.met.2.1, sub hi.met.2.2⟩
  · intro n c hc
    exact hK (hi.glob n c hc)

/-- An ordinary class `y` is added with its metaclass `x`. -/
theorem Inv.add {s : Sys} {u : U} {G : Cid → Prop} (hi : Inv s u G) (x y : Cls) (sc sm : Cid) (n : Name) (hsc : Kn u G sc) (hsm : (u.at sc).cls = some sm) (hx : x.cls = some s.meta)
    (hxs : x.sup = some sm) (hxn : x.name = some (className n)) (hxf : x.fields.isSome = true) (hy : y.cls = some u.classes.length) (hys : y.sup = some sc) (hyn : y.name = some n)
    (hyf : y.fields.isSome = true) :
    Step s u G ⟨u.classes ++ [x, y], u.globals⟩ (fun c => G c ∨ c = u.classes.length + 1) := by
  have old : ∀ c, c < u.classes.length → (U.at ⟨u.classes ++ [x, y], u.globals⟩ c) = u.at c := fun c h => U.at_app u [x, y] u.globals c h
  have hatx : (U.at ⟨u.classes ++ [x, y], u.globals⟩ u.classes.length) = x := by unfold U.at; simp
  have haty : (U.at ⟨u.classes ++ [x, y], u.globals⟩ (u.classes.length + 1)) = y := by unfold U.at; simp
  have lt : ∀ c, G c → c < u.classes.length := fun c hc => by obtain ⟨m, _, ho, _⟩ := hi.ord c hc; exact U.lt_of_cls ho.class_
  have sub : ∀ {c d}, Inherits u c d → Inherits ⟨u.classes ++ [x, y], u.globals⟩ c d := fun h => h.mono fun c s hs => by rw [old c (U.lt_of_sup hs)]; exact hs
  have hK : ∀ {c}, Kn u G c → Kn ⟨u.classes ++ [x, y], u.globals⟩ (fun c => G c ∨ c = u.classes.length + 1) c := fun hc =>
    hc.imp (.inl ·) fun ⟨p, hp, hc⟩ => ⟨p, .inl hp, by rw [old p (lt p hp)]; exact hc⟩
  have ltK : ∀ {c}, Kn u G c → c < u.classes.length := fun hc => by obtain ⟨m, hm, _⟩ := hc.cls hi; exact U.lt_of_cls hm
  obtain ⟨sm', hsm', hkm, _, _, hbeh⟩ := hsc.cls hi
  have : sm' = sm := Option.some.inj (hsm'.symm.trans hsm)
  subst this
  refine ⟨⟨?_, ?_, ?_, ?_, ?_, .inl hi.clas, ?_, ?_⟩, fun _ h => .inl h, fun c hc => by rw [old c (lt c hc)]; exact ⟨rfl, rfl, rfl⟩⟩
  · rintro c (hc | rfl)
    · obtain ⟨m, hm, ho, h1, h2⟩ := hi.ord c hc
      have hcl := lt c hc
      have hml := U.lt_of_cls ho.metaclass
      refine ⟨m, hm, ⟨?_, ?_, ?_, ?_, ?_, sub ho.object, sub ho.behaviour⟩, ?_, ?_⟩
      · rw [old c hcl]; exact ho.class_
      · rw [old m hml]; exact ho.metaclass
      · rw [old c hcl, old m hml]; exact ho.name
      · rw [old c hcl, old m hml]; exact ho.root
      · intro d hd
        rw [old c hcl] at hd
        rw [old m hml, old d (ltK (hi.sup c d hc hd))]; exact ho.parallel d hd
      · rw [old c hcl]; exact h1
      · rw [old m hml]; exact h2
    · refine ⟨u.classes.length, ?_, ⟨?_, ?_, ?_, ?_, ?_, ?_, ?_⟩, ?_, ?_⟩
      · exact Nat.ne_of_gt (lt _ hi.met.1)
      · rw [haty]; exact hy
      · rw [hatx]; exact hx
      · rw [haty, hatx]; exact ⟨n, hyn, hxn⟩
      · rw [haty, hys]; intro h; cases h
      · intro d hd
        rw [haty, hys] at hd
        cases hd
        rw [hatx, hxs, old _ (ltK hsc)]; exact hsm.symm
      · exact .step _ sc _ (by rw [haty]; exact hys) (sub (hsc.object hi))
      · exact .step _ sm' _ (by rw [hatx]; exact hxs) (sub hbeh)
      · rw [haty]; exact hyf
      · rw [hatx]; exact hxf
  · rintro c d (hc | rfl) hd
    · rw [old c (lt c hc)] at hd
      exact hK (hi.sup c d hc hd)
    · rw [haty, hys] at hd
      cases hd
      exact hK hsc
  · have ne : ∀ c m, G c → (u.at c).cls = some m → m ≠ u.classes.length := fun c m hc hm => by
      obtain ⟨k, hk, _⟩ := Kn.cls hi (.inr ⟨c, hc, hm⟩)
      exact Nat.ne_of_lt (U.lt_of_cls hk)
    rintro c d m (hc | rfl) (hd | rfl) h1 h2
    · rw [old c (lt c hc)] at h1; rw [old d (lt d hd)] at h2
      exact hi.inj c d m hc hd h1 h2
    · rw [old c (lt c hc)] at h1; rw [haty, hy] at h2
      cases h2
      exact absurd rfl (ne c _ hc h1)
    · rw [haty, hy] at h1; rw [old d (lt d hd)] at h2
      cases h1
      exact absurd rfl (ne d _ hd h2)
    · rfl
  · intro d m hd
    rcases Nat.lt_or_ge d u.classes.length with h | h
    · rw [old d h] at hd; exact (hi.inst d m hd).imp id .inl
    · have hl := U.lt_of_cls hd
      simp only [List.length_append, List.length_cons, List.length_nil] at hl
      rcases (show d = u.classes.length ∨ d = u.classes.length + 1 from
        (Nat.eq_or_lt_of_le h).elim (fun e => .inl e.symm) fun e => .inr (Nat.le_antisymm (Nat.le_of_lt_succ hl) e)) with rfl | rfl
      · rw [hatx, hx] at hd
        exact .inl (Option.some.inj hd).symm
      · exact .inr (.inr rfl)
  · rw [old _ (lt _ hi.obj.1)]; exact ⟨.inl hi.obj.1, hi.obj.2⟩
  · rw [old _ (lt _ hi.met.1)]; exact ⟨.inl hi.met.1, hi.met.2.1, sub hi.met.2.2⟩
  · intro n c hc
    exact hK (hi.glob n c hc)

/-! ## Computations -/

/-- From a state with the invariant, `m` leads to such a state, also if it raises; and its answer is as `Q` says. -/
def Ok {α : Type} (s : Sys) (u : U) (G : Cid → Prop) (m : M α) (Q : α → U → (Cid → Prop) → Prop) : Prop :=
  ∃ G', Step s u G (m u).2 G' ∧ ∀ a, (m u).1 = .ok a → Q a (m u).2 G'

section
variable {α β : Type} {s : Sys} {u : U} {G : Cid → Prop}

theorem Ok.bind {m : M α} {k : α → M β} {Q : α → U → (Cid → Prop) → Prop} {R : β → U → (Cid → Prop) → Prop} (h : Ok s u G m Q)
    (hk : ∀ a u' G', m u = (.ok a, u') → Step s u G u' G' → Q a u' G' → Ok s u' G' (k a) R) : Ok s u G (m >>= k) R := by
  obtain ⟨G', h1, h2⟩ := h
  show ∃ G', _
  have hb : (m >>= k) u = (match m u with | (.ok a, u') => k a u' | (.error e, u') => (.error e, u')) := rfl
  rw [hb]
  rcases hm : m u with ⟨r, u'⟩
  rw [hm] at h1 h2
  cases r with
  | error e => exact ⟨G', h1, fun a h => nomatch h⟩
  | ok a =>
    obtain ⟨G'', h3, h4⟩ := hk a u' G' hm h1 (h2 a rfl)
    exact ⟨G'', h1.trans h3, h4⟩

theorem Ok.pure (hi : Inv s u G) {a : α} {Q : α → U → (Cid → Prop) → Prop} (h : Q a u G) : Ok s u G (Pure.pure a) Q :=
  ⟨G, .refl hi, fun b hb => by cases hb; exact h⟩

theorem Ok.raise (hi : Inv s u G) {e : Err} {Q : α → U → (Cid → Prop) → Prop} : Ok s u G (raise e) Q :=
  ⟨G, .refl hi, fun b hb => nomatch hb⟩

theorem Ok.get (hi : Inv s u G) {Q : U → U → (Cid → Prop) → Prop} (h : Q u u G) : Ok s u G get Q :=
  ⟨G, .refl hi, fun b hb => by cases hb; exact h⟩

theorem Ok.mono {m : M α} {Q R : α → U → (Cid → Prop) → Prop} (h : Ok s u G m Q) (hq : ∀ a u' G', Step s u G u' G' → Q a u' G' → R a u' G') : Ok s u G m R := by
  obtain ⟨G', h1, h2⟩ := h
  exact ⟨G', h1, fun a ha => hq a _ _ h1 (h2 a ha)⟩

theorem Ok.upd (hi : Inv s u G) {c : Cid} {f : Cls → Cls} (h1 : ∀ x, (f x).cls = x.cls) (h2 : ∀ x, (f x).sup = x.sup) (h3 : ∀ x, (f x).name = x.name)
    (h4 : ∀ x, x.fields.isSome = true → (f x).fields.isSome = true) : Ok s u G (modify (·.upd c f)) fun _ _ _ => True :=
  ⟨G, hi.inPlace (.upd u c f h1 h2 h3 h4), fun _ _ => trivial⟩

theorem Ok.classOf (hi : Inv s u G) (c : Cid) : Ok s u G (classOf c) fun m u' G' => u' = u ∧ G' = G ∧ (u.at c).cls = some m := by
  refine (Ok.get hi (Q := fun a u' G' => a = u ∧ u' = u ∧ G' = G) ⟨rfl, rfl, rfl⟩).bind ?_
  rintro a u' G' _ hs ⟨rfl, rfl, rfl⟩
  cases h : (U.at _ c).cls with
  | some m => exact Ok.pure hs.inv ⟨rfl, rfl, rfl⟩
  | none => exact Ok.raise hs.inv

theorem Ok.fieldsOf (hi : Inv s u G) (c : Cid) : Ok s u G (fieldsOf c) fun fs u' G' => u' = u ∧ G' = G ∧ (u.at c).fields = some fs := by
  refine (Ok.get hi (Q := fun a u' G' => a = u ∧ u' = u ∧ G' = G) ⟨rfl, rfl, rfl⟩).bind ?_
  rintro a u' G' _ hs ⟨rfl, rfl, rfl⟩
  cases h : (U.at _ c).fields with
  | some m => exact Ok.pure hs.inv ⟨rfl, rfl, rfl⟩
  | none => exact Ok.raise hs.inv

theorem Ok.setFields (hi : Inv s u G) (c : Cid) (fs : List Name) : Ok s u G (setFields c fs) fun _ _ _ => True :=
  .upd hi (fun _ => rfl) (fun _ => rfl) (fun _ => rfl) fun _ _ => rfl

theorem Ok.addPrimitive (hi : Inv s u G) (c : Cid) (sel : Name) : Ok s u G (addPrimitive c sel) fun _ _ _ => True :=
  .upd hi (fun _ => rfl) (fun _ => rfl) (fun _ => rfl) fun _ h => h

theorem Ok.setInvokables (hi : Inv s u G) (c : Cid) (v : List (Name × Kind)) (p : Bool) : Ok s u G (setInvokables c v p) fun _ _ _ => True := by
  refine Ok.bind (Q := fun _ _ _ => True) (.upd hi (fun _ => rfl) (fun _ => rfl) (fun _ => rfl) fun _ h => h) fun _ u' G' _ hs _ => ?_
  split
  · refine (Ok.get hs.inv (Q := fun _ _ _ => True) trivial).bind fun a u2 G2 _ hs2 _ => ?_
    split
    · exact Ok.pure hs2.inv trivial
    · exact Ok.raise hs2.inv
  · exact .upd hs.inv (fun _ => rfl) (fun _ => rfl) (fun _ => rfl) fun _ h => h

theorem Ok.forAll {γ : Type} {f : γ → M Unit} (hf : ∀ x u G, Inv s u G → Ok s u G (f x) fun _ _ _ => True) (hi : Inv s u G) (xs : List γ) : Ok s u G (forAll f xs) fun _ _ _ => True := by
  induction xs generalizing u G with
  | nil => exact Ok.pure hi trivial
  | cons x xs ih => exact (hf x u G hi).bind fun _ u' G' _ hs _ => ih hs.inv

theorem Ok.loadPrims (hi : Inv s u G) (known : Name → Option (List Name × List Name)) (c : Cid) : Ok s u G (loadPrims known c) fun _ _ _ => True := by
  refine (Ok.get hi (Q := fun _ _ _ => True) trivial).bind fun a u2 G2 _ hs2 _ => ?_
  split
  · exact Ok.raise hs2.inv
  · split
    · exact Ok.pure hs2.inv trivial
    · refine (Ok.forAll (fun x u G hi => Ok.addPrimitive hi _ x) hs2.inv _).bind fun _ u3 G3 _ hs3 _ => ?_
      exact Ok.forAll (fun x u G hi => (Ok.classOf hi c).bind fun m u' G' _ hs _ => Ok.addPrimitive hs.inv _ _) hs3.inv _

theorem Ok.setGlobal (hi : Inv s u G) (n : Name) (v : Glob) (hv : ∀ c, v = .cls c → Kn u G c) : Ok s u G (setGlobal n v) fun _ _ _ => True :=
  ⟨G, hi.global n v hv, fun _ _ => trivial⟩

theorem mem_of_lookup' {n : Name} {v : Glob} {l : List (Name × Glob)} (h : List.lookup n l = some v) : (n, v) ∈ l := by
  induction l with
  | nil => cases h
  | cons x xs ih =>
    simp only [List.lookup] at h
    split at h
    · rename_i he
      cases h
      rw [beq_iff_eq] at he
      subst he
      exact .head _
    · exact .tail _ (ih h)

/-- What loading answers is known. -/
def Answers (v : Glob) (u : U) (G : Cid → Prop) : Prop := ∀ c, v = .cls c → Kn u G c

theorem Ok.getGlobal (hi : Inv s u G) (n : Name) : Ok s u G (getGlobal n) fun v u' G' => Answers v u' G' ∧ v = (List.lookup n u.globals).getD .none := by
  refine (Ok.get hi (Q := fun a u' G' => a = u ∧ u' = u ∧ G' = G) ⟨rfl, rfl, rfl⟩).bind ?_
  rintro a u' G' _ hs ⟨rfl, rfl, rfl⟩
  refine Ok.pure hs.inv ⟨fun c hc => ?_, rfl⟩
  cases h : List.lookup n (U.globals _) with
  | none => rw [h] at hc; cases hc
  | some v =>
    rw [h] at hc
    cases hc
    exact hs.inv.glob n c (mem_of_lookup' h)

theorem Ok.classdef (hi : Inv s u G) {load : Name → M Glob} (hl : ∀ n u G, Inv s u G → Ok s u G (load n) Answers) (t : Text) :
    Ok s u G (classdef load t) fun g u' G' => ∀ c, g.sup = some c → Kn u' G' c := by
  unfold Boot.classdef
  split
  · exact Ok.raise hi
  · rename_i name sup _
    refine Ok.bind (Q := fun a u' G' => ∀ c, a.1 = some c → Kn u' G' c) ?_ ?_
    · split
      · exact Ok.pure hi fun c h => nomatch h
      · refine (hl _ u G hi).bind fun v u1 G1 _ hs1 hv => ?_
        cases v with
        | none => exact Ok.raise hs1.inv
        | obj o => exact Ok.raise hs1.inv
        | cls sc =>
          refine (Ok.fieldsOf hs1.inv sc).bind fun fs u2 G2 _ hs2 _ => (Ok.classOf hs2.inv sc).bind fun m u3 G3 _ hs3 _ => (Ok.fieldsOf hs3.inv m).bind fun cfs u4 G4 _ hs4 _ => ?_
          exact Ok.pure hs4.inv fun c hc => by cases hc; exact (((hv sc rfl).step hs2).step hs3).step hs4
    · rintro ⟨sc, fs, cfs⟩ u1 G1 _ hs1 hk
      dsimp only
      split
      · exact Ok.raise hs1.inv
      · exact Ok.pure hs1.inv hk

/-- `assemble` in one piece. -/
def assembled («meta» : Cid) (g : Cgc) (u : U) : Except Err Cid × U :=
  match (u.at «meta»).fields with
  | none => (.error .attribute, u)
  | some _ =>
    let tab (c : Cid) (d : Side) : Option (List Entry) := if (dict d.meths).isEmpty then none else some ((dict d.meths).map fun e => ⟨e.1, e.2, c⟩)
    let x : Cls := { cls := some «meta», name := some (className g.name), fields := some g.cls.fields, table := tab u.classes.length g.cls, prims := g.cls.prims, size := u.width «meta» }
    match g.sup with
    | none => (.error .attribute, ⟨u.classes ++ [x], u.globals⟩)
    | some s =>
      match (U.at ⟨u.classes ++ [x], u.globals⟩ s).cls with
      | none => (.error .assertion, ⟨u.classes ++ [x], u.globals⟩)
      | some sm =>
        (.ok (u.classes.length + 1), ⟨u.classes ++ [{ x with sup := some sm },
          { cls := some u.classes.length, sup := some s, name := some g.name, fields := some g.inst.fields, table := tab (u.classes.length + 1) g.inst, prims := g.inst.prims, size := g.cls.fields.length }], u.globals⟩)

theorem modify_last {α : Type} (xs : List α) (x : α) (f : α → α) : (xs ++ [x]).modify xs.length f = xs ++ [f x] := by
  induction xs with
  | nil => rfl
  | cons y ys ih => simpa using ih

theorem upd_last (xs : List Cls) (x : Cls) (gl : List (Name × Glob)) (f : Cls → Cls) : U.upd ⟨xs ++ [x], gl⟩ xs.length f = ⟨xs ++ [f x], gl⟩ := by
  unfold U.upd; rw [modify_last]

theorem at_last (xs : List Cls) (x : Cls) (gl : List (Name × Glob)) : U.at ⟨xs ++ [x], gl⟩ xs.length = x := by unfold U.at; simp

theorem run_bind {m : M α} {k : α → M β} {u u' : U} {a : α} (h : m u = (.ok a, u')) : (m >>= k) u = k a u' := by
  show (match m u with | (.ok a, u') => k a u' | (.error e, u') => (.error e, u')) = _
  rw [h]

theorem run_bind_error {m : M α} {k : α → M β} {u u' : U} {e : Err} (h : m u = (.error e, u')) : (m >>= k) u = (.error e, u') := by
  show (match m u with | (.ok a, u') => k a u' | (.error e, u') => (.error e, u')) = _
  rw [h]

theorem setInvokables_last (xs : List Cls) (x : Cls) (gl : List (Name × Glob)) (v : List (Name × Kind)) (p : Bool) (hx : x.table = none) :
    setInvokables xs.length v p ⟨xs ++ [x], gl⟩ = (.ok (), ⟨xs ++ [{ x with prims := p, table := if v.isEmpty then none else some (v.map fun e => ⟨e.1, e.2, xs.length⟩) }], gl⟩) := by
  unfold setInvokables
  rw [run_bind (u' := ⟨xs ++ [{ x with prims := p }], gl⟩) (a := ()) (by unfold modify; dsimp only; rw [upd_last])]
  split
  · rw [run_bind (m := get) rfl, at_last]
    obtain ⟨c, su, n, f, t, pr, z⟩ := x
    cases hx
    rfl
  · unfold modify; dsimp only; rw [upd_last]

theorem setFields_last (xs : List Cls) (x : Cls) (gl : List (Name × Glob)) (v : List Name) : setFields xs.length v ⟨xs ++ [x], gl⟩ = (.ok (), ⟨xs ++ [{ x with fields := some v }], gl⟩) := by
  unfold setFields modify; dsimp only; rw [upd_last]

theorem setName_last (xs : List Cls) (x : Cls) (gl : List (Name × Glob)) (v : Name) : setName xs.length v ⟨xs ++ [x], gl⟩ = (.ok (), ⟨xs ++ [{ x with name := some v }], gl⟩) := by
  unfold setName modify; dsimp only; rw [upd_last]

theorem setSuper_last (xs : List Cls) (x : Cls) (gl : List (Name × Glob)) (v : Cid) : setSuper xs.length v ⟨xs ++ [x], gl⟩ = (.ok (), ⟨xs ++ [{ x with sup := some v }], gl⟩) := by
  unfold setSuper modify; dsimp only; rw [upd_last]

theorem classOf_eq (c : Cid) (u : U) : classOf c u = (match (u.at c).cls with | some m => (.ok m, u) | none => (.error .assertion, u)) := by
  unfold classOf
  rw [run_bind (m := get) rfl]
  cases (u.at c).cls <;> rfl

theorem fieldsOf_eq (c : Cid) (u : U) : fieldsOf c u = (match (u.at c).fields with | some m => (.ok m, u) | none => (.error .attribute, u)) := by
  unfold fieldsOf
  rw [run_bind (m := get) rfl]
  cases (u.at c).fields <;> rfl

theorem assemble_eq («meta» : Cid) (g : Cgc) (u : U) : assemble «meta» g u = assembled «meta» g u := by
  obtain ⟨cl, gl⟩ := u
  unfold assemble assembled
  cases hf : (U.at ⟨cl, gl⟩ «meta»).fields with
  | none =>
    rw [run_bind_error (e := .attribute) (u' := ⟨cl, gl⟩) (by rw [fieldsOf_eq, hf])]
  | some fs =>
    rw [run_bind (a := fs) (u' := ⟨cl, gl⟩) (by rw [fieldsOf_eq, hf])]
    rw [run_bind (a := cl.length) (u' := ⟨cl ++ [{ cls := some «meta», size := U.width ⟨cl, gl⟩ «meta» }], gl⟩) (by rfl)]
    rw [run_bind (setFields_last _ _ _ _), run_bind (setInvokables_last _ _ _ _ _ rfl), run_bind (setName_last _ _ _ _)]
    dsimp only
    cases g.sup with
    | none => rfl
    | some s =>
      dsimp only
      generalize hc : (U.at _ s).cls = o
      cases o with
      | none =>
        rw [run_bind_error (e := .assertion) (by rw [classOf_eq, hc])]
      | some sm =>
        rw [run_bind (a := sm) (by rw [classOf_eq, hc])]
        rw [run_bind (setSuper_last _ _ _ _)]
        rw [run_bind (m := newClass _) rfl]
        have len : ∀ (x : Cls), (cl ++ [x]).length = cl.length + 1 := fun x => by simp
        have wid : ∀ (x : Cls), U.width ⟨cl ++ [x], gl⟩ cl.length = (x.fields.getD []).length := fun x => by unfold U.width; rw [at_last]
        rw [run_bind (setName_last _ _ _ _), run_bind (setSuper_last _ _ _ _), run_bind (setFields_last _ _ _ _), run_bind (setInvokables_last _ _ _ _ _ rfl)]
        simp only [len, wid, List.append_assoc, List.cons_append, List.nil_append]
        rfl

theorem Ok.assemble (hi : Inv s u G) (g : Cgc) (hg : ∀ c, g.sup = some c → Kn u G c) : Ok s u G (assemble s.meta g) fun c u' G' => G' c := by
  unfold Ok
  rw [assemble_eq]
  unfold assembled
  cases hf : (u.at s.meta).fields with
  | none => exact ⟨G, .refl hi, fun a h => nomatch h⟩
  | some fs =>
    cases hs : g.sup with
    | none => exact ⟨G, hi.junk _ rfl, fun a h => nomatch h⟩
    | some sc =>
      have hk := hg sc hs
      obtain ⟨sm, hsm, _⟩ := hk.cls hi
      dsimp only
      rw [U.at_app u _ u.globals sc (U.lt_of_cls hsm), hsm]
      exact ⟨_, hi.add _ _ sc sm g.name hk hsm rfl rfl rfl rfl rfl rfl rfl rfl, fun a h => by cases h; exact .inr rfl⟩

theorem Ok.assembleSystem (hi : Inv s u G) (c : Cid) (g : Cgc) : Ok s u G (assembleSystem c g) fun _ _ _ => True :=
  (Ok.setInvokables hi _ _ _).bind fun _ u1 G1 _ h1 _ => (Ok.setFields h1.inv _ _).bind fun _ u2 G2 _ h2 _ => (Ok.classOf h2.inv _).bind fun m u3 G3 _ h3 _ =>
    (Ok.setInvokables h3.inv _ _ _).bind fun _ u4 G4 _ h4 _ => Ok.setFields h4.inv _ _

theorem Ok.compile (hi : Inv s u G) {load : Name → M Glob} (hl : ∀ n u G, Inv s u G → Ok s u G (load n) Answers) (t : Text) (sys : Option Cid) (hsys : ∀ c, sys = some c → G c) :
    Ok s u G (compile s.meta load t sys) fun c _ G' => G' c := by
  refine (Ok.classdef hi hl t).bind fun g u1 G1 _ h1 hg => ?_
  split
  · exact Ok.assemble h1.inv g hg
  · rename_i c
    exact (Ok.assembleSystem h1.inv c g).bind fun _ u2 G2 _ h2 _ => Ok.pure h2.inv (h2.mono c (h1.mono c (hsys c rfl)))

theorem Ok.loadFile (hi : Inv s u G) (env : Env) {load : Name → M Glob} (hl : ∀ n u G, Inv s u G → Ok s u G (load n) Answers) (n : Name) (sys : Option Cid) (hsys : ∀ c, sys = some c → G c)
    (ps : List Nat) : Ok s u G (loadFile s.meta env load n sys ps) fun r _ G' => ∀ c, r = some c → G' c := by
  induction ps with
  | nil => exact Ok.pure hi fun c h => nomatch h
  | cons p ps ih =>
    unfold Boot.loadFile
    split
    · exact ih
    · refine (Ok.compile hi hl _ sys hsys).bind fun c u1 G1 _ h1 hc => (Ok.get h1.inv (Q := fun a u' G' => G' = G1) rfl).bind fun a u2 G2 _ h2 he => ?_
      subst he
      split
      · exact Ok.pure h2.inv fun d hd => by cases hd; exact hc
      · refine Ok.bind (Q := fun _ _ G' => G' c) ?_ fun _ u3 G3 _ h3 hc => Ok.pure h3.inv fun d hd => by cases hd; exact hc
        unfold exit_
        split
        · exact Ok.pure h2.inv hc
        · exact Ok.raise h2.inv

theorem Ok.loadClass (env : Env) (k : Nat) : ∀ (n : Name) (u : U) (G : Cid → Prop), Inv s u G → Ok s u G (loadClass s.meta env k n) Answers := by
  induction k with
  | zero => exact fun n u G hi => Ok.raise hi
  | succ k ih =>
    intro n u G hi
    unfold Boot.loadClass
    refine (Ok.getGlobal hi n).bind fun v u1 G1 _ h1 hv => ?_
    split
    · refine (Ok.loadFile h1.inv env ih n none (fun c h => nomatch h) _).bind fun r u2 G2 _ h2 hr => ?_
      cases r with
      | none => exact (Ok.setGlobal h2.inv n .none fun c h => nomatch h).bind fun _ u3 G3 _ h3 _ => Ok.pure h3.inv fun c h => nomatch h
      | some c =>
        dsimp only
        have fin : ∀ u3 G3, Step s u2 G2 u3 G3 → Ok s u3 G3 (do Boot.setGlobal n (.cls c); Pure.pure (.cls c)) Answers := fun u3 G3 h3 =>
          (Ok.setGlobal h3.inv n (.cls c) fun d hd => by cases hd; exact .inl (h3.mono c (hr c rfl))).bind fun _ u4 G4 _ h4 _ =>
            Ok.pure h4.inv fun d hd => by cases hd; exact .inl (h4.mono c (h3.mono c (hr c rfl)))
        refine Ok.bind (Q := fun _ _ _ => True) ?_ fun b u3 G3 _ h3 _ => ?_
        · exact (Ok.get h2.inv (Q := fun _ _ _ => True) trivial).bind fun a u' G' _ h' _ => Ok.pure h'.inv trivial
        · split
          · exact (Ok.loadPrims h3.inv _ _).bind fun _ u4 G4 _ h4 _ => fin u4 G4 (h3.trans h4)
          · exact fin u3 G3 h3
    · exact Ok.pure h1.inv hv.1

theorem Ok.loadSystem (hi : Inv s u G) (env : Env) (k : Nat) (c : Cid) (hc : G c) : Ok s u G (loadSystem s.meta env k c) fun _ _ _ => True := by
  refine (Ok.get hi (Q := fun a u' G' => G' = G) rfl).bind fun a u1 G1 _ h1 he => ?_
  subst he
  split
  · exact Ok.raise h1.inv
  · refine (Ok.loadFile h1.inv env (Ok.loadClass env k) _ (some c) (fun d hd => by cases hd; exact hc) _).bind fun r u2 G2 _ h2 hr => ?_
    split
    · unfold exit_
      split
      · exact Ok.pure h2.inv trivial
      · exact Ok.raise h2.inv
    · exact Ok.loadPrims h2.inv _ _

theorem Ok.makeBlock (hi : Inv s u G) (env : Env) (k i : Nat) : Ok s u G (makeBlock s.meta env k i) fun _ _ _ => True := by
  refine (Ok.loadFile hi env (Ok.loadClass env k) _ none (fun d hd => nomatch hd) _).bind fun r u2 G2 _ h2 hr => ?_
  cases r with
  | none => exact Ok.raise h2.inv
  | some c =>
    exact (Ok.addPrimitive h2.inv c _).bind fun _ u3 G3 _ h3 _ => Ok.setGlobal h3.inv _ _ fun d hd => by cases hd; exact .inl (h3.mono c (hr c rfl))

theorem Ok.must (hi : Inv s u G) (v : Glob) (hv : Answers v u G) : Ok s u G (must v) fun c u' G' => Kn u' G' c := by
  cases v with
  | cls c => exact Ok.pure hi (hv c rfl)
  | obj n => exact Ok.raise hi
  | none => exact Ok.raise hi

/-! ## The start -/

/-- The numbers of the system classes. -/
def sys0 : Sys := ⟨1, 3, 5, 7, 9, 11, 13, 15, 17, 19, 21⟩

/-- The state after the system classes were made. -/
def u0 : U := (initClasses ⟨[], []⟩).2

theorem initClasses_eq : initClasses ⟨[], []⟩ = (.ok sys0, u0) := by
  rfl

/-- The system classes are ordinary classes. -/
def G0 (c : Cid) : Prop := c ∈ [1, 3, 5, 7, 9, 11, 13, 15, 17, 19, 21]

theorem inh0_object (c : Cid) (h : G0 c) : Inherits u0 c 3 := by
  have h3 : ∀ c, (u0.at c).sup = some 3 → Inherits u0 c 3 := fun c h => .step _ _ _ h (.refl _)
  simp only [G0, List.mem_cons, List.not_mem_nil, or_false] at h
  rcases h with rfl | rfl | rfl | rfl | rfl | rfl | rfl | rfl | rfl | rfl | rfl
  · exact .step _ 7 _ (by decide +kernel) (h3 _ (by decide +kernel))
  · exact .refl _
  · exact h3 _ (by decide +kernel)
  · exact h3 _ (by decide +kernel)
  · exact h3 _ (by decide +kernel)
  · exact .step _ 19 _ (by decide +kernel) (h3 _ (by decide +kernel))
  · exact h3 _ (by decide +kernel)
  · exact h3 _ (by decide +kernel)
  · exact h3 _ (by decide +kernel)
  · exact h3 _ (by decide +kernel)
  · exact h3 _ (by decide +kernel)

theorem inh0_class (c : Cid) (h : G0 c) : Inherits u0 (c - 1) 7 := by
  have h2 : Inherits u0 2 7 := .step _ 7 _ (by decide +kernel) (.refl _)
  have h3 : ∀ c, (u0.at c).sup = some 2 → Inherits u0 c 7 := fun c h => .step _ _ _ h h2
  simp only [G0, List.mem_cons, List.not_mem_nil, or_false] at h
  rcases h with rfl | rfl | rfl | rfl | rfl | rfl | rfl | rfl | rfl | rfl | rfl
  · exact .step _ 6 _ (by decide +kernel) (h3 _ (by decide +kernel))
  · exact h2
  · exact h3 _ (by decide +kernel)
  · exact h3 _ (by decide +kernel)
  · exact h3 _ (by decide +kernel)
  · exact .step _ 18 _ (by decide +kernel) (h3 _ (by decide +kernel))
  · exact h3 _ (by decide +kernel)
  · exact h3 _ (by decide +kernel)
  · exact h3 _ (by decide +kernel)
  · exact h3 _ (by decide +kernel)
  · exact h3 _ (by decide +kernel)

theorem G0_all {P : Cid → Prop} (h : ∀ c ∈ [1, 3, 5, 7, 9, 11, 13, 15, 17, 19, 21], P c) (c : Cid) (hc : G0 c) : P c := h c hc

theorem inv0 : Inv sys0 u0 G0 := by
  have cls0 : ∀ c, G0 c → (u0.at c).cls = some (c - 1) ∧ (u0.at (c - 1)).cls = some 1 ∧ c - 1 ≠ 1 ∧ (u0.at c).fields.isSome = true ∧ (u0.at (c - 1)).fields.isSome = true ∧
      (u0.at (c - 1)).name = (u0.at c).name.map className ∧ (u0.at c).name.isSome = true := G0_all (by decide +kernel)
  have sup0 : ∀ c, G0 c → (u0.at c).sup = none → c = 3 := G0_all (by decide +kernel)
  have sup1 : ∀ c, G0 c → ∀ d ∈ (u0.at c).sup, (d ∈ [1, 3, 5, 7, 9, 11, 13, 15, 17, 19, 21]) ∧ (u0.at (c - 1)).sup = (u0.at d).cls := G0_all (by decide +kernel)
  refine ⟨fun c hc => ?_, fun c d hc hd => ?_, fun c d m hc hd h1 h2 => ?_, fun d m hd => ?_, ?_, ?_, ?_, ?_⟩
  · obtain ⟨h1, h2, h3, h4, h5, h6, h7⟩ := cls0 c hc
    refine ⟨c - 1, h3, ⟨h1, h2, ?_, ?_, ?_, inh0_object c hc, inh0_class c hc⟩, h4, h5⟩
    · cases hn : (u0.at c).name with
      | none => rw [hn] at h7; cases h7
      | some n => exact ⟨n, rfl, by rw [h6, hn]; rfl⟩
    · intro h
      have := sup0 c hc h
      subst this
      exact ⟨rfl, by decide +kernel⟩
    · intro d hd
      exact (sup1 c hc d hd).2
  · exact .inl (sup1 c hc d hd).1
  · have e1 := (cls0 c hc).1.symm.trans h1
    have e2 := (cls0 d hd).1.symm.trans h2
    have hp : ∀ c, G0 c → 1 ≤ c := G0_all (by decide)
    cases e1
    have e3 := Option.some.inj e2
    exact (Nat.sub_one_cancel (hp d hd) (hp c hc) e3).symm
  · have hl := U.lt_of_cls hd
    have hlen : u0.classes.length = 22 := by decide +kernel
    rw [hlen] at hl
    have : ∀ d ∈ List.range 22, (u0.at d).cls = some 1 ∨ d ∈ [1, 3, 5, 7, 9, 11, 13, 15, 17, 19, 21] := by decide +kernel
    rcases this d (List.mem_range.mpr hl) with h | h
    · exact .inl (Option.some.inj (hd.symm.trans h))
    · exact .inr h
  · exact ⟨by unfold G0; decide, by decide +kernel, by decide +kernel⟩
  · unfold G0; decide
  · exact ⟨by unfold G0; decide, by decide +kernel, .step _ 7 _ (by decide +kernel) (.refl _)⟩
  · intro n c h
    have : ∀ e ∈ u0.globals, ∀ c, e.2 = .cls c → c ∈ [1, 3, 5, 7, 9, 11, 13, 15, 17, 19, 21] := by
      have h2 : ∀ e ∈ u0.globals, ∃ c ∈ [1, 3, 5, 7, 9, 11, 13, 15, 17, 19, 21], e.2 = .cls c := by decide +kernel
      intro e he c hc
      obtain ⟨c', h3, h4⟩ := h2 e he
      rw [h4] at hc; cases hc; exact h3
    exact .inl (this _ h c rfl)

theorem Ok.forAllG {f : Cid → M Unit} (hf : ∀ c u G, Inv s u G → G c → Ok s u G (f c) fun _ _ _ => True) (xs : List Cid) : ∀ (u : U) (G : Cid → Prop), Inv s u G → (∀ c ∈ xs, G c) →
    Ok s u G (Boot.forAll f xs) fun _ _ _ => True := by
  induction xs with
  | nil => exact fun u G hi _ => Ok.pure hi trivial
  | cons x xs ih => exact fun u G hi h => (hf x u G hi (h x (.head _))).bind fun _ u' G' _ hs _ => ih u' G' hs.inv fun c hc => hs.mono c (h c (.tail _ hc))

theorem Ok.bootRest (hi : Inv s u G) (env : Env) (k : Nat) (hG : ∀ c ∈ [s.object, s.class_, s.meta, s.nil, s.array, s.method, s.string, s.symbol, s.integer, s.primitive, s.double], G c) :
    Ok s u G (bootRest env k s) fun r _ _ => r = s := by
  refine (Ok.forAllG (fun c u G hi hc => Ok.loadSystem hi env k c hc) _ u G hi hG).bind fun _ u1 G1 _ h1 _ => ?_
  refine (Ok.loadClass env k _ u1 G1 h1.inv).bind fun block u2 G2 _ h2 hb => ?_
  refine (Ok.loadClass env k _ u2 G2 h2.inv).bind fun t u3 G3 _ h3 ht => (Ok.must h3.inv t ht).bind fun t u4 G4 _ h4 ht => (Ok.loadPrims h4.inv _ t).bind fun _ u5 G5 _ h5 _ => ?_
  refine (Ok.loadClass env k _ u5 G5 h5.inv).bind fun f u6 G6 _ h6 hf => (Ok.must h6.inv f hf).bind fun f u7 G7 _ h7 hf => (Ok.loadPrims h7.inv _ f).bind fun _ u8 G8 _ h8 _ => ?_
  refine (Ok.loadClass env k _ u8 G8 h8.inv).bind fun y u9 G9 _ h9 hy => (Ok.must h9.inv y hy).bind fun y u10 G10 _ h10 hy => ?_
  refine (Ok.setGlobal h10.inv _ _ fun c h => Glob.noConfusion h).bind fun _ u11 G11 _ h11 _ => ?_
  refine (Ok.setGlobal h11.inv _ _ fun c h => Glob.noConfusion h).bind fun _ u12 G12 _ h12 _ => ?_
  refine (Ok.setGlobal h12.inv _ _ fun c h => Glob.noConfusion h).bind fun _ u13 G13 _ h13 _ => ?_
  refine (Ok.setGlobal h13.inv _ _ fun c h => Glob.noConfusion h).bind fun _ u14 G14 _ h14 _ => ?_
  have s10 := ((h11.trans h12).trans h13).trans h14
  refine (Ok.setGlobal h14.inv _ _ fun c h => by cases h; exact hy.step s10).bind fun _ u15 G15 _ h15 _ => ?_
  have s8 := (((h9.trans h10).trans s10).trans h15)
  have s2 := (((((h3.trans h4).trans h5).trans h6).trans h7).trans h8).trans s8
  refine (Ok.setGlobal h15.inv _ _ fun c h => (hb c h).step s2).bind fun _ u16 G16 _ h16 _ => ?_
  have s0 := ((h1.trans h2).trans s2).trans h16
  refine (Ok.setGlobal h16.inv _ _ fun c h => by cases h; exact .inl (s0.mono _ (hG _ (by simp)))).bind fun _ u17 G17 _ h17 _ => ?_
  have st := (((h5.trans h6).trans h7).trans h8).trans ((s8.trans h16).trans h17)
  refine (Ok.setGlobal h17.inv _ _ fun c h => by cases h; exact ht.step st).bind fun _ u18 G18 _ h18 _ => ?_
  have sf := (h8.trans ((s8.trans h16).trans h17)).trans h18
  refine (Ok.setGlobal h18.inv _ _ fun c h => by cases h; exact hf.step sf).bind fun _ u19 G19 _ h19 _ => ?_
  refine (Ok.forAll (fun i u G hi => Ok.makeBlock hi env k i) h19.inv _).bind fun _ u20 G20 _ h20 _ => ?_
  exact Ok.pure h20.inv rfl

theorem boot_inv {env : Env} {k : Nat} {s : Sys} {u : U} (h : boot env k ⟨[], []⟩ = (.ok s, u)) : s = sys0 ∧ ∃ G, Step sys0 u0 G0 u G := by
  unfold boot at h
  rw [run_bind initClasses_eq] at h
  obtain ⟨G, h1, h2⟩ := Ok.bootRest inv0 env k (by decide : ∀ c ∈ [sys0.object, sys0.class_, sys0.meta, sys0.nil, sys0.array, sys0.method, sys0.string, sys0.symbol, sys0.integer,
    sys0.primitive, sys0.double], c ∈ [1, 3, 5, 7, 9, 11, 13, 15, 17, 19, 21])
  rw [h] at h1 h2
  exact ⟨h2 s rfl, G, h1⟩

/-- Histories keep the invariant. -/
theorem hist_inv {env : Env} {k : Nat} {s : Sys} {u : U} {L : List Cid} (h : Hist env k s u L) : ∃ G, Inv s u G ∧ ∀ c ∈ L, Kn u G c := by
  induction h with
  | boot u h =>
    obtain ⟨rfl, G, h1⟩ := boot_inv h
    exact ⟨G, h1.inv, fun c hc => nomatch hc⟩
  | load u L n v u' _ hl ih =>
    obtain ⟨G, hi, hL⟩ := ih
    obtain ⟨G', hs, ha⟩ := Ok.loadClass env k n u G hi
    rw [hl] at hs ha
    refine ⟨G', hs.inv, fun c hc => ?_⟩
    cases v with
    | cls d =>
      rcases List.mem_cons.mp hc with rfl | hc
      · exact ha _ rfl _ rfl
      · exact (hL c hc).step hs
    | obj _ => exact (hL c hc).step hs
    | none => exact (hL c hc).step hs
  | loadFails u L n e u' _ hl ih =>
    obtain ⟨G, hi, hL⟩ := ih
    obtain ⟨G', hs, ha⟩ := Ok.loadClass env k n u G hi
    rw [hl] at hs
    exact ⟨G', hs.inv, fun c hc => (hL c hc).step hs⟩
  | shell u L t c u' _ hl ih =>
    obtain ⟨G, hi, hL⟩ := ih
    obtain ⟨G', hs, ha⟩ := Ok.compile hi (Ok.loadClass env k) t none fun c h => nomatch h
    rw [hl] at hs ha
    refine ⟨G', hs.inv, fun d hd => ?_⟩
    rcases List.mem_cons.mp hd with rfl | hd
    · exact .inl (ha _ rfl)
    · exact (hL d hd).step hs
  | shellFails u L t e u' _ hl ih =>
    obtain ⟨G, hi, hL⟩ := ih
    obtain ⟨G', hs, ha⟩ := Ok.compile hi (Ok.loadClass env k) t none fun c h => nomatch h
    rw [hl] at hs
    exact ⟨G', hs.inv, fun c hc => (hL c hc).step hs⟩
  | put u L n v _ hv ih =>
    obtain ⟨G, hi, hL⟩ := ih
    have hK : ∀ c, Known u L c → Kn u G c := fun c hc => by
      induction hc with
      | answered c h => exact hL c h
      | global n c h => exact hi.glob n c h
      | classOf c m _ h' ih =>
        obtain ⟨m', h1, h2, _⟩ := ih.cls hi
        exact Option.some.inj (h1.symm.trans h') ▸ h2
      | superOf c d _ h' ih => exact ih.sup hi h'
    have hs := hi.global n v fun c hc => hK c (hv c hc)
    exact ⟨G, hs.inv, fun c hc => (hL c hc).step hs⟩

theorem known_kn {s : Sys} {u : U} {L : List Cid} {G : Cid → Prop} (hi : Inv s u G) (hL : ∀ c ∈ L, Kn u G c) {c : Cid} (hc : Known u L c) : Kn u G c := by
  induction hc with
  | answered c h => exact hL c h
  | global n c h => exact hi.glob n c h
  | classOf c m _ h' ih =>
    obtain ⟨m', h1, h2, _⟩ := ih.cls hi
    exact Option.some.inj (h1.symm.trans h') ▸ h2
  | superOf c d _ h' ih => exact ih.sup hi h'
end
end PySOM.Boot

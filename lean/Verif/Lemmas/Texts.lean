import Verif.Spec.Texts
import Verif.Lemmas.ClassFilesChain
import Verif.Lemmas.ReferenceText
/-!
# Texts of class files
-/
set_option autoImplicit false
namespace PySOM.Boot
open PySOM.Parse (ClassText Method)
open PySOM.Lex (Classes)

/-- The last element with a property. -/
theorem find_last {α : Type} {f : α → Bool} {xs : List α} {x : α} (h : xs.reverse.find? f = some x) :
    ∃ j : Nat, xs[j]? = some x ∧ f x = true ∧ ∀ (k : Nat) (y : α), j < k → xs[k]? = some y → f y = false := by
  obtain ⟨hx, as, bs, he, ha⟩ := List.find?_eq_some_iff_append.1 h
  have he' : xs = bs.reverse ++ x :: as.reverse := by
    have := congrArg List.reverse he
    simpa using this
  subst he'
  refine ⟨bs.reverse.length, by rw [List.getElem?_append_right (Nat.le_refl _), Nat.sub_self]; rfl, hx, fun k y hk hy => ?_⟩
  rw [List.getElem?_append_right (Nat.le_of_lt hk)] at hy
  obtain ⟨m, hm⟩ : ∃ m, k - bs.reverse.length = m + 1 := ⟨k - bs.reverse.length - 1, by omega⟩
  rw [hm, List.getElem?_cons_succ] at hy
  have hmem : y ∈ as := List.mem_reverse.1 (List.mem_of_getElem? hy)
  have := ha y hmem
  simpa using this

theorem last_unique {ms : List Method} {sel : Name} {j k : Nat} {m m' : Method} (h : LastAt ms sel j m) (h' : LastAt ms sel k m') : j = k ∧ m = m' := by
  have : j = k := by
    rcases Nat.lt_trichotomy j k with hl | hl | hl
    · exact absurd h'.2.1 (h.2.2 k m' hl h'.1)
    · exact hl
    · exact absurd h.2.1 (h'.2.2 j m hl h.1)
  subst this
  exact ⟨rfl, Option.some.inj (h.1.symm.trans h'.1)⟩

theorem sideOf_get (num : Nat → Nat) (fs : List Name) (ms : List Method) (j : Nat) : (sideOf num fs ms).meths[j]? = ms[j]?.map fun m => (m.sel, m.impl.map fun _ => num j) := by
  unfold sideOf
  simp only [List.getElem?_map, List.getElem?_zipIdx, Option.map_map, Nat.zero_add]
  rfl

/-- What the universe takes for a selector is the last method with it. -/
theorem lastMeth_side {num : Nat → Nat} {fs : List Name} {ms : List Method} {sel : Name} {b : Option Nat} (h : lastMeth (sideOf num fs ms).meths sel = some b) :
    ∃ j m, LastAt ms sel j m ∧ b = m.impl.map fun _ => num j := by
  unfold lastMeth at h
  obtain ⟨x, hx, rfl⟩ := Option.map_eq_some_iff.1 h
  obtain ⟨j, h1, h2, h3⟩ := find_last hx
  rw [sideOf_get] at h1
  obtain ⟨m, hm, rfl⟩ := Option.map_eq_some_iff.1 h1
  refine ⟨j, m, ⟨hm, eq_of_beq h2, fun k m' hk hm' he => ?_⟩, rfl⟩
  have := h3 k _ hk (by rw [sideOf_get, hm']; rfl)
  rw [beq_eq_false_iff_ne] at this
  exact this he

theorem source_text {K : Classes} {texts : Nat → Name → Option (List Char)} {num : Nat → Name → Bool → Nat → Nat} {env : Env} (hr : Reads K texts num env) {n : Name} {x : Text}
    (h : source env n = some x) : ∃ p t, TextOf texts n env.classpath p t ∧ texts p n = some t ∧ env.files p n = some x := by
  have key : ∀ ps : List Nat, ps.findSome? (fun p => env.files p n) = some x → ∃ p t, TextOf texts n ps p t ∧ texts p n = some t ∧ env.files p n = some x := by
    intro ps
    induction ps with
    | nil => exact fun h => nomatch h
    | cons p ps ih =>
      intro h
      rw [List.findSome?_cons] at h
      cases ht : texts p n with
      | none =>
        rw [hr.none p n ht] at h
        obtain ⟨p', t, h1, h2⟩ := ih h
        exact ⟨p', t, .later _ _ _ _ ht h1, h2⟩
      | some t =>
        obtain ⟨x', hx, _⟩ := hr.some p n t ht
        rw [hx] at h
        cases h
        exact ⟨p, t, .here _ _ _ ht, ht, hx⟩
  exact key _ h

/-! ## Fields -/

section
variable {env : Env}

theorem own_above {n m : Name} (ho : (List.lookup n ownClasses).isSome = true) (hs : superOf env n = some m) : (List.lookup m ownClasses).isSome = true := by
  have key : ∀ e ∈ ownClasses, ∀ m, e.2 = some m → (List.lookup m ownClasses).isSome = true := by decide +kernel
  unfold superOf at hs
  cases hl : List.lookup n ownClasses with
  | none => rw [hl] at ho; cases ho
  | some s =>
    rw [hl] at hs
    obtain ⟨l1, l2, he, _⟩ := List.lookup_eq_some_iff.1 hl
    exact key (n, s) (by rw [he]; simp) m hs

theorem Fields.unique {d : Desc} {fs fs' : List Name} (h : Fields env d fs) (h' : Fields env d fs') : fs = fs' := by
  induction h generalizing fs' with
  | own d h =>
    cases h' with
    | own => rfl
    | sub _ n p fs h1 => rw [h1] at h; cases h
  | sub d n p fs h1 hs hp _ ih =>
    cases h' with
    | own _ h => rw [h1] at h; cases h
    | sub _ n' p' fs' h1' hs' hp' h' =>
      cases Option.some.inj (hs.symm.trans hs')
      cases Option.some.inj (hp.symm.trans hp')
      rw [ih h']

theorem Fields.above {d d' : Desc} {fs fs' : List Name} (ha : above env d = some d') (h : Fields env d fs) (h' : Fields env d' fs') : fs' <+: fs := by
  have nil : ∀ {d : Desc} {fs : List Name}, (List.lookup d.name ownClasses).isSome = true → Fields env d fs → fs = [] := fun ho h => h.unique (.own _ ho)
  unfold Boot.above at ha
  cases hs : superOf env d.name with
  | none =>
    rw [hs] at ha
    dsimp only at ha
    split at ha
    · cases ha
      rw [nil (by decide +kernel) h']
      exact List.nil_prefix
    · cases ha
  | some n =>
    rw [hs] at ha
    cases ha
    cases h with
    | own _ ho =>
      rw [nil (own_above ho hs) h']
      exact List.nil_prefix
    | sub _ n' p fs1 h1 hs' hp h2 =>
      cases Option.some.inj (hs.symm.trans hs')
      rw [h'.unique h2]
      exact List.prefix_append _ _

theorem Fields.up {d d' : Desc} {fs : List Name} (hF : ∃ fs', Fields env d' fs') (ha : Boot.above env d = some d') (h : Fields env d fs) : ∃ fs', Fields env d' fs' ∧ fs' <+: fs := by
  obtain ⟨fs', h'⟩ := hF
  exact ⟨fs', h', h.above ha h'⟩

/-- There are fields for what is above. -/
theorem Fields.ex {d d' : Desc} {fs : List Name} (ha : Boot.above env d = some d') (h : Fields env d fs) : ∃ fs', Fields env d' fs' := by
  unfold Boot.above at ha
  cases hs : superOf env d.name with
  | none =>
    rw [hs] at ha
    dsimp only at ha
    split at ha
    · cases ha
      exact ⟨[], .own _ (by decide +kernel)⟩
    · cases ha
  | some n =>
    rw [hs] at ha
    cases ha
    cases h with
    | own _ ho => exact ⟨[], .own _ (own_above ho hs)⟩
    | sub _ n' p fs1 h1 hs' hp h2 =>
      cases Option.some.inj (hs.symm.trans hs')
      exact ⟨fs1, h2⟩

/-- The fields of the class that has a method come first. -/
theorem Says.fields {sel : Name} {d : Desc} {r : Option (Desc × Kind)} (h : Says env sel d r) : ∀ {dh : Desc} {k : Kind} {fs : List Name}, r = some (dh, k) → Fields env d fs → ∃ fs', Fields env dh fs' ∧ fs' <+: fs := by
  induction h with
  | own d k hd =>
    intro dh k' fs he hf
    cases he
    exact ⟨fs, hf, List.prefix_refl _⟩
  | up d d' r hd ha _ ih =>
    intro dh k fs he hf
    obtain ⟨fs1, h1, h2⟩ := hf.up (hf.ex ha) ha
    obtain ⟨fs2, h3, h4⟩ := ih he h1
    exact ⟨fs2, h3, h4.trans h2⟩
  | none d hd ha => exact fun he => nomatch he
end
end PySOM.Boot

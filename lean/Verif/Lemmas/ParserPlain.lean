import Verif.Lemmas.ParserComplete
/-! # The whole grammar on tokens without the awkward constructs -/
set_option autoImplicit false
namespace PySOM.Parse
open PySOM.Lex PySOM.Parse.Grammar

theorem Grammar.Plain.infix {e : Engine} {ts us : List Tok} (h : Plain e us) (hi : ts <:+: us) : Plain e ts :=
  ⟨fun t ht => h.noSuper t (hi.subset ht), fun he o u x hx => h.noOne he o u x (hx.trans hi),
    fun he x a hx => h.noSelf he x a (hx.trans hi)⟩
theorem Grammar.Plain.left {e : Engine} {ts us : List Tok} (h : Plain e (ts ++ us)) : Plain e ts := h.infix ⟨[], us, by simp⟩
theorem Grammar.Plain.right {e : Engine} {ts us : List Tok} (h : Plain e (ts ++ us)) : Plain e us := h.infix ⟨ts, [], by simp⟩
theorem Grammar.Plain.tail {e : Engine} {t : Tok} {us : List Tok} (h : Plain e (t :: us)) : Plain e us := h.infix ⟨[t], [], by simp⟩

theorem un_int {D : Dialect} {us : List Tok} {a : Tree} {r : Bool} (h : Un D us a r) {u v : Tok} {tl : List Tok} (e : us = u :: v :: tl)
    (hu : u.sym = .integer) : IsId v := by
  revert u v tl
  refine (Grammar.induct (D := D) (P := fun us _ _ => ∀ {u v : Tok} {tl : List Tok}, us = u :: v :: tl → u.sym = .integer → False)
    (U := fun us _ _ => ∀ {u v : Tok} {tl : List Tok}, us = u :: v :: tl → u.sym = .integer → IsId v)
    (B := fun _ _ _ => True) (A := fun _ _ _ _ => True) (V := fun _ _ => True) (E := fun _ _ => True) (S := fun _ _ _ => True)
    ?var ?sup ?lit ?term ?block ?prim ?unary ?un ?binary ?one ?more ?bin ?keyword ?eval ?assign ?empty ?exit
    ?last ?stmt ?juxt).2.1 h
  case var => intro t _ _ u v tl e; simp at e
  case sup => intro t _ _ u v tl e; simp at e
  case lit =>
    intro ts l hl u v tl e hu
    cases hl with
    | int h => simp at e
    | dbl h => simp at e
    | str h => simp at e
    | negInt hm h => injection e with e _; subst e; rw [hu] at hm; cases hm
    | negDbl hm h => injection e with e _; subst e; rw [hu] at hm; cases hm
    | symStr hm h => injection e with e _; subst e; rw [hu] at hm; cases hm
    | sym hm h => injection e with e _; subst e; rw [hu] at hm; cases hm
    | arr hm h => injection e with e _; subst e; rw [hu] at hm; cases hm
  case term => intro o c ts t ho _ _ _ u v tl e hu; injection e with e _; subst e; rw [hu] at ho; cases ho
  case block => intro o c ps ls bs xs ys ts ex ho _ _ _ _ _ u v tl e hu; injection e with e _; subst e; rw [hu] at ho; cases ho
  case prim => intro ts t s _ ih u v tl e hu; exact (ih e hu).elim
  case unary =>
    intro ts t s m hun hm ih u v tl e hu
    obtain ⟨w, l, rfl, _⟩ := shapes.2.1 hun
    cases l with
    | nil =>
      simp only [List.cons_append, List.nil_append, List.cons.injEq] at e
      obtain ⟨_, rfl, _⟩ := e
      exact hm
    | cons w' l =>
      simp only [List.cons_append, List.cons.injEq] at e
      obtain ⟨rfl, rfl, _⟩ := e
      exact ih rfl hu
  all_goals intros; trivial

theorem plain (e : Engine) :
    (∀ {ts t s}, Prim som ts t s → Plain e ts → s = false ∧ Prim (part e) ts t s) ∧
    (∀ {ts t s}, Un som ts t s → Plain e ts → s = false ∧ Un (part e) ts t s) ∧
    (∀ {ts t s}, Bin som ts t s → Plain e ts → s = false ∧ Bin (part e) ts t s) ∧
    (∀ {us ks as fs}, Args som us ks as fs → Plain e us → Args (part e) us ks as fs) ∧
    (∀ {ts t}, Eval som ts t → Plain e ts → Eval (part e) ts t) ∧
    (∀ {ts t}, Expr som ts t → Plain e ts → Expr (part e) ts t) ∧
    (∀ {ts bs ex}, Body som ts bs ex → Plain e ts → Body (part e) ts bs ex) := by
  refine Grammar.induct ?var ?sup ?lit ?term ?block ?prim ?unary ?un ?binary ?one ?more ?bin ?keyword ?eval ?assign ?empty ?exit
    ?last ?stmt ?juxt
  case var => exact fun h1 h2 _ => ⟨rfl, .var h1 h2⟩
  case sup => exact fun _ h2 hp => absurd h2 (hp.noSuper _ List.mem_cons_self)
  case lit => exact fun h _ => ⟨rfl, .lit h⟩
  case term => exact fun ho hc _ ih hp => ⟨rfl, .term ho hc (ih hp.tail.left)⟩
  case block => exact fun ho hc h1 h2 _ ih hp => ⟨rfl, .block ho hc h1 h2 (ih hp.tail.right.right.left)⟩
  case prim => exact fun _ ih hp => ⟨(ih hp).1, .prim (ih hp).2⟩
  case unary => exact fun _ hm ih hp => ⟨rfl, .send (ih hp.left).2 hm⟩
  case un => exact fun _ ih hp => ⟨(ih hp).1, .un (ih hp).2⟩
  case binary =>
    intro ts us t a s r op _ hop hun _ _ ihb ihu hp
    have hpu : Plain e us := hp.right.tail
    refine ⟨rfl, .send (ihb hp.left).2 hop (ihu hpu).2 (fun _ => (ihu hpu).1) fun h1 hpm _ => ?_⟩
    have he : e = .bc := by
      cases e with
      | bc => rfl
      | ast => cases h1
    by_cases hc : ∃ u, us = [u]
    · exact .inl hc
    · refine .inr fun u hu ⟨h2, h3⟩ => ?_
      obtain ⟨w, l, rfl, _⟩ := shapes.2.1 hun
      cases hu
      cases l with
      | nil => exact hc ⟨u, rfl⟩
      | cons v l =>
        refine hp.noOne he op u v ⟨ts, l, by simp⟩ ⟨hpm, ⟨h2, h3⟩, ?_⟩
        exact un_int hun rfl h2
  case one => exact fun hk _ ih hp => .one hk (ih hp.tail).2
  case more => exact fun hk _ _ ih iha hp => .cons hk (ih hp.tail.left).2 (iha hp.tail.right)
  case bin => exact fun _ ih hp => .bin (ih hp).2
  case keyword =>
    intro ts us fs t s ks as _ _ _ ih iha hp
    obtain ⟨rfl, hb⟩ := ih hp.left
    exact .send hb (iha hp.right) (fun _ h => (by cases h))
  case eval => exact fun _ ih hp => .eval (ih hp)
  case assign =>
    intro xs ts ns t hx _ _ ih hp
    refine .assign hx (fun h1 x hxn => ?_) (ih hp.right)
    have he : e = .ast := by
      cases e with
      | bc => cases h1
      | ast => rfl
    have hpx := hp.left
    clear hp ih
    induction hx with
    | one ht ha =>
      obtain rfl := List.mem_singleton.mp hxn
      refine ⟨fun h => hpx.noSelf he _ _ ⟨[], [], rfl⟩ ⟨h, ha⟩, hpx.noSuper _ List.mem_cons_self⟩
    | @cons t a ts xs ht ha _ ih =>
      rcases List.mem_cons.mp hxn with rfl | hxn
      · exact ⟨fun h => hpx.noSelf he _ _ ⟨[], ts, rfl⟩ ⟨h, ha⟩, hpx.noSuper _ List.mem_cons_self⟩
      · exact ih (fun h => nomatch h) hxn hpx.tail.tail
  case empty => exact fun _ => .empty
  case exit => exact fun hc _ hd ih hp => .exit hc (ih hp.tail.left) hd
  case last => exact fun _ ih hp => .last (ih hp)
  case stmt => exact fun _ hd _ ih ihb hp => .stmt (ih hp.left) hd (ihb hp.right.tail)
  case juxt => intro ts us t bs ex h; cases h

end PySOM.Parse

import Verif.Spec.Prims
import Verif.Lemmas.Machine2
import Verif.Props.Numeric
/-! # Lemmas about primitives on the machine -/
set_option autoImplicit false
namespace PySOM.Mach
open PySOM BC

/-! ## Steps -/

theorem Prim.all_num (x : Prim) : Prim.all[x.num]? = some x := by
  cases x with
  | arith o => cases o <;> decide +kernel
  | kind k => cases k <;> decide +kernel
  | compare o => cases o <;> decide +kernel
  | _ => decide +kernel

section
variable {ι X Y P : Type} {G : Prog ι X Y P} {b : Behaviour ι (St X Y) Esc}

/-- What a primitive does, by its next step. -/
theorem Do.prim_iff {q : P} {w w' : St X Y} {r : Res Esc} : Do G b (.prim q) w r w' ↔ match G.step q w.sh with
    | (s, .done v) => r = .val v ∧ w' = { w with sh := s }
    | (s, .raise e) => r = .exc (.err e) ∧ w' = { w with sh := s }
    | (s, .next q') => Do G b (.prim q') { w with sh := s } r w'
    | (s, .call c k) => (∃ v w1, G.calls b c { w with sh := s } (.val v) w1 ∧ Do G b (.prim (k v)) w1 r w') ∨ ∃ e, r = .exc e ∧ G.calls b c { w with sh := s } (.exc e) w' := by
  constructor
  · intro h
    generalize ht : Target.prim q = t at h
    cases h with
    | meth => cases ht
    | blk => cases ht
    | fail => cases ht
    | done _ _ s v hs => cases ht; rw [hs]; exact ⟨rfl, rfl⟩
    | raise _ _ s e hs => cases ht; rw [hs]; exact ⟨rfl, rfl⟩
    | next _ _ s q' _ _ hs hq => cases ht; rw [hs]; exact hq
    | callVal _ _ s c k v w1 _ _ hs hc hk => cases ht; rw [hs]; exact .inl ⟨v, w1, hc, hk⟩
    | callExc _ _ s c k e _ hs hc => cases ht; rw [hs]; exact .inr ⟨e, rfl, hc⟩
  · generalize hst : G.step q w.sh = x
    obtain ⟨s, m⟩ := x
    cases m with
    | done v => rintro ⟨rfl, rfl⟩; exact .done q w s v hst
    | raise e => rintro ⟨rfl, rfl⟩; exact .raise q w s e hst
    | next q' => exact fun h => .next q w s q' r w' hst h
    | call c k =>
      rintro (⟨v, w1, hc, hk⟩ | ⟨e, rfl, hc⟩)
      · exact .callVal q w s c k v w1 r w' hst hc hk
      · exact .callExc q w s c k e w' hst hc

theorem toSrc_inj {r r' : Res Esc} (h : toSrc r = toSrc r') : r = r' := by
  cases r <;> cases r' <;> cases h <;> rfl

theorem does_iff {c : Call} {w w' : St X Y} {r : Res Esc} : G.does b c w (toSrc r) w' ↔ G.calls b c w r w' :=
  ⟨fun ⟨_, h, hc⟩ => toSrc_inj h ▸ hc, fun h => ⟨r, rfl, h⟩⟩

theorem does_val {c : Call} {w w' : St X Y} {v : Val} : G.does b c w (.val v) w' ↔ G.calls b c w (.val v) w' := does_iff (r := .val v)
theorem does_exc {c : Call} {w w' : St X Y} {e : Esc} : G.does b c w (.exc e) w' ↔ G.calls b c w (.exc e) w' := does_iff (r := .exc e)

theorem does_stops {c : Call} {w w' : St X Y} {r : Src.Res Esc} (hr : r.stops) (h : G.does b c w r w') : ∃ e, r = .exc e ∧ G.calls b c w (.exc e) w' := by
  obtain ⟨r0, rfl, h⟩ := h
  cases r0 with
  | val v => exact hr.elim
  | exc e => exact ⟨e, rfl, h⟩

/-- A call, then something else, as a relation. -/
theorem bind_does {c : Call} {k : Val → Src.Rel (St X Y) Esc} {w w' : St X Y} {r : Res Esc} : Src.bind (G.does b c) k w (toSrc r) w' ↔
    (∃ v w1, G.calls b c w (.val v) w1 ∧ k v w1 (toSrc r) w') ∨ ∃ e, r = .exc e ∧ G.calls b c w (.exc e) w' := by
  constructor
  · rintro (⟨v, w1, h, hk⟩ | ⟨h, hs⟩)
    · exact .inl ⟨v, w1, does_val.1 h, hk⟩
    · obtain ⟨e, he, hc⟩ := does_stops hs h
      exact .inr ⟨e, toSrc_inj (he.trans rfl), hc⟩
  · rintro (⟨v, w1, h, hk⟩ | ⟨e, rfl, h⟩)
    · exact .inl ⟨v, w1, does_val.2 h, hk⟩
    · exact .inr ⟨does_exc.2 h, trivial⟩
end

section
variable {ι F : Type} {I : Image ι} {p : Platform} {fo : Floats F}

theorem look_find (c : Nat) (sel : Sel) : (I.prog p fo).look ((I.prog p fo).chain c) sel =
    (I.find c sel).map fun x => (x.1, entry x.2) := by
  show List.findSome? _ (I.chain c) = Option.map _ (List.findSome? _ (I.chain c))
  induction I.chain c with
  | nil => rfl
  | cons h hs ih =>
    have e : (I.prog p fo).table h sel = (I.table h sel).map entry := rfl
    cases hT : I.table h sel with
    | none =>
      rw [hT] at e
      simp only [List.findSome?_cons, hT, e, Option.map_none]
      exact ih
    | some x =>
      rw [hT] at e
      simp only [List.findSome?_cons, hT, e, Option.map_some]

theorem look_has {c : Nat} {sel : String} {x : Prim} (h : I.Has c sel x) : ∃ h, (I.prog p fo).look ((I.prog p fo).chain c) sel.toList = some (h, .prim x.num) := by
  obtain ⟨h, hf⟩ := h
  exact ⟨h, by rw [look_find, hf]; rfl⟩

theorem classOf_eq (sh : Mem F) (v : Val) : (I.prog p fo).classOf sh v = I.classOf sh v := by
  cases v with
  | obj a =>
    simp only [Prog.classOf, Image.classOf]
    cases sh.objs[a]? with
    | none => rfl
    | some o => cases o <;> rfl
  | _ => rfl

/-- A message that is answered by a primitive. -/
theorem sends_prim {b : Behaviour ι (St (Data F) Printed) Esc} {c : Nat} {sel : String} {x : Prim} {v : Val} {vs : List Val} {w w' : St (Data F) Printed} {r : Res Esc} (hc : I.classOf w.sh v = some c)
    (hx : I.Has c sel x) : (I.prog p fo).sends b sel (v :: vs) w (toSrc r) w' ↔ Do (I.prog p fo) b (.prim (.start (some x) (v :: vs))) w r w' := by
  obtain ⟨h, hl⟩ := look_has (p := p) (fo := fo) hx
  have : (I.prog p fo).resolve w (.send sel.toList (v :: vs)) = (.prim (.start (some x) (v :: vs)), w) := by
    simp only [Prog.resolve, classOf_eq, hc, hl, Prog.enter]
    show (Target.prim (Go.start Prim.all[x.num]? (v :: vs)), w) = _
    rw [Prim.all_num]
  rw [Prog.sends, does_iff, Prog.calls, this]

/-! ## Primitives make no blocks -/

theorem Kept.rfl' (sh : Mem F) : Kept sh sh := fun a _ _ _ h => ⟨a, h⟩

theorem Kept.append {sh : Mem F} {o : Obj (Data F)} (ho : ∀ id ctx h, o ≠ .block id ctx h) : Kept sh { sh with objs := sh.objs ++ [o] } := by
  intro a id ctx h ha
  have ha : (sh.objs ++ [o])[a]? = some (.block id ctx h) := ha
  rw [List.getElem?_append] at ha
  split at ha
  · exact ⟨a, ha⟩
  · rw [List.getElem?_singleton] at ha
    split at ha
    · exact absurd (Option.some.inj ha) (ho id ctx h)
    · cases ha

theorem Kept.set {sh : Mem F} {k : Nat} {o : Obj (Data F)} (ho : ∀ id ctx h, o ≠ .block id ctx h) : Kept sh { sh with objs := sh.objs.set k o } := by
  intro a id ctx h ha
  have ha : (sh.objs.set k o)[a]? = some (.block id ctx h) := ha
  rw [List.getElem?_set] at ha
  split at ha
  · split at ha
    · exact absurd (Option.some.inj ha) (ho id ctx h)
    · cases ha
  · exact ⟨a, ha⟩

theorem Kept.trans {a b c : Mem F} (h1 : Kept a b) (h2 : Kept b c) : Kept a c := fun x id ctx h hx =>
  let ⟨x', hx'⟩ := h2 x id ctx h hx
  h1 x' id ctx h hx'

theorem box_kept (sh : Mem F) (n : Num.Num F) : Kept sh (I.box sh n).1 := by
  cases n with
  | int i => exact .rfl' sh
  | big i => exact .append fun _ _ _ h => nomatch h
  | dbl f => exact .append fun _ _ _ h => nomatch h
  | obj a => exact .rfl' sh

theorem boxed_kept (sh : Mem F) (x : Except Err (Num.Num F)) : Kept sh (I.boxed sh x).1 := by
  cases x with
  | ok n => exact box_kept sh n
  | error e => exact .rfl' sh

theorem ofStr_kept (sh : Mem F) (x : Except Err Str.Obj) : Kept sh (I.ofStr sh x).1 := by
  cases x with
  | ok n =>
    cases n with
    | str s => exact .append fun _ _ _ h => nomatch h
    | _ => exact .rfl' sh
  | error e => exact .rfl' sh

theorem printed_kept (sh : Mem F) (r : Val) (s : Except Err Str.Str) (f : Printed → Str.Str → Printed) : Kept sh (printed sh r s f).1 := by
  cases s with
  | ok s => exact fun a _ _ _ h => ⟨a, h⟩
  | error e => exact .rfl' sh

theorem putGlobal_kept (sh : Mem F) (k v : Val) : Kept sh (putGlobal sh k v) := by
  cases k <;> exact fun a _ _ _ h => ⟨a, h⟩

theorem begin_kept (sh : Mem F) (x : Prim) (vs : List Val) : Kept sh (I.begin p fo sh x vs).1 := by
  unfold Image.begin
  split
  all_goals first
    | exact .rfl' sh
    | exact boxed_kept sh _
    | exact ofStr_kept sh _
    | exact printed_kept sh _ _ _
    | exact putGlobal_kept sh _ _
    | (repeat' split) <;> first
        | exact .rfl' sh
        | exact boxed_kept sh _
        | exact .set fun _ _ _ h => nomatch h
        | exact .append fun _ _ _ h => nomatch h

theorem prog_tame : Tame (I.prog p fo) := by
  intro q sh
  show Kept sh (I.step p fo q sh).1
  cases q with
  | start x vs =>
    cases x with
    | none => exact .rfl' sh
    | some x => exact begin_kept sh x vs
  | fill a x len got =>
    simp only [Image.step]
    repeat' split
    all_goals first
      | exact .rfl' sh
      | exact .set fun _ _ _ h => nomatch h
  | _ => exact .rfl' sh

theorem incs_tame : (I.incs p fo).Tame := by
  refine ⟨fun v sh => boxed_kept sh _, fun v sh => boxed_kept sh _, fun a i sh => ?_⟩
  show Kept sh (match sh.objs[a]? with | some (.inst c fs) => _ | _ => _ : Mem F × Except Err Val).1
  split
  · split
    · rename_i c fs _ v _
      have := boxed_kept (I := I) sh (Num.primInc p fo.toFloatOps (I.num sh v))
      split
      · rename_i sh1 u hb
        rw [hb] at this
        exact this.trans (.set fun _ _ _ h => nomatch h)
      · rename_i sh1 e hb
        rw [hb] at this
        exact this
    · exact .rfl' sh
  · exact .rfl' sh

/-! ## The shortcuts -/

theorem num_class {sh : Mem F} {v : Val} : match I.num sh v with
    | .int _ => I.classOf sh v = some I.intCls
    | .big _ => I.classOf sh v = some I.intCls
    | .dbl _ => I.classOf sh v = some I.dblCls
    | .obj _ => True := by
  cases v with
  | int i => rfl
  | obj a =>
    cases ho : sh.objs[a]? with
    | none => simp only [Image.num, ho]
    | some o =>
      cases o with
      | inst c fs => simp only [Image.num, ho]
      | block id ctx h => simp only [Image.num, ho]
      | data c x =>
        cases x with
        | dbl f =>
          by_cases hc : c = I.dblCls
          · subst hc
            simp only [Image.num, ho, if_true, Image.classOf]
          · simp only [Image.num, ho, if_neg hc]
        | big i =>
          by_cases hc : c = I.intCls
          · subst hc
            simp only [Image.num, ho, if_true, Image.classOf]
          · simp only [Image.num, ho, if_neg hc]
        | _ => simp only [Image.num, ho]
  | _ => trivial

theorem num_one (sh : Mem F) : I.num sh (.int 1) = .int 1 := rfl

/-- A shortcut that computes what the primitive computes, where it computes something. -/
theorem shortcut {o : Arith} {sel : String} {f : Num.Num F → Except Err (Num.Num F)} (hi : I.Has I.intCls sel (.arith o)) (hd : I.Has I.dblCls sel (.arith o))
    (hf : ∀ n m, f n = .ok m → o.op p fo n (.int 1) = .ok m) (hn : ∀ a, ∃ e, f (.obj a) = .error e) (he : ∀ n e, f n = .error e → Quirk (.err e)) :
    Shortcut (I.prog p fo) sel.toList fun v sh => I.boxed sh (f (I.num sh v)) := by
  intro v sh
  dsimp only
  cases hv : f (I.num sh v) with
  | error e => exact he _ e hv
  | ok m =>
    have hc := num_class (I := I) (sh := sh) (v := v)
    have hs : I.step p fo (.start (some (.arith o)) [v, .int 1]) sh = ((I.box sh m).1, .done (I.box sh m).2) := by
      show ends (I.boxed sh (o.op p fo (I.num sh v) (I.num sh (.int 1)))) = _
      rw [num_one, hf _ m hv]
      rfl
    have key : ∀ c, I.Has c sel (.arith o) → I.classOf sh v = some c → ∃ c h n, (I.prog p fo).classOf sh v = some c ∧ (I.prog p fo).look ((I.prog p fo).chain c) sel.toList = some (h, .prim n) ∧
        (I.prog p fo).step ((I.prog p fo).start n [v, .int 1]) sh = ((I.box sh m).1, .done (I.box sh m).2) := by
      intro c hx hcv
      obtain ⟨h, hl⟩ := look_has (p := p) (fo := fo) hx
      refine ⟨c, h, _, (classOf_eq sh v).trans hcv, hl, ?_⟩
      show I.step p fo (.start Prim.all[(Prim.arith o).num]? [v, .int 1]) sh = _
      rw [Prim.all_num]
      exact hs
    cases hnum : I.num sh v with
    | int i => rw [hnum] at hc; exact key _ hi hc
    | big i => rw [hnum] at hc; exact key _ hi hc
    | dbl f => rw [hnum] at hc; exact key _ hd hc
    | obj a =>
      rw [hnum] at hv
      obtain ⟨e, h⟩ := hn a
      rw [h] at hv
      cases hv

theorem inc_error (n : Num.Num F) (e : Err) (h : Num.primInc p fo.toFloatOps n = .error e) : Quirk (.err e) := by
  cases p <;> cases n <;> simp only [Num.primInc, Num.ovfcheck, Num.bigCall, bind, Except.bind] at h <;> (try split at h) <;> cases h <;> exact .inr (.inr rfl)

theorem dec_error (n : Num.Num F) (e : Err) (h : Num.primDec p fo.toFloatOps n = .error e) : Quirk (.err e) := by
  cases p <;> cases n <;> simp only [Num.primDec, Num.ovfcheck, Num.bigCall, bind, Except.bind] at h <;> (try split at h) <;> cases h <;> exact .inr (.inr rfl)

/-- The shortcuts are right, except for decrementing big integers, which there are only in the translated VM. -/
theorem incs_ok (hI : I.Numbers) (h1 : fo.ofInt 1 = .ok fo.one) : (I.incs p fo).Ok (I.prog p fo) (p = .cpython) where
  inc := shortcut hI.intPlus hI.dblPlus (fun n m h => by rw [← h]; exact (Num.C07_increment_agrees p fo.toFloatOps n h1).symm) (fun _ => ⟨_, rfl⟩) inc_error
  dec := fun hp => shortcut hI.intMinus hI.dblMinus (fun n m h => by
    cases hp
    rw [← h]
    exact (Num.C07_decrement_agrees_partial .cpython fo.toFloatOps n h1 (by rintro i rfl; cases h)).symm) (fun _ => ⟨_, rfl⟩) dec_error
  incFld := fun a i sh => by
    simp only [Image.incs]
    split
    · rename_i sh' u h
      split at h
      · rename_i c fs ho
        split at h
        · rename_i v hv
          split at h
          · rename_i sh1 u' hb
            cases h
            refine ⟨c, fs, v, sh1, ho, hv, hb, ?_, rfl⟩
            have : ∃ n, (I.box sh n).1 = sh1 := by
              cases hn : Num.primInc p fo.toFloatOps (I.num sh v) with
              | ok n => rw [hn] at hb; exact ⟨n, congrArg Prod.fst hb⟩
              | error e => rw [hn] at hb; cases hb
            obtain ⟨n, rfl⟩ := this
            have app : ∀ o, (sh.objs ++ [o])[a]? = some (.inst c fs) := fun o => by
              rw [List.getElem?_append_left (List.getElem?_eq_some_iff.1 ho).1]
              exact ho
            cases n with
            | int i => exact ho
            | big i => exact app _
            | dbl f => exact app _
            | obj k => exact ho
          · cases h
        · cases h
      · cases h
    · rename_i sh' e h
      split at h
      · split at h
        · split at h
          · cases h
          · rename_i v _ _ sh1 e' hb
            cases h
            cases hn : Num.primInc p fo.toFloatOps (I.num sh v) with
            | ok n => rw [hn] at hb; cases hb
            | error e' => rw [hn] at hb; cases hb; exact inc_error _ _ hn
        · cases h; exact .inr (.inr rfl)
      · cases h; exact .inr (.inr rfl)

end
end PySOM.Mach

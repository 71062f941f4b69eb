import Verif.Spec.Lasting
import Verif.Lemmas.Prims
import Verif.Lemmas.Super
import Verif.Lemmas.Returns
import Verif.Props.Super
/-!
# Relations between states that everything respects
-/
set_option autoImplicit false
namespace PySOM.Mach
open PySOM BC

/-! ## For any relation -/

section
variable {ι X Y P : Type} {G : Prog ι X Y P} {K : Incs X Y}

/-- Primitives, shortcuts, and the machine itself when it makes arrays and blocks and stores into fields. -/
structure Respects (G : Prog ι X Y P) (K : Incs X Y) (R : Shared X Y → Shared X Y → Prop) : Prop where
  refl : ∀ s, R s s
  trans : ∀ a b c, R a b → R b c → R a c
  step : ∀ q s, R s (G.step q s).1
  inc : ∀ v s, R s (K.inc v s).1
  dec : ∀ v s, R s (K.dec v s).1
  incFld : ∀ a i s, R s (K.incFld a i s).1
  array : ∀ s vs, R s { s with objs := s.objs ++ [.data G.arrCls (G.array vs)] }
  block : ∀ s id ctx h, R s { s with objs := s.objs ++ [.block id ctx h] }
  field : ∀ s (a c : Nat) fs i v, s.objs[a]? = some (.inst c fs) → R s { s with objs := s.objs.set a (.inst c (fs.set i v)) }

variable {R : Shared X Y → Shared X Y → Prop}

/-- All methods and blocks do. -/
structure BehResp (R : Shared X Y → Shared X Y → Prop) (b : Behaviour ι (St X Y) Esc) : Prop where
  meth : ∀ i w r w', b.meth i w r w' → R w.sh w'.sh
  blk : ∀ id w r w', b.blk id w r w' → R w.sh w'.sh

theorem left_sh (home : Bool) (f cur : Nat) (r : Src.Res Esc) (w : St X Y) : (left home f cur r w).2.sh = w.sh := by
  unfold left
  split
  · rfl
  · rfl
  · split <;> rfl
  · rfl

theorem Respects.resolve (hR : Respects G K R) (w : St X Y) (c : Call) : R w.sh (G.resolve w c).2.sh := by
  unfold Prog.resolve
  repeat' split
  all_goals first
    | exact hR.refl _
    | exact hR.array _ _

theorem Respects.do (hR : Respects G K R) {b : Behaviour ι (St X Y) Esc} (hb : BehResp R b) {t : Target ι P} {w : St X Y} {r : Res Esc} {w' : St X Y} (h : Do G b t w r w') : R w.sh w'.sh := by
  induction h with
  | meth h i vs w r0 w0 hm => rw [left_sh]; exact hb.meth i (w.push vs none h (G.catches i)) r0 w0 hm
  | blk id ctx h vs w r0 w0 hm => rw [left_sh]; exact hb.blk id (w.push vs ctx h false) r0 w0 hm
  | fail e w => exact hR.refl _
  | done q w s v hs => have := hR.step q w.sh; rwa [hs] at this
  | raise q w s e hs => have := hR.step q w.sh; rwa [hs] at this
  | next q w s q' r w' hs hq ih =>
    have := hR.step q w.sh
    rw [hs] at this
    exact hR.trans _ _ _ this ih
  | callVal q w s c k v w1 r w' hs hc hk ih1 ih2 =>
    have := hR.step q w.sh
    rw [hs] at this
    exact hR.trans _ _ _ (hR.trans _ _ _ (hR.trans _ _ _ this (hR.resolve { w with sh := s } c)) ih1) ih2
  | callExc q w s c k e w1 hs hc ih =>
    have := hR.step q w.sh
    rw [hs] at this
    exact hR.trans _ _ _ (hR.trans _ _ _ this (hR.resolve { w with sh := s } c)) ih

theorem Respects.calls (hR : Respects G K R) {b : Behaviour ι (St X Y) Esc} (hb : BehResp R b) {c : Call} {w : St X Y} {r : Res Esc} {w' : St X Y} (h : G.calls b c w r w') : R w.sh w'.sh :=
  hR.trans _ _ _ (hR.resolve w c) (hR.do hb h)

theorem shared_sh (w : St X Y) (x : Shared X Y × Except Err Val) : (w.shared x).2.sh = x.1 := by
  unfold St.shared
  split <;> rfl

/-- What an action changes at once, or before its call. -/
def after (x : Now X Y ⊕ Call × St X Y) : Shared X Y := match x with
  | .inl y => y.2.sh
  | .inr y => y.2.sh

theorem Respects.plan (hR : Respects G K R) (w : St X Y) (a : Act Nat) : R w.sh (after (G.plan K w a)) := by
  cases a with
  | rdVar a i l =>
    show R w.sh (w.rdVar a i l).2.sh
    unfold St.rdVar
    repeat' split
    all_goals exact hR.refl _
  | wrVar a i l v =>
    show R w.sh (w.wrVar a i l v).2.sh
    unfold St.wrVar
    split <;> exact hR.refl _
  | rdFld i l =>
    show R w.sh (w.rdFld i l).2.sh
    unfold St.rdFld
    repeat' split
    all_goals exact hR.refl _
  | wrFld i l v =>
    show R w.sh (w.wrFld i l v).2.sh
    unfold St.wrFld
    repeat' split
    all_goals first
      | exact hR.refl _
      | (rename_i h _; exact hR.field _ _ _ _ _ _ h)
  | incFld i l =>
    simp only [Prog.plan]
    split
    · show R w.sh (w.shared _).2.sh
      rw [shared_sh]
      exact hR.incFld _ _ _
    · exact hR.refl _
    · exact hR.refl _
  | glob g =>
    simp only [Prog.plan]
    repeat' split
    all_goals exact hR.refl _
  | mkBlock c id =>
    simp only [Prog.plan]
    split
    · exact hR.block _ _ _ _
    · exact hR.refl _
  | send sel vs => exact hR.refl _
  | superSend sel vs =>
    simp only [Prog.plan]
    split <;> exact hR.refl _
  | inc v =>
    show R w.sh (w.shared _).2.sh
    rw [shared_sh]
    exact hR.inc _ _
  | dec v =>
    show R w.sh (w.shared _).2.sh
    rw [shared_sh]
    exact hR.dec _ _
  | self =>
    show R w.sh (w.rdVar true 0 0).2.sh
    unfold St.rdVar
    repeat' split
    all_goals exact hR.refl _
  | nlr l v =>
    simp only [Prog.plan]
    repeat' split
    all_goals exact hR.refl _

theorem Respects.world (hR : Respects G K R) {b : Behaviour ι (St X Y) Esc} (hb : BehResp R b) {a : Act Nat} {w : St X Y} {r : Res Esc} {w' : St X Y} (h : G.world K b a w r w') : R w.sh w'.sh := by
  have hp := hR.plan w a
  unfold Prog.world at h
  split at h
  · rename_i x hx
    rw [hx] at hp
    obtain ⟨_, rfl⟩ := h
    exact hp
  · rename_i x hx
    rw [hx] at hp
    exact hR.trans _ _ _ hp (hR.calls hb h)

theorem Respects.acts (hR : Respects G K R) {b : Behaviour ι (St X Y) Esc} (hb : BehResp R b) (s : Shared X Y) : Acts (fun w : St X Y => R s w.sh) (fun _ => True) (G.world K b) (G.world K b) :=
  fun _ _ _ _ _ hi h => ⟨h, hR.trans _ _ _ hi (hR.world hb h)⟩

theorem Respects.code (hR : Respects G K R) {p : Compiled2 ι} {known : Sel → Bool} {n : Nat} (hp : p.BcOk known n) (k : Nat) : BehResp R (bcBehaviour p (G.system K) k) := by
  induction k with
  | zero => exact ⟨fun _ _ _ _ h => h.elim, fun _ _ _ _ h => h.elim⟩
  | succ k ih =>
    refine ⟨fun i w r w' h => ?_, fun id w r w' h => ?_⟩
    · obtain ⟨g, hg, hC⟩ := hp.code i
      exact (Code.run_thru (hR.acts ih w.sh) (hp.wf i) hg hC (fun _ _ => trivial) w r w' (hR.refl _) h).2
    · obtain ⟨j, m, hm, rfl, hrun⟩ := h
      obtain ⟨l, hs⟩ := comes_sound hp hm
      exact (Meth.run_thru (hR.acts ih w.sh) hs (fun _ _ => trivial) w r w' (hR.refl _) hrun).2

theorem Respects.tree (hR : Respects G K R) (p : Compiled2 ι) (k : Nat) : BehResp R (astBehaviour p (G.system K) Esc.err k) := by
  induction k with
  | zero => exact ⟨fun _ _ _ _ h => h.elim, fun _ _ _ _ h => h.elim⟩
  | succ k ih =>
    have hU : ∀ (s : Shared X Y) (g : Sel) (l : Nat), Thru (fun w : St X Y => R s w.sh) ((G.system K (astBehaviour p (G.system K) Esc.err k)).2 g l) ((G.system K (astBehaviour p (G.system K) Esc.err k)).2 g l) :=
      fun s g _ => (hR.acts ih s).act fun _ _ h => nomatch h
    refine ⟨fun i w r w' h => ?_, fun id w r w' h => ?_⟩
    · exact (AMethod.run_thru (hR.acts ih w.sh) (hU w.sh) (p.tree i) (fun _ _ => trivial) w r w' (hR.refl _) h).2
    · obtain ⟨j, m, hm, rfl, hrun⟩ := h
      exact (AMeth.run_thru (hR.acts ih w.sh) (hU w.sh) m (fun _ _ => trivial) w r w' (hR.refl _) hrun).2

end

/-! ## What lasts -/

section
variable {ι F : Type} {I : Image ι} {p : Platform} {fo : Floats F}

theorem Data.Lasts.refl (x : Data F) : x.Lasts x := by cases x <;> rfl

theorem Data.Lasts.trans {x y z : Data F} (h : x.Lasts y) (h' : y.Lasts z) : x.Lasts z := by
  cases x with
  | arr vs =>
    cases y with
    | arr vs' =>
      cases z with
      | arr vs'' => exact Eq.trans h' h
      | _ => exact h'.elim
    | _ => exact h.elim
  | _ => cases h; exact h'

theorem Obj.Lasts.refl (o : Obj (Data F)) : o.Lasts o := by
  cases o with
  | inst c fs => exact ⟨rfl, rfl⟩
  | block id ctx h => exact ⟨rfl, rfl, rfl⟩
  | data c x => exact ⟨rfl, .refl x⟩

theorem Obj.Lasts.trans {x y z : Obj (Data F)} (h : x.Lasts y) (h' : y.Lasts z) : x.Lasts z := by
  cases x with
  | inst c fs =>
    cases y with
    | inst c' fs' =>
      cases z with
      | inst c'' fs'' => exact ⟨h'.1.trans h.1, h'.2.trans h.2⟩
      | _ => exact h'.elim
    | _ => exact h.elim
  | block id ctx hh =>
    cases y with
    | block id' ctx' h2 =>
      cases z with
      | block id'' ctx'' h3 => exact ⟨h'.1.trans h.1, h'.2.1.trans h.2.1, h'.2.2.trans h.2.2⟩
      | _ => exact h'.elim
    | _ => exact h.elim
  | data c x =>
    cases y with
    | data c' x' =>
      cases z with
      | data c'' x'' => exact ⟨h'.1.trans h.1, h.2.trans h'.2⟩
      | _ => exact h'.elim
    | _ => exact h.elim

theorem Lasting.refl (s : Mem F) : Lasting s s := ⟨fun _ o h => ⟨o, h, .refl o⟩, fun _ h => h, List.prefix_rfl, List.prefix_rfl⟩

theorem Lasting.trans {a b c : Mem F} (h : Lasting a b) (h' : Lasting b c) : Lasting a c := by
  refine ⟨fun x o hx => ?_, fun g hg => h'.globals g (h.globals g hg), h.out.trans h'.out, h.err.trans h'.err⟩
  obtain ⟨o1, h1, h2⟩ := h.objs x o hx
  obtain ⟨o2, h3, h4⟩ := h'.objs x o1 h1
  exact ⟨o2, h3, h2.trans h4⟩

theorem Lasting.append (s : Mem F) (o : Obj (Data F)) : Lasting s { s with objs := s.objs ++ [o] } :=
  ⟨fun a x h => ⟨x, by rw [List.getElem?_append_left (List.getElem?_eq_some_iff.1 h).1]; exact h, .refl x⟩, fun _ h => h, List.prefix_rfl, List.prefix_rfl⟩

theorem Lasting.set {s : Mem F} {k : Nat} {x y : Obj (Data F)} (hx : s.objs[k]? = some x) (hy : x.Lasts y) : Lasting s { s with objs := s.objs.set k y } := by
  refine ⟨fun a o h => ?_, fun _ h => h, List.prefix_rfl, List.prefix_rfl⟩
  by_cases ha : k = a
  · subst ha
    rw [hx] at h
    cases h
    exact ⟨y, by rw [List.getElem?_set_self (List.getElem?_eq_some_iff.1 hx).1], hy⟩
  · exact ⟨o, by rw [List.getElem?_set_ne ha]; exact h, .refl o⟩

theorem box_lasting (s : Mem F) (n : Num.Num F) : Lasting s (I.box s n).1 := by
  cases n with
  | int i => exact .refl s
  | big i => exact .append s _
  | dbl f => exact .append s _
  | obj a => exact .refl s

theorem boxed_lasting (s : Mem F) (x : Except Err (Num.Num F)) : Lasting s (I.boxed s x).1 := by
  cases x with
  | ok n => exact box_lasting s n
  | error e => exact .refl s

theorem ofStr_lasting (s : Mem F) (x : Except Err Str.Obj) : Lasting s (I.ofStr s x).1 := by
  cases x with
  | ok n =>
    cases n with
    | str t => exact .append s _
    | _ => exact .refl s
  | error e => exact .refl s

theorem printed_lasting (s : Mem F) (r : Val) (x : Except Err Str.Str) (f : Printed → Str.Str → Printed) (hf : ∀ y t, y.out <+: (f y t).out ∧ y.err <+: (f y t).err) : Lasting s (printed s r x f).1 := by
  cases x with
  | ok t => exact ⟨fun _ o h => ⟨o, h, .refl o⟩, fun _ h => h, (hf _ _).1, (hf _ _).2⟩
  | error e => exact .refl s

theorem putGlobal_lasting (s : Mem F) (k v : Val) : Lasting s (putGlobal s k v) := by
  cases k with
  | sym g =>
    refine ⟨fun _ o h => ⟨o, h, .refl o⟩, fun x h => ?_, List.prefix_rfl, List.prefix_rfl⟩
    show Option.isSome (if x = g then some v else s.globals x) = true
    split
    · rfl
    · exact h
  | _ => exact .refl s

theorem elems_set {s : Mem F} {a : Val} {o c : Nat} {vs vs' : List Val} (h : elems s a = .ok (o, c, vs)) (hl : vs'.length = vs.length) : Lasting s { s with objs := s.objs.set o (.data c (.arr vs')) } := by
  cases a with
  | obj a =>
    simp only [elems] at h
    split at h
    · rename_i c' ws ho
      cases h
      exact .set ho ⟨rfl, hl⟩
    · cases h
  | _ => cases h

theorem fields_set {s : Mem F} {a : Val} {o c : Nat} {vs vs' : List Val} (h : fieldsOf s a = .ok (o, c, vs)) (hl : vs'.length = vs.length) : Lasting s { s with objs := s.objs.set o (.inst c vs') } := by
  cases a with
  | obj a =>
    simp only [fieldsOf] at h
    split at h
    · rename_i c' v ws ho
      cases h
      exact .set ho ⟨rfl, hl⟩
    · cases h
  | _ => cases h

theorem begin_lasting (s : Mem F) (x : Prim) (vs : List Val) : Lasting s (I.begin p fo s x vs).1 := by
  unfold Image.begin
  split
  all_goals first
    | exact .refl s
    | exact boxed_lasting s _
    | exact ofStr_lasting s _
    | exact printed_lasting s _ _ _ fun y t => ⟨List.prefix_append _ _, List.prefix_rfl⟩
    | exact printed_lasting s _ _ _ fun y t => ⟨List.prefix_rfl, List.prefix_append _ _⟩
    | exact printed_lasting s _ _ _ fun y t => ⟨List.prefix_rfl, by show y.err <+: y.err ++ t ++ ['\n']; rw [List.append_assoc]; exact List.prefix_append _ _⟩
    | exact putGlobal_lasting s _ _
    | (repeat' split) <;> first
        | exact .refl s
        | exact boxed_lasting s _
        | exact .append s _
        | (rename_i h _ _; exact fields_set h List.length_set)
        | (rename_i h _ _ _; exact fields_set h List.length_set)
        | (rename_i h _ _; exact elems_set h List.length_set)
        | (rename_i h _ _ _; exact elems_set h List.length_set)
        | (rename_i h; exact elems_set h List.length_replicate)

theorem incs_field_lasting (a i : Nat) (s : Mem F) : Lasting s ((I.incs p fo).incFld a i s).1 := by
  show Lasting s (match s.objs[a]? with | some (.inst c fs) => _ | _ => _ : Mem F × Except Err Val).1
  split
  · split
    · rename_i c fs ho _ v _
      have := boxed_lasting (I := I) s (Num.primInc p fo.toFloatOps (I.num s v))
      split
      · rename_i sh1 u hb
        rw [hb] at this
        refine this.trans ?_
        obtain ⟨o', h1, h2⟩ := this.objs a _ ho
        cases o' with
        | inst c' fs' =>
          obtain ⟨rfl, hl⟩ := h2
          exact .set h1 ⟨rfl, by rw [List.length_set, hl]⟩
        | _ => exact h2.elim
      · rename_i sh1 e hb
        rw [hb] at this
        exact this
    · exact .refl s
  · exact .refl s

theorem lasting_respects : Respects (I.prog p fo) (I.incs p fo) (Lasting (F := F)) where
  refl := .refl
  trans := fun _ _ _ => .trans
  step := fun q s => by
    show Lasting s (I.step p fo q s).1
    cases q with
    | start x vs =>
      cases x with
      | none => exact .refl s
      | some x => exact begin_lasting s x vs
    | fill a x len got =>
      simp only [Image.step]
      repeat' split
      all_goals first
        | exact .refl s
        | (rename_i h _ hl; exact elems_set h hl)
    | _ => exact .refl s
  inc := fun v s => boxed_lasting s _
  dec := fun v s => boxed_lasting s _
  incFld := incs_field_lasting
  array := fun s vs => .append s _
  block := fun s id ctx h => .append s _
  field := fun s a c fs i v h => .set h ⟨rfl, List.length_set⟩

end
end PySOM.Mach

import Verif.Spec.Dispatch
import Verif.Props.Array
/-!
# C37: inline caches are unobservable, C45: perform: and doesNotUnderstand:
-/
set_option autoImplicit false
namespace PySOM.Disp
open PySOM

/-! ## The array of arguments -/

theorem makes_values {args : List Arr.Val} (hsom : ∀ x ∈ args, x.isSom = true) (h : ¬ Arr.Spec.NilMixed args) : Spec.Makes [.values args] args := by
  have := Arr.C08_arrays_refine_lists_partial [.values args] (by intro op ho; cases List.mem_singleton.mp ho; exact hsom) ⟨h, trivial⟩
  unfold Spec.Makes
  rw [show (Arr.Heap.run {} [.values args]).1.abs = _ from congrArg Prod.fst this]
  rfl

theorem fill_compat (args : List Arr.Val) : ∀ (n : Nat), n ≤ args.length →
    Arr.Spec.Compatible [List.replicate n Arr.Val.nil ++ args.drop n] (fillDown (args.take n).reverse n) ∧
    (Arr.Spec.run [List.replicate n Arr.Val.nil ++ args.drop n] (fillDown (args.take n).reverse n)).1 = [args] := by
  intro n
  induction n with
  | zero => intro _; exact ⟨trivial, rfl⟩
  | succ n ih =>
    intro hn
    obtain ⟨h1, h2⟩ := ih (by omega)
    have htake : (args.take (n + 1)).reverse = args[n] :: (args.take n).reverse := by
      rw [List.take_succ_eq_append_getElem (by omega)]; simp
    have hset : (List.replicate (n + 1) Arr.Val.nil ++ args.drop (n + 1)).set n args[n] = List.replicate n Arr.Val.nil ++ args.drop n := by
      rw [List.replicate_succ', List.append_assoc, List.set_append_right _ _ (by simp)]
      simp
    have hstep : (Arr.Spec.step [List.replicate (n + 1) Arr.Val.nil ++ args.drop (n + 1)] (.put 0 (n + 1 : Nat) args[n])).1 =
        [List.replicate n Arr.Val.nil ++ args.drop n] := by
      simp only [Arr.Spec.step, List.getElem?_cons_zero]
      rw [if_pos (by simp; omega)]
      show [_] = _
      rw [show ((((n + 1 : Nat) : Int) - 1).toNat) = n by omega, hset]
    rw [htake]
    show (¬ _ ∧ Arr.Spec.Compatible _ _) ∧ _
    refine ⟨⟨?_, ?_⟩, ?_⟩
    · rintro ⟨xs, hx, hr⟩
      cases hx
      rcases hr with ⟨h, _⟩ | ⟨h, _⟩ <;> simp [List.replicate_succ, Arr.Spec.isDbl, Arr.Spec.isBool] at h
    · rw [hstep]; exact h1
    · simp only [fillDown, Arr.Spec.run, hstep]
      exact h2

theorem makes_fill {args : List Arr.Val} (hsom : ∀ x ∈ args, x.isSom = true) :
    Spec.Makes (.new args.length :: fillDown args.reverse args.length) args := by
  have hc := fill_compat args args.length (Nat.le_refl _)
  rw [List.take_length, List.drop_length, List.append_nil] at hc
  have hv : ∀ (stack : List Arr.Val) (n : Nat), (∀ x ∈ stack, x.isSom = true) → ∀ op ∈ fillDown stack n, Arr.Spec.Valid op := by
    intro stack n
    induction n generalizing stack with
    | zero => intro _ op h; simp only [fillDown, List.not_mem_nil] at h
    | succ n ih =>
      intro hs op h
      cases stack with
      | nil => simp only [fillDown, List.not_mem_nil] at h
      | cons v stack =>
        simp only [fillDown] at h
        rcases List.mem_cons.mp h with rfl | h
        · exact ⟨by omega, hs v List.mem_cons_self⟩
        · exact ih stack (fun x hx => hs x (List.mem_cons_of_mem _ hx)) op h
  have := Arr.C08_arrays_refine_lists_partial (.new args.length :: fillDown args.reverse args.length) (by
      intro op ho
      rcases List.mem_cons.mp ho with rfl | ho
      · exact Int.natCast_nonneg _
      · exact hv _ _ (fun x hx => hsom x (List.mem_reverse.mp hx)) op ho)
    ⟨fun h => h, by
      show Arr.Spec.Compatible [List.replicate (args.length : Int).toNat Arr.Val.nil] _
      rw [Int.toNat_natCast]; exact hc.1⟩
  unfold Spec.Makes
  rw [show (Arr.Heap.run {} _).1.abs = _ from congrArg Prod.fst this]
  show (Arr.Spec.run [List.replicate (args.length : Int).toNat Arr.Val.nil] _).1[0]? = _
  rw [Int.toNat_natCast, hc.2]
  rfl

/-- **C45**: the bytecode interpreter's `doesNotUnderstand:` of a message with any number of arguments on the operand stack passes an array
of exactly these arguments, in order. -/
theorem C45_dnu_stack_arguments (o : Oid) (s : Sel) (args : List Arr.Val) (hsom : ∀ x ∈ args, x.isSom = true) :
    ∃ ops, sendDnuN o s args.length args.reverse = .dnu o s ops ∧ Spec.Makes ops args := ⟨_, rfl, makes_fill hsom⟩

/-- **C45** (partial): the other sends of `doesNotUnderstand:` pass an array of exactly the arguments, unless these are nil mixed with
exactly one of the kinds Integer, Double and Boolean. -/
theorem C45_dnu_arguments_partial (o : Oid) (s : Sel) (args : List Arr.Val) (hsom : ∀ x ∈ args, x.isSom = true) :
    (∃ ops, sendDnu o s args = .dnu o s ops ∧ Spec.Makes ops args) ↔ ¬ Arr.Spec.NilMixed args := by
  constructor
  · rintro ⟨ops, h, hm⟩
    cases h
    unfold Spec.Makes at hm
    apply (Arr.C12_from_values_partial args hsom).mp
    cases hf : Arr.fromValues args with
    | error e =>
      simp only [Arr.Heap.run, Arr.Heap.step, hf] at hm
      cases hm
    | ok st =>
      refine ⟨st, rfl, ?_⟩
      simp only [Arr.Heap.run, Arr.Heap.step, hf] at hm
      cases hm
      rfl
  · exact fun h => ⟨_, rfl, makes_values hsom h⟩

/-- **C45 is violated**: the arguments of `x foo: nil bar: 3`, which `x` does not understand, cannot be passed on (AST interpreter). -/
theorem C45_violated_dnu_arguments (o : Oid) (s : Sel) : ¬ ∃ ops, sendDnu o s [.nil, .int 3] = .dnu o s ops ∧ Spec.Makes ops [.nil, .int 3] := by
  rintro ⟨ops, h, hm⟩
  cases h
  exact absurd hm (by unfold Spec.Makes; decide)

/-! ## Layouts -/

section
variable {cls : Oid → Cid} {look : Cid → Sel → Option Meth} {s : Sel}

/-- `w'` has all layouts of `w`. -/
def Ext (w w' : World) : Prop := w.layouts.length ≤ w'.layouts.length ∧ ∀ l, l < w.layouts.length → w'.cls l = w.cls l

theorem ext_sync (w : World) (o : Oid) : Ext w (w.sync o) := ⟨Nat.le_refl _, fun _ _ => rfl⟩

theorem ext_relayout (w : World) (o : Oid) : Ext w (w.relayout o) := by
  refine ⟨by simp [World.relayout], ?_⟩
  intro l hl
  simp only [World.relayout, World.cls]
  rw [List.getElem?_append_left (by simpa using hl), List.getElem?_modify, List.getElem?_eq_getElem hl]
  by_cases e : w.cur (w.cls (w.objs o)) = l
  · simp only [World.cls] at e
    simp [e]
  · simp only [World.cls] at e
    simp [e]

theorem ok_sync {w : World} (h : Spec.OK cls w) (o : Oid) : Spec.OK cls (w.sync o) := by
  intro o'
  obtain ⟨h1, h2, h3, h4⟩ := h o'
  refine ⟨?_, ?_, h3, h4⟩
  · simp only [World.sync, upd]
    split
    · rename_i e; subst e; rw [h2]; exact h3
    · exact h1
  · show w.cls (upd w.objs o (w.cur (w.cls (w.objs o))) o') = cls o'
    simp only [upd]
    split
    · rename_i e; subst e; rw [h2]; exact h4
    · exact h2

theorem ok_relayout {w : World} (h : Spec.OK cls w) (o : Oid) : Spec.OK cls (w.relayout o) := by
  have he := ext_relayout w o
  have hn : (w.relayout o).cls w.layouts.length = w.cls (w.objs o) := by
    simp only [World.relayout, World.cls]
    rw [List.getElem?_append_right (by simp)]
    simp
  have hlen : w.layouts.length < (w.relayout o).layouts.length := by simp [World.relayout]
  intro o'
  obtain ⟨h1, h2, h3, h4⟩ := h o'
  have ho := (h o).2.1
  refine ⟨?_, ?_, ?_, ?_⟩
  · show upd w.objs o w.layouts.length o' < _
    simp only [upd]
    split
    · exact hlen
    · exact Nat.lt_trans h1 hlen
  · show (w.relayout o).cls (upd w.objs o w.layouts.length o') = _
    simp only [upd]
    split
    · rename_i e; subst e; rw [hn]; exact ho
    · rw [he.2 _ h1]; exact h2
  · show upd w.cur (w.cls (w.objs o)) w.layouts.length (cls o') < _
    simp only [upd]
    split
    · exact hlen
    · exact Nat.lt_trans h3 hlen
  · show (w.relayout o).cls (upd w.cur (w.cls (w.objs o)) w.layouts.length (cls o')) = _
    simp only [upd]
    split
    · rename_i e; rw [hn, e]
    · rw [he.2 _ h3]; exact h4

/-! ## Caches -/

/-- What an entry says is true of all layouts. -/
def EntryOK (look : Cid → Sel → Option Meth) (s : Sel) (w : World) (e : Entry) : Prop :=
  ∃ l, e.layout = some l ∧ l < w.layouts.length ∧
    ((∃ m, e.node = .cached m ∧ look (w.cls l) s = some m) ∨ (e.node = .dnu ∧ look (w.cls l) s = none))

/-- A chain of cached entries, or the generic node. -/
def SiteOK (look : Cid → Sel → Option Meth) (s : Sel) (w : World) (site : Site) : Prop :=
  (∀ e ∈ site, EntryOK look s w e) ∨ site = [⟨none, .generic⟩]

theorem EntryOK.ext {w w' : World} {e : Entry} (he : Ext w w') (h : EntryOK look s w e) : EntryOK look s w' e := by
  obtain ⟨l, h1, h2, h3⟩ := h
  exact ⟨l, h1, Nat.lt_of_lt_of_le h2 he.1, by rw [he.2 l h2]; exact h3⟩

theorem SiteOK.ext {w w' : World} {site : Site} (he : Ext w w') (h : SiteOK look s w site) : SiteOK look s w' site := by
  rcases h with h | h
  · exact .inl fun e h' => (h e h').ext he
  · exact .inr h

theorem dropOld_ok {w w' : World} {site : Site} (h : ∀ e ∈ site, EntryOK look s w e) :
    ∃ r, dropOld w' site = .ok r ∧ ∀ e ∈ r, EntryOK look s w e := by
  induction site with
  | nil => exact ⟨[], rfl, h⟩
  | cons e es ih =>
    obtain ⟨r, h1, h2⟩ := ih fun x hx => h x (List.mem_cons_of_mem _ hx)
    obtain ⟨l, hl, _⟩ := h e List.mem_cons_self
    refine ⟨if w'.latest l then e :: r else r, by simp only [dropOld, hl, h1]; rfl, ?_⟩
    intro x hx
    split at hx
    · rcases List.mem_cons.mp hx with rfl | hx
      · exact h _ List.mem_cons_self
      · exact h2 x hx
    · exact h2 x hx

/-- The node says what is true for a class. -/
def NodeOK (look : Cid → Sel → Option Meth) (s : Sel) (c : Cid) : Node → Prop
  | .cached m => look c s = some m
  | .dnu => look c s = none
  | .generic => True

theorem find_ok {w : World} {site : Site} (h : ∀ e ∈ site, EntryOK look s w e) {l : Lid} {e : Entry}
    (hf : site.find? (fun e => e.layout == some l) = some e) : NodeOK look s (w.cls l) e.node := by
  obtain ⟨l', h1, _, h3⟩ := h e (List.mem_of_find?_eq_some hf)
  have : e.layout = some l := beq_iff_eq.mp (List.find?_some (p := fun e : Entry => e.layout == some l) hf)
  rw [h1] at this; cases this
  rcases h3 with ⟨m, hm, hl⟩ | ⟨hm, hl⟩ <;> rw [hm] <;> exact hl

/-- The call a right node makes is the right one. -/
theorem dispatch_ok {w : World} {n : Node} {o : Oid} {args : List Arr.Val} (hsom : ∀ x ∈ args, x.isSom = true) (hmix : ¬ Arr.Spec.NilMixed args)
    (hc : w.cls (w.objs o) = cls o) (hn : NodeOK look s (cls o) n) : Spec.IsSend look (cls o) s o args (dispatch look s w n o args) := by
  unfold Spec.IsSend
  cases n with
  | cached m => simp only [NodeOK] at hn; simp only [hn, dispatch]
  | dnu => simp only [NodeOK] at hn; simp only [hn, dispatch]; exact ⟨_, rfl, makes_values hsom hmix⟩
  | generic =>
    simp only [dispatch, hc]
    cases look (cls o) s with
    | some m => rfl
    | none => exact ⟨_, rfl, makes_values hsom hmix⟩

/-! ## AST -/

theorem astLookup_ok {w : World} {site : Site} (h : SiteOK look s w site) {l : Lid} {n : Node} (hl : astLookup site l = some n) :
    NodeOK look s (w.cls l) n := by
  rcases h with h | rfl
  · unfold astLookup at hl
    cases hf : site.find? (fun e => e.layout == some l) with
    | some e => simp only [hf] at hl; cases hl; exact find_ok h hf
    | none =>
      simp only [hf] at hl
      cases site with
      | nil => cases hl
      | cons e es =>
        obtain ⟨l', h1, _⟩ := h e List.mem_cons_self
        obtain ⟨lay, nd⟩ := e
        cases h1
        cases hl
  · cases hl; trivial

theorem astLookup_none {w : World} {site : Site} (h : SiteOK look s w site) {l : Lid} (hl : astLookup site l = none) :
    ∀ e ∈ site, EntryOK look s w e := by
  rcases h with h | rfl
  · exact h
  · cases hl

theorem astExtend_ok {w : World} {site : Site} (h : ∀ e ∈ site, EntryOK look s w e) {l : Lid} (hl : l < w.layouts.length) :
    ∃ n site', astExtend look s w site l = .ok (n, site') ∧ NodeOK look s (w.cls l) n ∧ SiteOK look s w site' := by
  obtain ⟨r, h1, h2⟩ := dropOld_ok (w' := w) h
  unfold astExtend
  rw [h1]
  simp only [bind, Except.bind]
  split
  · cases hk : look (w.cls l) s with
    | some m =>
      refine ⟨_, _, rfl, hk, .inl ?_⟩
      intro e he
      rcases List.mem_cons.mp he with rfl | he
      · exact ⟨l, rfl, hl, .inl ⟨m, rfl, hk⟩⟩
      · exact h2 e he
    | none =>
      refine ⟨_, _, rfl, hk, .inl ?_⟩
      intro e he
      rcases List.mem_cons.mp he with rfl | he
      · exact ⟨l, rfl, hl, .inr ⟨rfl, hk⟩⟩
      · exact h2 e he
  · exact ⟨_, _, rfl, trivial, .inr rfl⟩

theorem sync_objs (w : World) (o : Oid) : (w.sync o).objs o = w.cur (w.cls (w.objs o)) := by simp [World.sync, upd]

theorem astSend_ok {w : World} {site : Site} (hw : Spec.OK cls w) (h : SiteOK look s w site) (o : Oid) (args : List Arr.Val) :
    ∃ c w' site', astSend look s w site o args = .ok (c, w', site') ∧ Spec.OK cls w' ∧ SiteOK look s w' site' ∧
      ((∀ x ∈ args, x.isSom = true) → ¬ Arr.Spec.NilMixed args → Spec.IsSend look (cls o) s o args c) := by
  have hc := (hw o).2.1
  unfold astSend
  cases hl : astLookup site (w.objs o) with
  | some n => exact ⟨_, _, _, rfl, hw, h, fun h1 h2 => dispatch_ok h1 h2 hc (hc ▸ astLookup_ok h hl)⟩
  | none =>
    have hs := astLookup_none h hl
    unfold astSpecialize
    by_cases hlat : w.latest (w.objs o) = true
    · obtain ⟨n, site', he, hn, hs'⟩ := astExtend_ok hs (hw o).1
      rw [if_pos hlat, he]
      exact ⟨_, _, _, rfl, hw, hs', fun h1 h2 => dispatch_ok h1 h2 hc (hc ▸ hn)⟩
    · rw [if_neg hlat]
      have hw' := ok_sync hw o
      have hc' := (hw' o).2.1
      have h' := h.ext (ext_sync w o)
      cases hl' : astLookup site ((w.sync o).objs o) with
      | some n =>
        simp only [hl']
        exact ⟨_, _, _, rfl, hw', h', fun h1 h2 => dispatch_ok h1 h2 hc' (hc' ▸ astLookup_ok h' hl')⟩
      | none =>
        obtain ⟨n, site', he, hn, hs'⟩ := astExtend_ok (astLookup_none h' hl') (hw' o).1
        simp only [hl', he]
        exact ⟨_, _, _, rfl, hw', hs', fun h1 h2 => dispatch_ok h1 h2 hc' (hc' ▸ hn)⟩

/-- **C37**, AST interpreter: in every history of a call site, whatever objects were receivers and however their layouts changed in
between, no send fails in the caching machinery, and the call made is the one ordinary lookup prescribes.  (The restriction on the
arguments concerns only messages that are not understood, see C45.) -/
theorem C37_ast_cache_unobservable (w0 : World) (h0 : Spec.OK cls w0) (es : List Ev) :
    ∃ st, run (astSend look s) (w0, []) es = .ok st ∧ ∀ o args, ∃ c w' site', astSend look s st.1 st.2 o args = .ok (c, w', site') ∧
      ((∀ x ∈ args, x.isSom = true) → ¬ Arr.Spec.NilMixed args → Spec.IsSend look (cls o) s o args c) := by
  have gen : ∀ (es : List Ev) (w : World) (site : Site), Spec.OK cls w → SiteOK look s w site →
      ∃ st, run (astSend look s) (w, site) es = .ok st ∧ Spec.OK cls st.1 ∧ SiteOK look s st.1 st.2 := by
    intro es
    induction es with
    | nil => exact fun w site hw h => ⟨_, rfl, hw, h⟩
    | cons e es ih =>
      intro w site hw h
      cases e with
      | send o args =>
        obtain ⟨c, w', site', he, hw', hs', _⟩ := astSend_ok hw h o args
        simp only [run, step, he, bind, Except.bind]
        exact ih w' site' hw' hs'
      | relayout o => exact ih _ _ (ok_relayout hw o) (h.ext (ext_relayout w o))
      | sync o => exact ih _ _ (ok_sync hw o) (h.ext (ext_sync w o))
  obtain ⟨st, h1, h2, h3⟩ := gen es w0 [] h0 (.inl fun e he => by cases he)
  refine ⟨st, h1, fun o args => ?_⟩
  obtain ⟨c, w', site', he, _, _, hc⟩ := astSend_ok h2 h3 o args
  exact ⟨c, w', site', he, hc⟩

/-! ## Bytecode -/

theorem bcLookup_ok {w : World} {site : Site} (h : SiteOK look s w site) {l : Lid} (hl : l < w.layouts.length) :
    NodeOK look s (w.cls l) (bcLookup look s w site l).1 ∧ SiteOK look s w (bcLookup look s w site l).2 := by
  rcases h with h | rfl
  · unfold bcLookup
    cases hf : site.find? (fun e => e.layout == some l) with
    | some e => exact ⟨find_ok h hf, .inl h⟩
    | none =>
      have key : ∀ x : Node × Site, x = (match look (w.cls l) s with | some m => (.cached m, ⟨some l, .cached m⟩ :: site) | none => (.generic, [⟨none, .generic⟩])) →
          NodeOK look s (w.cls l) x.1 ∧ SiteOK look s w x.2 := by
        rintro x rfl
        cases hk : look (w.cls l) s with
        | some m =>
          refine ⟨hk, .inl ?_⟩
          intro e he
          rcases List.mem_cons.mp he with rfl | he
          · exact ⟨l, rfl, hl, .inl ⟨m, rfl, hk⟩⟩
          · exact h e he
        | none => exact ⟨trivial, .inr rfl⟩
      cases site with
      | nil => exact key _ rfl
      | cons e es =>
        obtain ⟨l', h1, _⟩ := h e List.mem_cons_self
        obtain ⟨lay, nd⟩ := e
        cases h1
        exact key _ rfl
  · exact ⟨trivial, .inr rfl⟩

/-- A node of the bytecode interpreter. -/
def notDnu : Node → Prop
  | .dnu => False
  | _ => True

theorem bcLookup_notDnu {w : World} {site : Site} (h : ∀ e ∈ site, notDnu e.node) (l : Lid) :
    notDnu (bcLookup look s w site l).1 ∧ ∀ e ∈ (bcLookup look s w site l).2, notDnu e.node := by
  unfold bcLookup
  split
  · exact ⟨h _ (List.mem_of_find?_eq_some (by assumption)), h⟩
  · split
    · rename_i n hh
      exact ⟨h ⟨none, n⟩ (List.mem_of_mem_head? hh), h⟩
    · dsimp only
      split
      · split
        · refine ⟨trivial, fun e he => ?_⟩
          rcases List.mem_cons.mp he with rfl | he
          · exact trivial
          · exact h e he
        · exact ⟨trivial, fun e he => by rw [List.mem_singleton.mp he]; trivial⟩
      · exact ⟨trivial, fun e he => by rw [List.mem_singleton.mp he]; trivial⟩

theorem dropOld_sub {w : World} : ∀ {site r : Site}, dropOld w site = .ok r → ∀ e ∈ r, e ∈ site := by
  intro site
  induction site with
  | nil => intro r h e he; cases h; exact he
  | cons x xs ih =>
    intro r h e he
    simp only [dropOld] at h
    split at h
    · cases h
    · cases hd : dropOld w xs with
      | error _ => rw [hd] at h; cases h
      | ok r' =>
        rw [hd] at h
        simp only [bind, Except.bind, Except.ok.injEq] at h
        subst h
        split at he
        · rcases List.mem_cons.mp he with rfl | he
          · exact List.mem_cons_self
          · exact List.mem_cons_of_mem _ (ih hd e he)
        · exact List.mem_cons_of_mem _ (ih hd e he)

theorem bcDispatch_ok {w : World} {n : Node} {o : Oid} {args : List Arr.Val} (hc : w.cls (w.objs o) = cls o) (hn : NodeOK look s (cls o) n)
    (hd : notDnu n) : ∃ c, (if args.length ≤ 2 then .ok (dispatch look s w n o args) else dispatchN look s w n o args : Except Err Call) = .ok c ∧
      ((∀ x ∈ args, x.isSom = true) → (args.length ≤ 2 → ¬ Arr.Spec.NilMixed args) → Spec.IsSend look (cls o) s o args c) := by
  by_cases hl : args.length ≤ 2
  · rw [if_pos hl]
    exact ⟨_, rfl, fun h1 h2 => dispatch_ok h1 (h2 hl) hc hn⟩
  · rw [if_neg hl]
    cases n with
    | cached m =>
      simp only [NodeOK] at hn
      exact ⟨_, rfl, fun _ _ => by simp only [Spec.IsSend, hn]⟩
    | dnu => exact hd.elim
    | generic =>
      simp only [dispatchN, hc, Spec.IsSend]
      cases look (cls o) s with
      | some m => exact ⟨_, rfl, fun _ _ => rfl⟩
      | none => exact ⟨_, rfl, fun h1 _ => ⟨_, rfl, makes_fill h1⟩⟩

/-- One send of the bytecode interpreter. -/
theorem bcSend_ok {w : World} {site : Site} (hw : Spec.OK cls w) (h : SiteOK look s w site) (hd : ∀ e ∈ site, notDnu e.node) (o : Oid) (args : List Arr.Val) :
    (∃ c w' site', bcSend look s w site o args = .ok (c, w', site') ∧ Spec.OK cls w' ∧ SiteOK look s w' site' ∧ (∀ e ∈ site', notDnu e.node) ∧
      ((∀ x ∈ args, x.isSom = true) → (args.length ≤ 2 → ¬ Arr.Spec.NilMixed args) → Spec.IsSend look (cls o) s o args c)) ∨
    (bcSend look s w site o args = .error .attribute ∧ w.latest (w.objs o) = false ∧
      (site = [⟨none, .generic⟩] ∨ look (cls o) s = none)) := by
  have hc := (hw o).2.1
  obtain ⟨hn, hs⟩ := bcLookup_ok (look := look) (s := s) h (hw o).1
  obtain ⟨hd1, hd2⟩ := bcLookup_notDnu (look := look) (s := s) (w := w) hd (w.objs o)
  rw [hc] at hn
  by_cases hlat : w.latest (w.objs o) = true
  · left
    obtain ⟨c, h1, h2⟩ := bcDispatch_ok (args := args) hc hn hd1
    refine ⟨c, w, _, ?_, hw, hs, hd2, h2⟩
    unfold bcSend
    dsimp only
    rw [if_pos hlat]
    by_cases hl : args.length ≤ 2
    · rw [if_pos hl] at h1 ⊢
      cases h1; rfl
    · rw [if_neg hl] at h1 ⊢
      rw [h1]; rfl
  · have hlat' : w.latest (w.objs o) = false := by cases hx : w.latest (w.objs o) <;> simp_all
    have hw' := ok_sync hw o
    rcases hs with hs | hs
    · left
      obtain ⟨r, hr, hr2⟩ := dropOld_ok (w' := w.sync o) hs
      obtain ⟨c, h1, h2⟩ := bcDispatch_ok (w := w.sync o) (args := args) (hw' o).2.1 hn hd1
      refine ⟨c, w.sync o, r, ?_, hw', .inl fun e he => (hr2 e he).ext (ext_sync w o), fun e he => hd2 e (dropOld_sub hr e he), h2⟩
      unfold bcSend
      dsimp only
      rw [if_neg hlat, hr]
      simp only [bind, Except.bind]
      by_cases hl : args.length ≤ 2
      · rw [if_pos hl] at h1 ⊢
        cases h1; rfl
      · rw [if_neg hl] at h1 ⊢
        rw [h1]
    · right
      refine ⟨?_, hlat', ?_⟩
      · unfold bcSend
        dsimp only
        rw [if_neg hlat, hs]
        rfl
      · rcases h with h | h
        · right
          cases hk : look (cls o) s with
          | none => rfl
          | some m =>
            exfalso
            have hne : ∀ e ∈ (bcLookup look s w site (w.objs o)).2, e.layout ≠ none := by
              unfold bcLookup
              cases hf : site.find? (fun e => e.layout == some (w.objs o)) with
              | some e => intro e he hx; obtain ⟨l, hl, _⟩ := h e he; rw [hl] at hx; cases hx
              | none =>
                rw [hc, hk]
                have hc : ∀ e ∈ (⟨some (w.objs o), .cached m⟩ :: site : Site), e.layout ≠ none := by
                  intro e he hx
                  rcases List.mem_cons.mp he with rfl | he
                  · cases hx
                  · obtain ⟨l, hl, _⟩ := h e he; rw [hl] at hx; cases hx
                cases site with
                | nil => exact hc
                | cons e es =>
                  obtain ⟨l', h1, _⟩ := h e List.mem_cons_self
                  obtain ⟨lay, nd⟩ := e
                  cases h1
                  exact hc
            rw [hs] at hne
            exact hne _ List.mem_cons_self rfl
        · exact .inl h

/-- **C37**, bytecode interpreter (partial): in every history of a call site, a send makes the call that ordinary lookup prescribes.
What is missing: after a message was not understood at this call site (now or before), a receiver whose layout is not the latest of its class
makes the interpreter itself fail, see `C37_violated_bytecode`. -/
theorem C37_bytecode_cache_partial (w0 : World) (h0 : Spec.OK cls w0) (es : List Ev) (st : World × Site) (hr : run (bcSend look s) (w0, []) es = .ok st)
    (o : Oid) (args : List Arr.Val) :
    (∃ c w' site', bcSend look s st.1 st.2 o args = .ok (c, w', site') ∧
      ((∀ x ∈ args, x.isSom = true) → (args.length ≤ 2 → ¬ Arr.Spec.NilMixed args) → Spec.IsSend look (cls o) s o args c)) ∨
    (bcSend look s st.1 st.2 o args = .error .attribute ∧ st.1.latest (st.1.objs o) = false ∧ (st.2 = [⟨none, .generic⟩] ∨ look (cls o) s = none)) := by
  have gen : ∀ (es : List Ev) (w : World) (site : Site) (st : World × Site), Spec.OK cls w → SiteOK look s w site → (∀ e ∈ site, notDnu e.node) →
      run (bcSend look s) (w, site) es = .ok st → Spec.OK cls st.1 ∧ SiteOK look s st.1 st.2 ∧ ∀ e ∈ st.2, notDnu e.node := by
    intro es
    induction es with
    | nil => intro w site st hw h hd hr; cases hr; exact ⟨hw, h, hd⟩
    | cons e es ih =>
      intro w site st hw h hd hr
      cases e with
      | send o args =>
        rcases bcSend_ok hw h hd o args with ⟨c, w', site', he, hw', hs', hd', _⟩ | ⟨he, _⟩
        · simp only [run, step, he, bind, Except.bind] at hr
          exact ih w' site' st hw' hs' hd' hr
        · simp only [run, step, he, bind, Except.bind] at hr
          cases hr
      | relayout o => exact ih _ _ _ (ok_relayout hw o) (h.ext (ext_relayout w o)) hd hr
      | sync o => exact ih _ _ _ (ok_sync hw o) (h.ext (ext_sync w o)) hd hr
  obtain ⟨h1, h2, h3⟩ := gen es w0 [] st h0 (.inl fun e he => by cases he) (fun e he => by cases he) hr
  rcases bcSend_ok h1 h2 h3 o args with ⟨c, w', site', he, _, _, _, hc⟩ | h
  · exact .inl ⟨c, w', site', he, hc⟩
  · exact .inr h

end

/-! ## Cases -/

/-- Class 0 with two instances; it has method 7 for selector 1 and nothing for selector 2. -/
def exWorld : World := ⟨[⟨0, true⟩], fun _ => 0, fun _ => 0⟩
def exLook : Cid → Sel → Option Meth := fun _ s => if s = 1 then some 7 else none

theorem exWorld_ok : Spec.OK (fun _ => 0) exWorld := fun _ => ⟨Nat.zero_lt_one, rfl, Nat.zero_lt_one, rfl⟩

/-- **C37 is violated** in the bytecode interpreter: object 0 does not understand a message; then a field of object 1 changes the layout of
their class; then object 0 is sent the message again, and `None.is_latest` is an AttributeError.  The AST interpreter sends
`doesNotUnderstand:` again. -/
theorem C37_violated_bytecode :
    (match run (bcSend exLook 2) (exWorld, []) [.send 0 [], .relayout 1, .send 0 []] with | .ok _ => none | .error e => some e) = some .attribute ∧
    (match run (astSend exLook 2) (exWorld, []) [.send 0 [], .relayout 1] with
      | .ok st => (match astSend exLook 2 st.1 st.2 0 [] with | .ok (c, _, _) => some c | .error _ => none)
      | .error _ => none) = some (.dnu 0 2 [.values []]) := by
  constructor <;> decide

/-- A history in which the cache of the bytecode interpreter is used with an outdated layout. -/
example : (match run (bcSend exLook 1) (exWorld, []) [.send 0 [], .relayout 1, .send 1 [], .send 0 [], .send 0 []] with
    | .ok st => st.2.length
    | .error _ => 0) = 1 := by decide

/-! ## perform: -/

section
variable {cls : Oid → Cid} {look : Cid → Sel → Option Meth} {s : Sel}

/-- **C45** (partial): `perform:` and `perform:withArguments:` (up to two arguments) make the call a direct send makes, if there is a method. -/
theorem C45_perform_partial (w : World) (h : Spec.OK cls w) (o : Oid) (args : List Arr.Val) (hu : (look (cls o) s).isSome) :
    (∃ c, perform look s w o = .ok c ∧ Spec.IsSend look (cls o) s o [] c) ∧
    (args.length ≤ 2 → ∃ c, performWithArguments look s w o args = .ok c ∧ Spec.IsSend look (cls o) s o args c) ∧
    (performInSuperclass look s (cls o) o = perform look s w o) := by
  have hc := (h o).2.1
  cases hk : look (cls o) s with
  | none => rw [hk] at hu; cases hu
  | some m =>
    refine ⟨?_, ?_, ?_⟩
    · exact ⟨.invoke m o [], by simp only [perform, hc, hk], by simp only [Spec.IsSend, hk]⟩
    · intro hl
      refine ⟨.invoke m o args, ?_, by simp only [Spec.IsSend, hk]⟩
      match args, hl with
      | [], _ => simp [performWithArguments, hc, hk]
      | [a], _ => simp [performWithArguments, hc, hk]
      | [a, b], _ => simp [performWithArguments, hc, hk]
    · simp only [performInSuperclass, perform, hc]

/-- **C45 is violated**: `perform:` of a selector that is not understood fails instead of sending `doesNotUnderstand:arguments:`, and
`perform:withArguments:` is not implemented for more than two arguments. -/
theorem C45_violated_perform (w : World) (h : Spec.OK cls w) (o : Oid) :
    (look (cls o) s = none → perform look s w o = .error .attribute ∧ performWithArguments look s w o [] = .error .attribute) ∧
    (∀ args, 2 < args.length → performWithArguments look s w o args = .error .notImplemented) := by
  have hc := (h o).2.1
  constructor
  · intro hn
    exact ⟨by simp only [perform, hc, hn], by simp [performWithArguments, hc, hn]⟩
  · intro args hl
    simp only [performWithArguments]
    rw [if_neg (by omega), if_neg (by omega), if_neg (by omega)]

example : Spec.OK (fun _ => 0) exWorld ∧ (exLook 0 1).isSome := ⟨exWorld_ok, rfl⟩

/-- **C45** (partial), super sends: as long as the superclass has a method for the message, every execution of a super send, the first
as well as all later ones, makes the call of that method. -/
theorem C45_super_partial (c : Cid) (hu : (look c s).isSome) (es : List (Oid × List Arr.Val)) :
    ∃ cs, superRun (bcSuper look s c) none es = .ok cs ∧ superRun (astSuper look s c) none es = .ok cs ∧ cs.length = es.length ∧
      ∀ (i : Nat) o args, es[i]? = some (o, args) → ∃ call, cs[i]? = some call ∧ Spec.IsSend look c s o args call := by
  cases hk : look c s with
  | none => rw [hk] at hu; cases hu
  | some m =>
    suffices gen : ∀ cache : Option Meth, (cache = none ∨ cache = some m) →
        superRun (bcSuper look s c) cache es = .ok (es.map fun e => .invoke m e.1 e.2) ∧
        superRun (astSuper look s c) cache es = .ok (es.map fun e => .invoke m e.1 e.2) by
      refine ⟨_, (gen none (.inl rfl)).1, (gen none (.inl rfl)).2, by simp, ?_⟩
      intro i o args h
      exact ⟨.invoke m o args, by rw [List.getElem?_map, h]; rfl, by simp only [Spec.IsSend, hk]⟩
    intro cache hc
    induction es generalizing cache with
    | nil => exact ⟨rfl, rfl⟩
    | cons e es ih =>
      obtain ⟨o, args⟩ := e
      obtain ⟨h1, h2⟩ := ih (some m) (.inr rfl)
      rcases hc with rfl | rfl
      · exact ⟨by simp only [superRun, bcSuper, hk, bind, Except.bind, h1, List.map_cons],
          by simp only [superRun, astSuper, hk, bind, Except.bind, h2, List.map_cons]⟩
      · exact ⟨by simp only [superRun, bcSuper, bind, Except.bind, h1, List.map_cons],
          by simp only [superRun, astSuper, bind, Except.bind, h2, List.map_cons]⟩

/-- **C45 is violated**: a super send that is not understood fails in both interpreters. -/
theorem C45_violated_super (c : Cid) (h : look c s = none) (o : Oid) (args : List Arr.Val) :
    bcSuper look s c none o args = .error .attribute ∧ astSuper look s c none o args = .error .notImplemented := by
  simp only [bcSuper, astSuper, h, bind, Except.bind, and_self]

end
end PySOM.Disp

import Verif.Lemmas.BlockIds
import Verif.Lemmas.Machine2
/-!
# C66: a program has at most one outcome, and it is the same in both interpreters

The machine of `Model/Machine.lean` runs methods and blocks either as bytecode or as trees, with the shortcuts of that interpreter for `+ 1`, `- 1` and `f := f + 1`.
A call from a state (a message, a lookup in given classes, or the evaluation of a block) either has exactly one outcome, a value or an exception with the state then, or it does not end.

Full property: whatever the program and the state, both interpreters have the same outcome for the same call.  This does not hold: conditions that are no booleans are handled
differently (C33), the shortcuts raise Python errors for what is no number (C07), `a := b := e` and `^` in inlined blocks have other effects (C34, C36), and decrementing a large integer computes
something else (C03).  What is proved: for programs without these (`Compiled2.Ok`), if one of the interpreters ends a call with an outcome other than one of three Python errors, the other one
ends with the same outcome, or with one of these errors.
-/
set_option autoImplicit false
namespace PySOM.Mach
open PySOM BC

section
variable {ι X Y P : Type} {G : Prog ι X Y P} {KB KA : Incs X Y} {D N : Prop} {known : Sel → Bool} {alloc : LitTs → Val} {n : Nat} {p : Compiled2 ι}

/-- No block identity is used by two methods. -/
def Apart (p : Compiled2 ι) : Prop := ∀ i i' x, x ∈ (p.src i).body.sids → x ∈ (p.src i').body.sids → i = i'

theorem code_distinct {I F C : Prop} (hp : p.Ok I D F C N known alloc n) (ha : Apart p) : Distinct Meth.makes Meth.id p.code Code.makes := by
  have key : ∀ i, _ := fun i => (hp.code i).elim fun g hg => method_ids (hp.wf i) hg.1 hg.2
  exact distinct_of meth_collects (src := fun i => (p.src i).body.sids) (fun i => (key i).1) (fun i => (hp.wf i).ids) ha fun i => (key i).2

theorem tree_distinct {I F C : Prop} (hp : p.Ok I D F C N known alloc n) (ha : Apart p) : Distinct AMeth.makes AMeth.id p.tree AMethod.makes :=
  distinct_of ameth_collects (src := fun i => (p.src i).body.sids) (fun i => tree_ids (hp.tree i)) (fun i => (hp.wf i).ids) ha fun _ _ _ => trivial

/-- C66: the bytecode interpreter has at most one outcome for a call. -/
theorem C66_bytecode_outcome {I F C : Prop} (hp : p.Ok I D F C N known alloc n) (ha : Apart p) (c : Call) (w : St X Y) (r r' : Res Esc) (w1 w2 : St X Y)
    (h : G.bytecode KB p c w r w1) (h' : G.bytecode KB p c w r' w2) : r = r' ∧ w1 = w2 := by
  obtain ⟨k, h⟩ := h
  obtain ⟨k', h'⟩ := h'
  have := bcBehaviour_agree (G := G) (K := KB) (code_distinct hp ha) k k'
  exact Do.agree this.1 this.2 h h'

/-- C66: the AST interpreter has at most one outcome for a call. -/
theorem C66_trees_outcome {I F C : Prop} (hp : p.Ok I D F C N known alloc n) (ha : Apart p) (c : Call) (w : St X Y) (r r' : Res Esc) (w1 w2 : St X Y)
    (h : G.trees KA p c w r w1) (h' : G.trees KA p c w r' w2) : r = r' ∧ w1 = w2 := by
  obtain ⟨k, h⟩ := h
  obtain ⟨k', h'⟩ := h'
  have := astBehaviour_agree (G := G) (K := KA) (tree_distinct hp ha) k k'
  exact Do.agree this.1 this.2 h h'

/-- The bytecode with the shortcuts, and as the language says. -/
theorem bytecode_language (hB : KB.Ok G D) (k : Nat) (t : Target ι P) (w : St X Y) :
    (∀ r w', Do G (bcBehaviour p (G.system KB) k) t w r w' → Do G (bcBehaviour p (G.language D KB) k) t w r w' ∨ ∃ e, r = .exc e ∧ Quirk e) ∧
    ∀ r w', Do G (bcBehaviour p (G.language D KB) k) t w r w' → Do G (bcBehaviour p (G.system KB) k) t w r w' ∨ ∃ e w2, Quirk e ∧ Do G (bcBehaviour p (G.system KB) k) t w (.exc e) w2 := by
  have h := bcBehaviour_approx (system_approx hB (K1 := KB) fun _ => rfl) p k
  exact ⟨fun _ _ hd => hd.passes errors_quirk h.1 h.2, fun _ _ hd => hd.passes' errors_quirk h.1 h.2⟩

/-- The trees with the shortcuts, and the bytecode as the language says. -/
theorem trees_language (hp : p.Ok True D True False N known alloc n) (hA : KA.Ok G D) (hdec : ¬ D → KA.dec = KB.dec) (hN : N → ∀ c, G.look (G.chain c) escapedBlock = none) (k : Nat)
    (t : Target ι P) (w : St X Y) :
    (∀ r w', Do G (astBehaviour p (G.system KA) Esc.err k) t w r w' → Do G (bcBehaviour p (G.language D KB) k) t w r w' ∨ ∃ e, r = .exc e ∧ Quirk e) ∧
    ∀ r w', Do G (bcBehaviour p (G.language D KB) k) t w r w' →
      Do G (astBehaviour p (G.system KA) Esc.err k) t w r w' ∨ ∃ e w2, Quirk e ∧ Do G (astBehaviour p (G.system KA) Esc.err k) t w (.exc e) w2 := by
  have h1 := astBehaviour_approx (system_approx hA hdec) p Esc.err k
  have h2 := C34_program_partial hp (G.language D KB) Esc.err (language_approx errors_noBoolean) (language_std hN) (fun b => rfl) k
  have weak : ∀ e, NoBoolean Esc.err e → Quirk e := fun e h => h.imp (fun h => h) .inl
  have hm := fun i => (h1.1 i).trans ((h2.1 i).weaken weak)
  have hb := fun i => (h1.2 i).trans ((h2.2 i).weaken weak)
  exact ⟨fun _ _ hd => hd.passes errors_quirk hm hb, fun _ _ hd => hd.passes' errors_quirk hm hb⟩

/-- C66: what a call does in the AST interpreter, it does in the bytecode interpreter, up to the three errors. -/
theorem C66_trees_to_bytecode_partial (hp : p.Ok True D True False N known alloc n) (hB : KB.Ok G D) (hA : KA.Ok G D) (hdec : ¬ D → KA.dec = KB.dec)
    (hN : N → ∀ c, G.look (G.chain c) escapedBlock = none) (c : Call) (w : St X Y) (r : Res Esc) (w' : St X Y) (hr : ∀ e, r = .exc e → ¬ Quirk e) (h : G.trees KA p c w r w') :
    G.bytecode KB p c w r w' ∨ ∃ e w2, Quirk e ∧ G.bytecode KB p c w (.exc e) w2 := by
  obtain ⟨k, h⟩ := h
  rcases (trees_language hp hA hdec hN k _ _).1 r w' h with h1 | ⟨e, he, hq⟩
  · exact ((bytecode_language hB k _ _).2 r w' h1).imp (fun h => ⟨k, h⟩) fun ⟨e, w2, he, h⟩ => ⟨e, w2, he, k, h⟩
  · exact absurd hq (hr e he)

/-- C66: what a call does in the bytecode interpreter, it does in the AST interpreter, up to the three errors. -/
theorem C66_bytecode_to_trees_partial (hp : p.Ok True D True False N known alloc n) (hB : KB.Ok G D) (hA : KA.Ok G D) (hdec : ¬ D → KA.dec = KB.dec)
    (hN : N → ∀ c, G.look (G.chain c) escapedBlock = none) (c : Call) (w : St X Y) (r : Res Esc) (w' : St X Y) (hr : ∀ e, r = .exc e → ¬ Quirk e) (h : G.bytecode KB p c w r w') :
    G.trees KA p c w r w' ∨ ∃ e w2, Quirk e ∧ G.trees KA p c w (.exc e) w2 := by
  obtain ⟨k, h⟩ := h
  rcases (bytecode_language hB k _ _).1 r w' h with h1 | ⟨e, he, hq⟩
  · exact ((trees_language hp hA hdec hN k _ _).2 r w' h1).imp (fun h => ⟨k, h⟩) fun ⟨e, w2, he, h⟩ => ⟨e, w2, he, k, h⟩
  · exact absurd hq (hr e he)

/-- C66: if a call ends in both interpreters, and in neither with one of the three errors, then with the same outcome in the same state. -/
theorem C66_both_end_partial (hp : p.Ok True D True False N known alloc n) (ha : Apart p) (hB : KB.Ok G D) (hA : KA.Ok G D) (hdec : ¬ D → KA.dec = KB.dec)
    (hN : N → ∀ c, G.look (G.chain c) escapedBlock = none) (c : Call) (w : St X Y) (r r' : Res Esc) (w1 w2 : St X Y) (h : G.trees KA p c w r w1) (h' : G.bytecode KB p c w r' w2)
    (hr : ∀ e, r = .exc e → ¬ Quirk e) (hr' : ∀ e, r' = .exc e → ¬ Quirk e) : r = r' ∧ w1 = w2 := by
  rcases C66_trees_to_bytecode_partial hp hB hA hdec hN c w r w1 hr h with h1 | ⟨e, w3, he, h1⟩
  · exact C66_bytecode_outcome hp ha c w r r' w1 w2 h1 h'
  · exact absurd he (hr' e (C66_bytecode_outcome hp ha c w _ _ _ _ h' h1).1)

/-- C66: a call that raises none of the three errors has the same outcome, if any, in both interpreters. -/
theorem C66_same_partial (hp : p.Ok True D True False N known alloc n) (hB : KB.Ok G D) (hA : KA.Ok G D) (hdec : ¬ D → KA.dec = KB.dec)
    (hN : N → ∀ c, G.look (G.chain c) escapedBlock = none) (c : Call) (w : St X Y) (hqB : ∀ e w', Quirk e → ¬ G.bytecode KB p c w (.exc e) w')
    (hqA : ∀ e w', Quirk e → ¬ G.trees KA p c w (.exc e) w') (r : Res Esc) (w' : St X Y) : G.trees KA p c w r w' ↔ G.bytecode KB p c w r w' := by
  refine ⟨fun h => ?_, fun h => ?_⟩
  · exact (C66_trees_to_bytecode_partial hp hB hA hdec hN c w r w' (by rintro e rfl hq; exact hqA e w' hq h) h).resolve_right fun ⟨e, w2, he, h2⟩ => hqB e w2 he h2
  · exact (C66_bytecode_to_trees_partial hp hB hA hdec hN c w r w' (by rintro e rfl hq; exact hqB e w' hq h) h).resolve_right fun ⟨e, w2, he, h2⟩ => hqA e w2 he h2

end

/-! ## An example -/

/-- Primitives: adding and subtracting integers, and `value`. -/
inductive Small where
  | arith (f : Int → Int → Int) (vs : List Val)
  | value (vs : List Val)
  | answer (v : Val)

/-- Classes: 0 nil, 1 true, 2 false, 3 integers, 4 symbols, 5 blocks, 6 arrays, 7 the class of the program. -/
def smallProg : Prog Unit (List Val) Unit Small where
  chain := fun c => [c]
  table := fun c sel => match c with
    | 3 => if sel = "+".toList then some (.prim 0) else if sel = "-".toList then some (.prim 1) else none
    | 5 => if sel = "value".toList then some (.prim 2) else none
    | 7 => if sel = "down:".toList then some (.meth ()) else none
    | _ => none
  nilCls := 0
  truCls := 1
  flsCls := 2
  intCls := 3
  symCls := 4
  blkCls := fun _ => 5
  blkArgs := fun _ => 1
  arrCls := 6
  array := fun vs => vs
  catches := fun _ => true
  start := fun k vs => if k = 0 then .arith (· + ·) vs else if k = 1 then .arith (· - ·) vs else .value vs
  step := fun q sh => (sh, match q with
    | .arith f [.int a, .int b] => .done (.int (f a b))
    | .arith _ _ => .raise .type
    | .value vs => .call (.value vs) .answer
    | .answer v => .done v)

/-- Shortcuts for integers. -/
def smallIncs : Incs (List Val) Unit where
  inc := fun v sh => (sh, match v with | .int a => .ok (.int (a + 1)) | _ => .error .notImplemented)
  dec := fun v sh => (sh, match v with | .int a => .ok (.int (a - 1)) | _ => .error .notImplemented)
  incFld := fun a i sh => match sh.objs[a]? with
    | some (.inst c fs) => match fs[i]? with
      | some (.int x) => ({ sh with objs := sh.objs.set a (.inst c (fs.set i (.int (x + 1)))) }, .ok (.int (x + 1)))
      | _ => (sh, .error .notImplemented)
    | _ => (sh, .error .attribute)

theorem smallIncs_ok : smallIncs.Ok smallProg True where
  inc := fun v sh => by
    cases v with
    | int a => exact ⟨3, 3, 0, rfl, rfl, rfl⟩
    | _ => exact .inl rfl
  dec := fun _ v sh => by
    cases v with
    | int a => exact ⟨3, 3, 1, rfl, rfl, rfl⟩
    | _ => exact .inl rfl
  incFld := fun a i sh => by
    cases ho : sh.objs[a]? with
    | none => simp only [smallIncs, ho]; exact .inr (.inr rfl)
    | some o =>
      cases o with
      | inst c fs =>
        cases hf : fs[i]? with
        | none => simp only [smallIncs, ho, hf]; exact .inl rfl
        | some v =>
          cases v with
          | int x => simp only [smallIncs, ho, hf]; exact ⟨c, fs, .int x, sh, rfl, hf, rfl, ho, rfl⟩
          | _ => simp only [smallIncs, ho, hf]; exact .inl rfl
      | _ => simp only [smallIncs, ho]; exact .inr (.inr rfl)

theorem small_escaped (c : Nat) : smallProg.look (smallProg.chain c) escapedBlock = none := by
  have : smallProg.table c escapedBlock = none := by
    show (match c with | 3 => _ | 5 => _ | 7 => _ | _ => _) = none
    split <;> rfl
  simp only [Prog.look, show smallProg.chain c = [c] from rfl, List.findSome?, this, Option.map]

theorem downMethod_fair' : downMethod.body.fair True True True False True false := by
  simp [downMethod, Body.fair, Ex.fair, Exs.fair, SBlock.fair, Body.tidy, fuses]

theorem act_val {ι X Y P : Type} {G : Prog ι X Y P} {K : Incs X Y} {b : Behaviour ι (St X Y) Esc} {a : Act Nat} {w w' : St X Y} {v : Val} (h : G.world K b a w (.val v) w') :
    Src.act (G.world K b) a w (.val v) w' := .inl ⟨v, rfl, h⟩

theorem act_exc {ι X Y P : Type} {G : Prog ι X Y P} {K : Incs X Y} {b : Behaviour ι (St X Y) Esc} {a : Act Nat} {w w' : St X Y} {e : Esc} (h : G.world K b a w (.exc e) w') :
    Src.act (G.world K b) a w (.exc e) w' := .inr ⟨e, rfl, h⟩

/-- An object of the class of the program, and no frames. -/
def smallStart : St (List Val) Unit := ⟨⟨[.inst 7 []], fun _ => none, ()⟩, [], 0⟩

/-- All hypotheses are met by this program in this machine.  `down: false` sends `down: true`, there a block is evaluated by a primitive and returns from the method; in both
interpreters the answer is true, three frames were made and a block. -/
theorem small_run : ∃ p : Compiled2 Unit, p.src = (fun _ => downMethod) ∧ p.Ok True True True False True (fun _ => false) (fun _ => .nil) 5 ∧ Apart p ∧ smallIncs.Ok smallProg True ∧
    (∀ c, smallProg.look (smallProg.chain c) escapedBlock = none) ∧
    ∃ w', smallProg.trees smallIncs p (.send "down:".toList [.obj 0, .fls]) smallStart (.val .tru) w' ∧ w'.frames.length = 3 ∧ w'.sh.objs.length = 2 ∧
      (smallProg.bytecode smallIncs p (.send "down:".toList [.obj 0, .fls]) smallStart (.val .tru) w' ∨
        ∃ e w2, Quirk e ∧ smallProg.bytecode smallIncs p (.send "down:".toList [.obj 0, .fls]) smallStart (.exc e) w2) := by
  have hc := downMethod_compiles
  generalize hg : downMethod.compile (fun _ => false) 5 = r at hc
  cases r with
  | error e => cases hc
  | ok g =>
    generalize hC : assemble g = r at hc
    dsimp only at hc
    rw [hC] at hc
    cases r with
    | error e => cases hc
    | ok C =>
      let p : Compiled2 Unit := ⟨fun _ => downMethod, fun _ => C, fun _ => downTree⟩
      have hp : p.Ok True True True False True (fun _ => false) (fun _ => .nil) 5 :=
        ⟨fun _ => downMethod_wf, fun _ => (by decide : [11].Nodup), fun _ => downMethod_fair', fun _ => trivial, fun _ => ⟨g, hg, hC⟩, fun _ => downTree_ok⟩
      let b := astBehaviour p (smallProg.system smallIncs) Esc.err
      have hblk : ∀ (w : St (List Val) Unit) (f1 : Frame) (x : Nat × Frame), w.level 1 = some 1 → w.frames[1]? = some f1 → w.frameAt 0 = some x → f1.on = true → f1.locs 0 = .tru →
          (b 1).blk 2 w (.exc (.away 1 .tru)) w := by
        intro w f1 x h1 h2 h3 h4 h5
        have h6 : w.frameAt 1 = some (1, f1) := by simp only [St.frameAt, h1, Option.bind, h2, Option.map]
        have rd : ∀ i, smallProg.world smallIncs (b 0) (.rdVar false i 1) w (.val (f1.locs i)) w := fun i => by
          simp only [Prog.world, Prog.plan, St.rdVar, h6]
          exact ⟨rfl, rfl⟩
        refine ⟨(), .ast 2 [22] [] (.seq (.cons (.readLoc 1 12 1) (.cons (.retNL 1 (.readLoc 0 11 1)) .nil))), .here true _ (.head _), rfl, ?_⟩
        refine .inl (rel_bind_val (act_val (rd 1)) (rel_bind_val (act_val (rd 0)) (act_exc ?_)))
        show smallProg.world smallIncs (b 0) (.nlr 1 (f1.locs 0)) w _ w
        simp only [Prog.world, Prog.plan, h6, h3, h4, h5, if_true]
        exact ⟨trivial, trivial⟩
      have did : ∀ (k : Nat) (a : Act Nat) {w w' : St (List Val) Unit} {v : Val}, smallProg.world smallIncs (b k) a w (.val v) w' →
          Src.act (smallProg.world smallIncs (b k)) a w (.val v) w' := fun k a _ _ _ h => act_val h
      let f0 (on : Bool) : Frame := ⟨[.obj 0, .fls], fun j => if j = 0 then .fls else .nil, none, 7, on, true⟩
      let f1 (on : Bool) : Frame := ⟨[.obj 0, .tru], fun j => if j = 1 then .tru else if j = 0 then .tru else .nil, none, 7, on, true⟩
      let f2 : Frame := ⟨[.obj 1], fun _ => .nil, some 1, 7, false, false⟩
      let s0 : Shared (List Val) Unit := ⟨[.inst 7 []], fun _ => none, ()⟩
      let s1 : Shared (List Val) Unit := ⟨[.inst 7 [], .block 2 (some 1) 7], fun _ => none, ()⟩
      have hval : smallProg.world smallIncs (b 1) (.send "value".toList [.obj 1]) ⟨s1, [f0 true, f1 true], 1⟩ (.exc (.away 1 .tru)) ⟨s1, [f0 true, f1 true, f2], 1⟩ := by
        show Do smallProg (b 1) (.prim (.value [.obj 1])) ⟨s1, [f0 true, f1 true], 1⟩ _ _
        exact Do.callExc (Small.value [.obj 1]) _ s1 (.value [.obj 1]) Small.answer (.away 1 .tru) _ rfl (Do.blk 2 (some 1) 7 [.obj 1] ⟨s1, [f0 true, f1 true], 1⟩ _ _ (hblk _ _ _ rfl rfl rfl rfl rfl))
      let w0 : St (List Val) Unit := ⟨s0, [f0 true, ⟨[.obj 0, .tru], fun _ => .nil, none, 7, true, true⟩], 1⟩
      let w1 : St (List Val) Unit := ⟨s0, [f0 true, ⟨[.obj 0, .tru], fun j => if j = 0 then .tru else .nil, none, 7, true, true⟩], 1⟩
      let w2 : St (List Val) Unit := ⟨s0, [f0 true, f1 true], 1⟩
      let w3 : St (List Val) Unit := ⟨s1, [f0 true, f1 true], 1⟩
      have hmeth : (b 2).meth () w0 (.exc (.away 1 .tru)) ⟨s1, [f0 true, f1 true, f2], 1⟩ := by
        refine .inl (rel_bind_val (rel_bind_val (did 1 (.rdVar true 1 0) (w' := w0) ⟨rfl, rfl⟩) (rel_bind_val (did 1 (.wrVar false 0 0 .tru) (w' := w1) ⟨rfl, rfl⟩) ⟨rfl, rfl⟩))
          (rel_bind_exc (rel_bind_val (did 1 (.rdVar true 1 0) (w' := w1) ⟨rfl, rfl⟩) (rel_bind_val (rel_bind_val (did 1 (.rdVar false 0 0) (w' := w1) ⟨rfl, rfl⟩)
            (rel_bind_val (did 1 (.wrVar false 1 0 .tru) (w' := w2) ⟨rfl, rfl⟩) ⟨rfl, rfl⟩)) (rel_bind_exc (rel_bind_val (did 1 (.mkBlock true 2) (w' := w3) ⟨rfl, rfl⟩) ?_))))))
        exact act_exc hval
      have hsend : smallProg.world smallIncs (b 2) (.send "down:".toList [.obj 0, .tru]) ⟨s0, [f0 true], 0⟩ (.val .tru) ⟨s1, [f0 true, f1 false, f2], 0⟩ :=
        Do.meth (G := smallProg) (b := b 2) 7 () [.obj 0, .tru] ⟨s0, [f0 true], 0⟩ _ _ hmeth
      have hfirst : (b 3).meth () ⟨s0, [⟨[.obj 0, .fls], fun _ => .nil, none, 7, true, true⟩], 0⟩ (.ret .tru) ⟨s1, [f0 true, f1 false, f2], 0⟩ := by
        refine .inl (rel_bind_val (rel_bind_val (did 2 (.rdVar true 1 0) ⟨rfl, rfl⟩)
          (rel_bind_val (did 2 (.wrVar false 0 0 .fls) ⟨rfl, rfl⟩) ⟨rfl, rfl⟩)) (rel_bind_val (rel_bind_val (did 2 (.rdVar true 1 0) ⟨rfl, rfl⟩) ⟨rfl, rfl⟩)
            (rel_bind_val (did 2 .self ⟨rfl, rfl⟩) (rel_bind_val ⟨rfl, rfl⟩ ?_))))
        exact act_val hsend
      have ht : smallProg.trees smallIncs p (.send "down:".toList [.obj 0, .fls]) smallStart (.val .tru) ⟨s1, [f0 false, f1 false, f2], 0⟩ :=
        ⟨3, Do.meth (G := smallProg) (b := b 3) 7 () [.obj 0, .fls] smallStart _ _ hfirst⟩
      exact ⟨p, rfl, hp, fun _ _ _ _ _ => rfl, smallIncs_ok, small_escaped, _, ht, rfl, rfl,
        C66_trees_to_bytecode_partial hp smallIncs_ok smallIncs_ok (fun h => (h trivial).elim) (fun _ => small_escaped) _ _ _ _ (fun e he => nomatch he) ht⟩

end PySOM.Mach

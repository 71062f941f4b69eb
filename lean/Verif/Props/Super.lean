import Verif.Lemmas.Super
import Verif.Props.Returns
/-!
# C70: `super` looks above the class in whose text it is written

In a method, and in every block in it wherever and however often the block is evaluated, `super` starts the lookup in the superclass of the class that the method was written in, for all receivers
and in both interpreters.

Two parts: the class is handed down to all blocks of a method when the method is installed (`set_holder`), and while a program runs, the class that the machine finds in the frame, in which a block is
activated with the class that was noted when the block was made, is always that class: the machine does the same as one in which this class is part of the code (`Spec/Super.lean`).
-/
set_option autoImplicit false
namespace PySOM.Mach
open PySOM BC

section
variable {ι X Y P : Type} {G : Prog ι X Y P} {K : Incs X Y} {known : Sel → Bool} {alloc : LitTs → Val} {n : Nat} {p : Compiled2 ι} {own : ι → Nat}

/-! ## When methods are installed -/

/-- C70: all blocks that a method creates, directly or in its blocks, get the class of the method. -/
theorem C70_installed (C : Code Meth) (m : Meth) (h : Comes Meth.makes C.makes m) : Given C.lits m := by
  induction h with
  | here c m h => exact .here m (makesIn_lits _ _ c m h)
  | deeper m c m' _ h' ih =>
    cases m with
    | triv id t => cases h'
    | bc id ls bytes loops args locals stack code => exact .deeper id ls bytes loops args locals stack code m' ih (makesIn_lits _ _ c m' h')

/-- The trees are what the compiler makes of the source. -/
structure _root_.PySOM.BC.Compiled2.TreesOk (known : Sel → Bool) (alloc : LitTs → Val) (p : Compiled2 ι) : Prop where
  wf : ∀ i, (p.src i).Wf
  tree : ∀ i, (p.src i).ast known alloc = .ok (p.tree i)

theorem comes_src (hp : p.BcOk known n) {i : ι} {m : Meth} (h : Comes Meth.makes (p.code i).makes m) : m.id ∈ (p.src i).body.sids := by
  obtain ⟨g, hg, hC⟩ := hp.code i
  have key := method_ids (hp.wf i) hg hC
  have := comes_id meth_collects key.2 h
  exact key.1.subset (this.2 _ (by rw [(meth_collects _ this.1).1]; exact List.mem_cons_self))

/-- C70: every block that a tree creates, directly or in its blocks, is a block of the source: one of those that the parser collects for `set_holder` (`compiler/ast/parser.py:160-163`,
`vmobjects/method_ast.py:113-116`). -/
theorem C70_collected (hp : p.TreesOk known alloc) (i : ι) (m : AMeth) (h : Comes AMeth.makes (p.tree i).makes m) : m.id ∈ (p.src i).body.sids := by
  have := comes_id ameth_collects (fun _ _ => trivial) h
  exact (tree_ids (hp.tree i)).subset (this.2 _ (by rw [(ameth_collects _ this.1).1]; exact List.mem_cons_self))

/-! ## While programs run -/

/-- The blocks of bytecode and the classes they were written in. -/
def HasCode (p : Compiled2 ι) (own : ι → Nat) (id h : Nat) : Prop := ∃ i m, Comes Meth.makes (p.code i).makes m ∧ m.id = id ∧ own i = h

def HasTree (p : Compiled2 ι) (own : ι → Nat) (id h : Nat) : Prop := ∃ i m, Comes AMeth.makes (p.tree i).makes m ∧ m.id = id ∧ own i = h

theorem code_step (hp : p.BcOk known n) (ha : Apart p) {A2 A1 : ι → World Nat (St X Y) Esc}
    (hA : ∀ i (w0 : St X Y), In w0 (own i) → Acts (Stays (HasCode p own) w0) (fun id => HasCode p own id (own i)) (A2 i) (A1 i)) :
    Alike own (HasCode p own) (⟨fun i => bcRun (onMeth (A2 i)) (p.code i), fun id w r w' => ∃ i m, Comes Meth.makes (p.code i).makes m ∧ m.id = id ∧ m.run (onMeth (A2 i)) w r w'⟩ : Behaviour ι (St X Y) Esc)
      ⟨fun i => bcRun (onMeth (A1 i)) (p.code i), fun id w r w' => ∃ i m, Comes Meth.makes (p.code i).makes m ∧ m.id = id ∧ m.run (onMeth (A1 i)) w r w'⟩ := by
  refine ⟨fun i w hw hi r w' h => ?_, fun id c hc w hw hi r w' h => ?_⟩
  · obtain ⟨g, hg, hC⟩ := hp.code i
    exact Code.run_thru (hA i w hi) (hp.wf i) hg hC (fun q hq => ⟨i, q.2, .here q.1 q.2 hq, rfl, rfl⟩) w r w' (.refl hw) h
  · obtain ⟨j, m, hm, rfl, hrun⟩ := h
    obtain ⟨i, m', hm', e, rfl⟩ := hc
    obtain rfl : i = j := ha i j m.id (e ▸ comes_src hp hm') (comes_src hp hm)
    obtain ⟨l, hs⟩ := comes_sound hp hm
    obtain ⟨h1, h2⟩ := Meth.run_thru (hA i w hi) hs (fun q hq => ⟨i, q.2, .deeper m q.1 q.2 hm hq, rfl, rfl⟩) w r w' (.refl hw) hrun
    exact ⟨⟨i, m, hm, rfl, h1⟩, h2⟩

theorem tree_step (hp : p.TreesOk known alloc) (ha : Apart p) {A2 A1 : ι → World Nat (St X Y) Esc}
    (hA : ∀ i (w0 : St X Y), In w0 (own i) → Acts (Stays (HasTree p own) w0) (fun id => HasTree p own id (own i)) (A2 i) (A1 i)) :
    Alike own (HasTree p own) (⟨fun i => (p.tree i).run (A2 i) (fun n _ => Src.act (A2 i) (.glob n)) Esc.err,
        fun id w r w' => ∃ i m, Comes AMeth.makes (p.tree i).makes m ∧ m.id = id ∧ m.run (A2 i) (fun n _ => Src.act (A2 i) (.glob n)) Esc.err w r w'⟩ : Behaviour ι (St X Y) Esc)
      ⟨fun i => (p.tree i).run (A1 i) (fun n _ => Src.act (A1 i) (.glob n)) Esc.err,
        fun id w r w' => ∃ i m, Comes AMeth.makes (p.tree i).makes m ∧ m.id = id ∧ m.run (A1 i) (fun n _ => Src.act (A1 i) (.glob n)) Esc.err w r w'⟩ := by
  have hU : ∀ i w0, In w0 (own i) → ∀ (g : Sel) (l : Nat), Thru (Stays (HasTree p own) w0) (Src.act (A2 i) (.glob g)) (Src.act (A1 i) (.glob g)) :=
    fun i w0 h0 g _ => (hA i w0 h0).act fun _ _ h => nomatch h
  refine ⟨fun i w hw hi r w' h => ?_, fun id c hc w hw hi r w' h => ?_⟩
  · exact AMethod.run_thru (hA i w hi) (hU i w hi) (p.tree i) (fun q hq => ⟨i, q.2, .here q.1 q.2 hq, rfl, rfl⟩) w r w' (.refl hw) h
  · obtain ⟨j, m, hm, rfl, hrun⟩ := h
    obtain ⟨i, m', hm', e, rfl⟩ := hc
    obtain rfl : i = j := ha i j m.id (e ▸ C70_collected hp i m' hm') (C70_collected hp j m hm)
    obtain ⟨h1, h2⟩ := AMeth.run_thru (hA i w hi) (hU i w hi) m (fun q hq => ⟨i, q.2, .deeper m q.1 q.2 hm hq, rfl, rfl⟩) w r w' (.refl hw) hrun
    exact ⟨⟨i, m, hm, rfl, h1⟩, h2⟩

theorem code_alike (hp : p.BcOk known n) (ha : Apart p) (ho : Owns G own) (hG : Tame G) (hK : K.Tame) (k : Nat) :
    Alike own (HasCode p own) (bcBehaviour p (G.system K) k) (G.codeIn K p own k) ∧ Alike own (HasCode p own) (G.codeIn K p own k) (bcBehaviour p (G.system K) k) := by
  induction k with
  | zero => exact ⟨⟨fun _ _ _ _ _ _ h => h.elim, fun _ _ _ _ _ _ _ _ h => h.elim⟩, fun _ _ _ _ _ _ h => h.elim, fun _ _ _ _ _ _ _ _ h => h.elim⟩
  | succ k ih => exact ⟨code_step hp ha fun i w0 h0 => world_in hG ho hK ih.1 h0, code_step hp ha fun i w0 h0 => in_world hG ho hK ih.2 h0⟩

theorem tree_alike (hp : p.TreesOk known alloc) (ha : Apart p) (ho : Owns G own) (hG : Tame G) (hK : K.Tame) (k : Nat) :
    Alike own (HasTree p own) (astBehaviour p (G.system K) Esc.err k) (G.treesIn K p own k) ∧ Alike own (HasTree p own) (G.treesIn K p own k) (astBehaviour p (G.system K) Esc.err k) := by
  induction k with
  | zero => exact ⟨⟨fun _ _ _ _ _ _ h => h.elim, fun _ _ _ _ _ _ _ _ h => h.elim⟩, fun _ _ _ _ _ _ h => h.elim, fun _ _ _ _ _ _ _ _ h => h.elim⟩
  | succ k ih => exact ⟨tree_step hp ha fun i w0 h0 => world_in hG ho hK ih.1 h0, tree_step hp ha fun i w0 h0 => in_world hG ho hK ih.2 h0⟩

theorem calls_alike {Has : Nat → Nat → Prop} (hG : Tame G) (ho : Owns G own) {b2 b1 : Behaviour ι (St X Y) Esc} (hb : Alike own Has b2 b1) {c : Call} {w : St X Y} {r : Res Esc} {w' : St X Y}
    (hw : Held Has w) (h : G.calls b2 c w r w') : G.calls b1 c w r w' ∧ Stays Has w w' := by
  obtain ⟨h1, h2⟩ := resolve_fit ho hw c
  obtain ⟨h3, h4⟩ := Do.alike hG ho hb h h1.held h2
  exact ⟨h3, h1.trans h4⟩

theorem reached_held {Has : Nat → Nat → Prop} {run : Call → St X Y → Res Esc → St X Y → Prop} (hrun : ∀ c w r w', Held Has w → run c w r w' → Held Has w') {w : St X Y} (h : Reached run w) : Held Has w := by
  induction h with
  | fresh w h => exact fun a id ctx c hx => absurd hx (h.2 a id ctx c)
  | call w c r w' _ h ih => exact hrun c w r w' ih h
  | host w sh _ h ih => exact ih.shared h

/-- C70 for the bytecode interpreter: in every state that can be reached, a call does what it does if `super` in the code of a method, blocks included, looks above the class of the method. -/
theorem C70_bytecode (hp : p.BcOk known n) (ha : Apart p) (ho : Owns G own) (hG : Tame G) (hK : K.Tame) (w : St X Y) (hw : Reached (G.bytecode K p) w) (c : Call) (r : Res Esc) (w' : St X Y) :
    G.bytecode K p c w r w' ↔ ∃ k, G.calls (G.codeIn K p own k) c w r w' := by
  have hh : Held (HasCode p own) w := reached_held (fun c w r w' hw ⟨k, h⟩ => (calls_alike hG ho (code_alike hp ha ho hG hK k).1 hw h).2.held) hw
  exact ⟨fun ⟨k, h⟩ => ⟨k, (calls_alike hG ho (code_alike hp ha ho hG hK k).1 hh h).1⟩, fun ⟨k, h⟩ => ⟨k, (calls_alike hG ho (code_alike hp ha ho hG hK k).2 hh h).1⟩⟩

/-- C70 for the AST interpreter. -/
theorem C70_trees (hp : p.TreesOk known alloc) (ha : Apart p) (ho : Owns G own) (hG : Tame G) (hK : K.Tame) (w : St X Y) (hw : Reached (G.trees K p) w) (c : Call) (r : Res Esc) (w' : St X Y) :
    G.trees K p c w r w' ↔ ∃ k, G.calls (G.treesIn K p own k) c w r w' := by
  have hh : Held (HasTree p own) w := reached_held (fun c w r w' hw ⟨k, h⟩ => (calls_alike hG ho (tree_alike hp ha ho hG hK k).1 hw h).2.held) hw
  exact ⟨fun ⟨k, h⟩ => ⟨k, (calls_alike hG ho (tree_alike hp ha ho hG hK k).1 hh h).1⟩, fun ⟨k, h⟩ => ⟨k, (calls_alike hG ho (tree_alike hp ha ho hG hK k).2 hh h).1⟩⟩

/-- C70: what is noted in blocks and found in frames.  In every state that can be reached, a block of the source of a method is noted with the class of the method. -/
theorem C70_noted (hp : p.BcOk known n) (ha : Apart p) (ho : Owns G own) (hG : Tame G) (hK : K.Tame) (w : St X Y) (hw : Reached (G.bytecode K p) w) (a id : Nat) (ctx : Option Nat) (h : Nat)
    (hx : w.sh.objs[a]? = some (.block id ctx h)) : ∃ i, id ∈ (p.src i).body.sids ∧ h = own i := by
  have hh : Held (HasCode p own) w := reached_held (fun c w r w' hw ⟨k, h⟩ => (calls_alike hG ho (code_alike hp ha ho hG hK k).1 hw h).2.held) hw
  obtain ⟨i, m, hm, rfl, rfl⟩ := hh a id ctx h hx
  exact ⟨i, comes_src hp hm, rfl⟩

end
/-! ## An example -/

/-- `up = ( ^ [ super up ] value )` -/
def upMethod : SMethod :=
  ⟨[some 1], [], .exit (.send "value".toList (.blk true (.mk 1 [21] [] (.last (.superSend "up".toList (.var true 0 1) .nil)))) .nil)⟩

theorem upMethod_wf : upMethod.Wf := by
  refine ⟨?_, ?_, by decide⟩
  · simp only [upMethod, Body.Wf, Ex.Wf, Exs.Wf, SBlock.Wf, Exs.length, Body.fits]
    decide
  · simp only [upMethod, Body.fits]

theorem upMethod_compiles : (match upMethod.compile (fun _ => false) 5 with
    | .ok g => (match assemble g with | .ok C => some C.bytes | .error _ => none)
    | .error _ => none) = some [13, 0, 35, 1, 40] := by
  decide +kernel

def upBlock : AMeth := .ast 1 [21] [] (.superSend "up".toList (.self 1) .nil)

def upTree : AMethod := .ast [] false (.send "value".toList (.blk true upBlock) .nil)

theorem upTree_ok : upMethod.ast (fun _ => false) (fun _ => .nil) = .ok upTree := rfl

/-- The class 7 is below 8, where the method is, and 8 is below 9, which has a primitive of the same name that answers 5. -/
def upProg : Prog Unit (List Val) Unit Small :=
  { smallProg with
    chain := fun c => if c = 7 then [7, 8, 9] else if c = 8 then [8, 9] else [c]
    table := fun c sel => match c with
      | 5 => if sel = "value".toList then some (.prim 2) else none
      | 8 => if sel = "up".toList then some (.meth ()) else none
      | 9 => if sel = "up".toList then some (.prim 3) else none
      | _ => none
    start := fun k vs => if k = 2 then .value vs else .answer (.int 5) }

theorem up_owns : Owns upProg fun _ => 8 := by
  intro c sel i h
  simp only [upProg] at h
  split at h <;> first | rfl | (split at h <;> cases h) | cases h

/-- All hypotheses are met.  An instance of 7 is sent `up`: the method of 8 is found, and its block is evaluated by a primitive.  `super` does not look above 7, the class of the receiver, nor above
the class of blocks, but above 8: the answer is 5. -/
example : ∃ p : Compiled2 Unit, p.src = (fun _ => upMethod) ∧ p.BcOk (fun _ => false) 5 ∧ p.TreesOk (fun _ => false) (fun _ => .nil) ∧ Apart p ∧ Owns upProg (fun _ => 8) ∧ Tame upProg ∧ smallIncs.Tame ∧
    Fresh smallStart ∧ upProg.classOf smallStart.sh (.obj 0) = some 7 ∧
    ∃ w', upProg.trees smallIncs p (.send "up".toList [.obj 0]) smallStart (.val (.int 5)) w' ∧ (∃ k, upProg.calls (upProg.treesIn smallIncs p (fun _ => 8) k) (.send "up".toList [.obj 0]) smallStart (.val (.int 5)) w') ∧
      w'.frames.map Frame.holder = [8, 8] := by
  have hc := upMethod_compiles
  generalize hg : upMethod.compile (fun _ => false) 5 = r at hc
  cases r with
  | error e => cases hc
  | ok g =>
    generalize hC : assemble g = r at hc
    dsimp only at hc
    rw [hC] at hc
    cases r with
    | error e => cases hc
    | ok C =>
      let p : Compiled2 Unit := ⟨fun _ => upMethod, fun _ => C, fun _ => upTree⟩
      have hb : p.BcOk (fun _ => false) 5 := ⟨fun _ => upMethod_wf, fun _ => ⟨g, hg, hC⟩⟩
      have ht : p.TreesOk (fun _ => false) (fun _ => .nil) := ⟨fun _ => upMethod_wf, fun _ => upTree_ok⟩
      have hap : Apart p := fun _ _ _ _ _ => rfl
      have hG : Tame upProg := fun q _ a id ctx h hx => ⟨a, hx⟩
      have hfresh : Fresh smallStart := ⟨rfl, fun a id ctx h => by
        cases a with
        | zero => simp [smallStart]
        | succ a => simp [smallStart]⟩
      let b := astBehaviour p (upProg.system smallIncs) Esc.err
      let f0 (on : Bool) : Frame := ⟨[.obj 0], fun _ => .nil, none, 8, on, true⟩
      let f1 (on : Bool) : Frame := ⟨[.obj 1], fun _ => .nil, some 0, 8, on, false⟩
      let s0 : Shared (List Val) Unit := ⟨[.inst 7 []], fun _ => none, ()⟩
      let s1 : Shared (List Val) Unit := ⟨[.inst 7 [], .block 1 (some 0) 8], fun _ => none, ()⟩
      have hsup : upProg.world smallIncs (b 0) (.superSend "up".toList [.obj 0]) ⟨s1, [f0 true, f1 true], 1⟩ (.val (.int 5)) ⟨s1, [f0 true, f1 true], 1⟩ :=
        Do.done (G := upProg) (b := b 0) (.answer (.int 5)) ⟨s1, [f0 true, f1 true], 1⟩ s1 (.int 5) rfl
      have hself : upProg.world smallIncs (b 0) (.rdVar true 0 1) ⟨s1, [f0 true, f1 true], 1⟩ (.val (.obj 0)) ⟨s1, [f0 true, f1 true], 1⟩ := ⟨rfl, rfl⟩
      have hblk : (b 1).blk 1 ⟨s1, [f0 true, f1 true], 1⟩ (.ret (.int 5)) ⟨s1, [f0 true, f1 true], 1⟩ :=
        ⟨(), upBlock, .here true _ (.head _), rfl, .inl (rel_bind_val (act_val hself) (act_val hsup))⟩
      have hcall : Do upProg (b 1) (.blk 1 (some 0) 8 [.obj 1]) ⟨s1, [f0 true], 0⟩ (.val (.int 5)) ⟨s1, [f0 true, f1 false], 0⟩ :=
        Do.blk (G := upProg) 1 (some 0) 8 [.obj 1] ⟨s1, [f0 true], 0⟩ _ _ hblk
      have hval : upProg.world smallIncs (b 1) (.send "value".toList [.obj 1]) ⟨s1, [f0 true], 0⟩ (.val (.int 5)) ⟨s1, [f0 true, f1 false], 0⟩ := by
        show Do upProg (b 1) (.prim (.value [.obj 1])) ⟨s1, [f0 true], 0⟩ _ _
        exact Do.callVal (G := upProg) (Small.value [.obj 1]) ⟨s1, [f0 true], 0⟩ s1 (.value [.obj 1]) Small.answer (.int 5) ⟨s1, [f0 true, f1 false], 0⟩ _ _ rfl hcall
          (Do.done (G := upProg) (.answer (.int 5)) ⟨s1, [f0 true, f1 false], 0⟩ s1 (.int 5) rfl)
      have hmk : upProg.world smallIncs (b 1) (.mkBlock true 1) ⟨s0, [f0 true], 0⟩ (.val (.obj 1)) ⟨s1, [f0 true], 0⟩ := ⟨rfl, rfl⟩
      have hmeth : (b 2).meth () ⟨s0, [f0 true], 0⟩ (.ret (.int 5)) ⟨s1, [f0 true, f1 false], 0⟩ := .inl (rel_bind_val (act_val hmk) (act_val hval))
      have hrun : upProg.trees smallIncs p (.send "up".toList [.obj 0]) smallStart (.val (.int 5)) ⟨s1, [f0 false, f1 false], 0⟩ :=
        ⟨2, Do.meth (G := upProg) (b := b 2) 8 () [.obj 0] smallStart _ _ hmeth⟩
      exact ⟨p, rfl, hb, ht, hap, up_owns, hG, smallIncs_tame, hfresh, rfl, _, hrun, (C70_trees ht hap up_owns hG smallIncs_tame smallStart (.fresh _ hfresh) _ _ _).mp hrun, rfl⟩

end PySOM.Mach

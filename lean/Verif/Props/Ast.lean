import Verif.Lemmas.AstBench
/-!
# The two interpreters (C34)

Full statement of C34: a program gives the same result and the same effects in the AST interpreter and in the bytecode interpreter.

Proved here: for every method and for every block in a method, of any size, what the tree does in a world is what the bytecode does in it.  A world says what the
actions do on which both interpreters rely: reading and writing variables and fields, reading globals, sending messages, creating blocks and returning non-locally.
The two are not the same without the assumptions in `Std` (each only where the source depends on it, `Ex.fair`) and `Body.setter`; and where the condition of an
inlined message is not a boolean, the AST interpreter raises an error and the bytecode interpreter goes on (`Approx`).  Theorems `C34_violated_…` show where the two
interpreters in fact differ.  That sends and activations of blocks, which lead back to code of the two kinds, agree as well is in `Props/Whole`.  Missing: programs with literal arrays.
-/
set_option autoImplicit false
namespace PySOM.BC
open PySOM

section
variable {W E : Type} {I D F C N : Prop} {A : World Nat W E} {U : Sel → Nat → Src.Rel W E} {known : Sel → Bool} {alloc : LitTs → Val}

/-- C34 for methods. -/
theorem C34_method_partial {n : Nat} {s : SMethod} {g : G Meth (List Nat)} {Cd : Code Meth} {am : AMethod} (hw : s.Wf) (hn : s.env.Nodup) (hf : s.body.fair I D F C N false)
    (hset : s.body.setter) (hc : s.compile known n = .ok g) (hC : assemble g = .ok Cd) (ha : s.ast known alloc = .ok am) (hS : Std I D F C N A U 0)
    (hself : Src.act A .self = Src.act A (.rdVar true 0 0)) (err : Err → E) : Approx (NoBoolean err) (am.run A U err) (bcRun (onMeth A) Cd) := by
  obtain ⟨b, hb, hs, hg⟩ := SMethod.compile_sourced hw hc
  have ha' := ha
  unfold SMethod.ast at ha'
  obtain ⟨⟨es, env2⟩, hes, _⟩ := except_bind_ok ha'
  have hB := Body.same (I := I) (D := D) (F := F) (C := C) (N := N) (known := known) (alloc := alloc) [] false false s.body b s.env es env2 hw.body hw.fits hw.ids hf (.inl rfl) hn hb hes
  rw [method_run_eq hS hself err hset hes hB.ok hB.throws ha,
    bcRun_eq hs.good (by decide) hg hC (onMeth A) (hB.needs _ fun hF => fuse_onMeth (hS.fuse hF))]
  exact hB.sem false (compile_ok (inliner_ok n) hs.good (by decide) hg).1.possible W E A U err hS fun _ => hself

/-- C34 for blocks: `outer` are the variables of the methods around the one with the block, `env` are those of that one. -/
theorem C34_block_partial {n : Nat} {outer : List (List Nat)} {env : List Nat} {s : SBlock} {m : Meth} {am : AMeth} (hw : s.Wf) (hi : s.sids.Nodup) (hf : s.fair I D F C N)
    (hm : s.compile known n outer.length = .ok m) (ha : s.ast known alloc (env :: outer) = .ok am) (hS : Std I D F C N A U (outer.length + 1)) (err : Err → E) :
    Approx (NoBoolean err) (am.run A U err) (m.run (onMeth A)) := by
  obtain ⟨id, args, env0, b⟩ := s
  have ha' := ha
  simp only [SBlock.compile] at hm
  obtain ⟨b1, h1, h2⟩ := except_bind_ok hm
  simp only [SBlock.ast] at ha'
  obtain ⟨⟨es, env2⟩, h3, _⟩ := except_bind_ok ha'
  simp only [SBlock.Wf, SBlock.sids, SBlock.fair, List.nodup_cons] at hw hi hf
  have hB := Body.build_ok known n (outer.length + 1) b b1 hw.1 hi.2 h1
  have hok : BlksOK (outer.length + 1) b1.blks := ⟨fun c m hm => (hB.blocks c m hm).good, fun m hm => (hB.closed m hm).sound _ (hB.blocks _ m hm).good.1⟩
  have hS' := Body.same (I := I) (D := D) (F := F) (C := C) (N := N) (known := known) (alloc := alloc) (env :: outer) true true b b1 env0 es env2 hw.1 hw.2 hi.2 hf.1 (.inr rfl) hf.2.2 h1 h3
  have fits := Body.build_fits known n true (outer.length + 1) b b1 h1 hw.2
  rw [block_run_ast hS err h3 hS'.ok ha, block_run_bc hB.wf fits hok h2 (onMeth A) (hS'.needs _ fun hF => fuse_onMeth (hS.fuse hF))]
  obtain ⟨g, hg, _⟩ := except_bind_ok h2
  exact hS'.sem false (compile_ok (inliner_ok n) (b1.wf_of hB.wf hok.good) (by simp) hg).1.possible W E A U err hS fun h => nomatch h

/-- If the conditions are booleans, i.e. the AST interpreter does not complain, the outcomes are the same. -/
theorem Approx.iff {bad : E → Prop} {R2 R1 : Src.Rel W E} (h : Approx bad R2 R1) {w : W} (hb : ∀ e w', bad e → ¬ R2 w (.exc e) w') (r : Src.Res E) (w' : W) :
    R2 w r w' ↔ R1 w r w' := by
  constructor
  · intro h1
    rcases h.1 w r w' h1 with h2 | ⟨e, rfl, h2⟩
    · exact h2
    · exact absurd h1 (hb e w' h2)
  · intro h1
    rcases h.2 w r w' h1 with h2 | ⟨e, w'', h2, h3⟩
    · exact h2
    · exact absurd h3 (hb e w'' h2)

/-- C34 for methods whose conditions are booleans: the bytecode answers `v` if and only if the tree does, with the same effects, and the same for errors. -/
theorem C34_method_boolean_partial {n : Nat} {s : SMethod} {g : G Meth (List Nat)} {Cd : Code Meth} {am : AMethod} (hw : s.Wf) (hn : s.env.Nodup) (hf : s.body.fair I D F C N false)
    (hset : s.body.setter) (hc : s.compile known n = .ok g) (hC : assemble g = .ok Cd) (ha : s.ast known alloc = .ok am) (hS : Std I D F C N A U 0)
    (hself : Src.act A .self = Src.act A (.rdVar true 0 0)) (err : Err → E) (w : W) (hb : ∀ e w', NoBoolean err e → ¬ am.run A U err w (.exc e) w') :
    (∀ v w', (∃ k, Steps (onMeth A) Cd k (Code.start w) (.done v w')) ↔ am.run A U err w (.ret v) w') ∧
    (∀ e w', (∃ k, Steps (onMeth A) Cd k (Code.start w) (.raised e w')) ↔ am.run A U err w (.exc e) w') := by
  have h := C34_method_partial hw hn hf hset hc hC ha hS hself err
  exact ⟨fun v w' => (h.iff hb (.ret v) w').symm, fun e w' => (h.iff hb (.exc e) w').symm⟩
end

/-! ## Examples -/

/-- `foo: c = ( | a b | a := b := 1. f := f + 1. c ifTrue: [ | x | x := a - 1. self do: [ x + b ]. ^ x ]. [ c ] whileTrue: [ c := a + 1 ]. ^ a )` -/
def richMethod : SMethod :=
  ⟨[some 1, some 2], [11, 12], .stmt (.asg (.var "a".toList false 0 0) [.var "b".toList false 1 0] (.lit (.val (.int 1))))
    (.stmt (.asg (.fld "f".toList 0) [] (.inc (.fld "f".toList 0)))
    (.stmt (.send "ifTrue:".toList (.var true 1 0) (.cons (.blk true (.mk 1 [21] [13] (.stmt (.asg (.var "x".toList false 0 0) [] (.dec (.var false 0 1)))
      (.stmt (.send "do:".toList (.var true 0 1) (.cons (.blk true (.mk 2 [22] [] (.last (.send "+".toList (.var false 0 1) (.cons (.var false 1 2) .nil))))) .nil))
      (.exit (.var false 0 0)))))) .nil))
    (.stmt (.send "whileTrue:".toList (.blk true (.mk 3 [23] [] (.last (.var true 1 1))))
      (.cons (.blk true (.mk 4 [24] [] (.last (.asg (.var "c".toList true 1 1) [] (.inc (.var false 0 1)))))) .nil))
    (.exit (.var false 0 0)))))⟩

theorem richMethod_wf : richMethod.Wf := by
  refine ⟨?_, ?_, by decide⟩
  · simp only [richMethod, Body.Wf, Ex.Wf, Exs.Wf, SBlock.Wf, LitT.ok, Exs.length, Body.fits]
    decide
  · simp only [richMethod, Body.fits]

theorem richMethod_fair : richMethod.body.fair True True True True True false := by
  simp [richMethod, Body.fair, Ex.fair, Exs.fair, SBlock.fair, Body.tidy]

/-- Both compilers accept it, and all hypotheses are met by a world. -/
example : ∃ g C am, richMethod.compile (fun _ => false) 5 = .ok g ∧ assemble g = .ok C ∧ richMethod.ast (fun _ => false) (fun _ => .nil) = .ok am ∧
    ∀ (err : Err → Err), Approx (NoBoolean err) (am.run (World.of (desk false none)) (fun n _ => Src.act (World.of (desk false none)) (.glob n)) err) (bcRun (onMeth (World.of (desk false none))) C) := by
  obtain ⟨g, C, w', h1, h2, _, _⟩ := bench_done (f := desk false none) (s := richMethod) (known := fun _ => false) (n := 5) (k := 40)
    (w := ⟨fun _ i _ => if i = 1 then .fls else .obj 7, fun _ => .int 3, []⟩) (v := .int 1) (sent := []) (by decide +kernel)
  obtain ⟨am, h3⟩ : ∃ am, richMethod.ast (fun _ => false) (fun _ => .nil) = .ok am := ⟨_, rfl⟩
  exact ⟨g, C, am, h1, h2, h3, fun err => C34_method_partial richMethod_wf (by decide) richMethod_fair (by trivial) h1 h2 h3 (desk_std none 0 (.inl rfl)) rfl err⟩

/-- `[ | x | x := a - 1. self do: [ x + b ]. c ifTrue: [ ^ x ] ]` in a method with the argument `c` and the variables `a` and `b`. -/
def richBlock : SBlock :=
  .mk 1 [21] [13] (.stmt (.asg (.var "x".toList false 0 0) [] (.dec (.var false 0 1)))
    (.stmt (.send "do:".toList (.var true 0 1) (.cons (.blk true (.mk 2 [22] [] (.last (.send "+".toList (.var false 0 1) (.cons (.var false 1 2) .nil))))) .nil))
    (.last (.send "ifTrue:".toList (.var true 1 1) (.cons (.blk true (.mk 3 [23] [] (.exit (.var false 0 1)))) .nil)))))

example : ∃ m am, richBlock.compile (fun _ => false) 5 0 = .ok m ∧ richBlock.ast (fun _ => false) (fun _ => .nil) [[11, 12]] = .ok am ∧
    ∀ (err : Err → Err), Approx (NoBoolean err) (am.run (World.of (desk false none)) (fun n _ => Src.act (World.of (desk false none)) (.glob n)) err) (m.run (onMeth (World.of (desk false none)))) := by
  obtain ⟨m, w', h1, _, _⟩ := benchBlock_done (f := desk false none) (s := richBlock) (known := fun _ => false) (n := 5) (lvl := 0) (k := 40)
    (w := ⟨fun a i l => if a then if i = 1 then .fls else .obj 7 else .int l, fun _ => .int 3, []⟩) (v := .nil) (sent := [("do:".toList, [.obj 7, .obj 2])]) (by decide +kernel)
  obtain ⟨am, h2⟩ : ∃ am, richBlock.ast (fun _ => false) (fun _ => .nil) [[11, 12]] = .ok am := ⟨_, rfl⟩
  refine ⟨m, am, h1, h2, fun err => C34_block_partial (outer := []) (env := [11, 12]) ?_ (by decide) ?_ h1 h2 (desk_std none 1 (.inr rfl)) err⟩
  · simp only [richBlock, Body.Wf, Ex.Wf, Exs.Wf, SBlock.Wf, Exs.length, Body.fits]
    decide
  · simp [richBlock, Body.fair, Ex.fair, Exs.fair, SBlock.fair, Body.tidy]

/-! ## Where the interpreters differ -/

/-- `f: x = ( ^ f := x )` -/
def setterMethod : SMethod := ⟨[some 1, some 2], [], .exit (.asg (.fld "f".toList 0) [] (.var true 1 0))⟩

/-- The state in which the examples run: the receiver is an object and so is the argument. -/
def desk0 : Desk := ⟨fun a i _ => if a then .obj i else .nil, fun _ => .nil, []⟩

/-- **C34**, violated: `^ f := x` answers the argument in the bytecode interpreter and the receiver in the AST interpreter, where `FieldWriteNode.create_trivial_method` makes it a
`FieldWrite` (`field_node.py:48-62`), which always answers the receiver (`method_trivial.py:196-217`). -/
theorem C34_violated_setter : setterMethod.Wf ∧ ∃ g C am w1 w2, setterMethod.compile (fun _ => false) 1 = .ok g ∧ assemble g = .ok C ∧
    setterMethod.ast (fun _ => false) (fun _ => .nil) = .ok am ∧
    Gives (bcRun (onMeth (World.of (desk true none))) C) desk0 (.ret (.obj 1)) w1 ∧
    ∀ U, Gives (am.run (World.of (desk true none)) U id) desk0 (.ret (.obj 0)) w2 := by
  obtain ⟨g, C, w', h1, h2, _, h3⟩ := bench_done (f := desk true none) (s := setterMethod) (known := fun _ => false) (n := 1) (k := 10) (w := desk0) (v := .obj 1) (sent := []) (by decide +kernel)
  refine ⟨⟨?_, trivial, by decide⟩, g, C, .triv (.fldWrite 0 1), w', { desk0 with flds := fun i' => if i' = 0 then .obj 1 else desk0.flds i' }, h1, h2, rfl, h3, fun U => ?_⟩
  · simp only [setterMethod, Body.Wf, Ex.Wf]
  · exact (gives_val (f := desk true none) rfl).bind ((gives_val (f := desk true none) rfl).bind ((gives_val (f := desk true none) rfl).bind (gives_answer _ _)))

/-- `foo: x = ( ^ x ifTrue: [ 1 ] )` -/
def conditionMethod : SMethod := ⟨[some 1, some 2], [], .exit (.send "ifTrue:".toList (.var true 1 0) (.cons (.blk false (.mk 1 [21] [] (.last (.lit (.val (.int 1)))))) .nil))⟩

/-- **C34**, violated: if the receiver of `ifTrue:` with a literal block is not a boolean, the block is evaluated in the bytecode interpreter (`jump_on_false_top_nil` looks only for
false), and the AST interpreter raises `NotImplementedError` (`literal_if.py:22-31`). -/
theorem C34_violated_condition : conditionMethod.Wf ∧ ∃ g C am w1 w2, conditionMethod.compile (fun _ => false) 1 = .ok g ∧ assemble g = .ok C ∧
    conditionMethod.ast (fun _ => false) (fun _ => .nil) = .ok am ∧
    Gives (bcRun (onMeth (World.of (desk true none))) C) desk0 (.ret (.int 1)) w1 ∧
    ∀ U, Gives (am.run (World.of (desk true none)) U id) desk0 (.exc .notImplemented) w2 := by
  obtain ⟨g, C, w', h1, h2, _, h3⟩ := bench_done (f := desk true none) (s := conditionMethod) (known := fun _ => false) (n := 1) (k := 10) (w := desk0) (v := .int 1) (sent := []) (by decide +kernel)
  refine ⟨⟨?_, trivial, by decide⟩, g, C, .ast [] false (.inl1 (.ifBool true) (.readArg 1 0) (.lit (.int 1))), w', desk0, h1, h2, rfl, h3, fun U => ?_⟩
  · simp only [conditionMethod, Body.Wf, Ex.Wf, Exs.Wf, SBlock.Wf, LitT.ok, Exs.length, Body.fits]
    decide
  · exact answers_exc ((gives_val (f := desk true none) (v := .obj 1) (w' := desk0) rfl).bind fun _ _ => Iff.rfl)

/-- `foo: x = ( ^ x + 01 )` -/
def plusMethod : SMethod := ⟨[some 1, some 2], [], .exit (.send "+".toList (.var true 1 0) (.cons (.lit (.val (.int 1))) .nil))⟩

/-- **C34**, violated: whether `+` with 1 is the message depends on the value of the literal in the AST compiler (`compiler/ast/parser.py:226-233`) and on its text in the bytecode
compiler (`compiler/bc/parser.py:219`).  With `x + 01` the message is sent to an object that is not a number in the bytecode interpreter, but not in the AST interpreter. -/
theorem C34_violated_plus : plusMethod.Wf ∧ ∃ g C am w1 w2, plusMethod.compile (fun _ => false) 1 = .ok g ∧ assemble g = .ok C ∧
    plusMethod.ast (fun _ => false) (fun _ => .nil) = .ok am ∧
    Gives (bcRun (onMeth (World.of (desk true none))) C) desk0 (.ret (.int 42)) w1 ∧ w1.sent = [("+".toList, [.obj 1, .int 1])] ∧
    ∀ U, Gives (am.run (World.of (desk true none)) U id) desk0 (.exc .notImplemented) w2 := by
  obtain ⟨g, C, w', h1, h2, h4, h3⟩ := bench_done (f := desk true none) (s := plusMethod) (known := fun _ => false) (n := 1) (k := 10) (w := desk0) (v := .int 42)
    (sent := [("+".toList, [.obj 1, .int 1])]) (by decide +kernel)
  refine ⟨⟨?_, trivial, by decide⟩, g, C, .ast [] false (.inc (.readArg 1 0)), w', desk0, h1, h2, rfl, h3, h4, fun U => ?_⟩
  · simp only [plusMethod, Body.Wf, Ex.Wf, Exs.Wf, LitT.ok, Exs.length]
    decide
  · exact answers_exc ((gives_val (f := desk true none) (v := .obj 1) (w' := desk0) rfl).bind (gives_exc (f := desk true none) rfl))

/-- `foo: x = ( ^ x - 1 )` -/
def minusMethod : SMethod := ⟨[some 1, some 2], [], .exit (.dec (.var true 1 0))⟩

/-- **C34**, violated: `x - 1` is an instruction that raises an exception for objects that are not numbers in the bytecode interpreter, and a message in the AST interpreter. -/
theorem C34_violated_minus : minusMethod.Wf ∧ ∃ g C am w1 w2, minusMethod.compile (fun _ => false) 1 = .ok g ∧ assemble g = .ok C ∧
    minusMethod.ast (fun _ => false) (fun _ => .nil) = .ok am ∧
    Gives (bcRun (onMeth (World.of (desk true none))) C) desk0 (.exc .notImplemented) w1 ∧
    ∀ U, Gives (am.run (World.of (desk true none)) U id) desk0 (.ret (.int 42)) w2 := by
  obtain ⟨g, C, w', h1, h2, h4, h3⟩ := bench_raised (f := desk true none) (s := minusMethod) (known := fun _ => false) (n := 1) (k := 10) (w := desk0) (e := .notImplemented)
    (sent := []) (by decide +kernel)
  refine ⟨⟨?_, trivial, by decide⟩, g, C, .ast [] false (.send "-".toList (.readArg 1 0) (.cons (.lit (.int 1)) .nil)), w', { desk0 with sent := [("-".toList, [.obj 1, .int 1])] }, h1, h2, rfl, h3, fun U => ?_⟩
  · simp only [minusMethod, Body.Wf, Ex.Wf]
  · exact answers_val ((gives_val (f := desk true none) (v := .obj 1) (w' := desk0) rfl).bind ((gives_pure _ _).bind (gives_val (f := desk true none) rfl)))

/-- `[ x ifTrue: [ ^ 1 ]. 2 ]` -/
def escapedBlk : SBlock := .mk 1 [21] [] (.stmt (.send "ifTrue:".toList (.var true 1 1) (.cons (.blk true (.mk 2 [22] [] (.exit (.lit (.val (.int 1)))))) .nil)) (.last (.lit (.val (.int 2)))))

/-- **C34**, violated: when the method of a block is not active any more, `^` sends `escapedBlock:`.  If that answers, then `^` in a block that was inlined into the block ends the block
with the answer in the bytecode interpreter (`_do_return_non_local`), but in the AST interpreter the block goes on after it: `[ x ifTrue: [ ^ 1 ]. 2 ]` gives 42 or 2. -/
theorem C34_violated_escaped : escapedBlk.Wf ∧ ∃ m am w1 w2, escapedBlk.compile (fun _ => false) 2 0 = .ok m ∧ escapedBlk.ast (fun _ => false) (fun _ => .nil) [[]] = .ok am ∧
    Gives (m.run (onMeth (World.of (desk true (some (.int 42)))))) ⟨fun _ _ _ => .tru, fun _ => .nil, []⟩ (.ret (.int 42)) w1 ∧
    ∀ U, Gives (am.run (World.of (desk true (some (.int 42)))) U id) ⟨fun _ _ _ => .tru, fun _ => .nil, []⟩ (.ret (.int 2)) w2 := by
  obtain ⟨m, w', h1, _, h3⟩ := benchBlock_done (f := desk true (some (.int 42))) (s := escapedBlk) (known := fun _ => false) (n := 2) (lvl := 0) (k := 10) (w := ⟨fun _ _ _ => .tru, fun _ => .nil, []⟩)
    (v := .int 42) (sent := []) (by decide +kernel)
  refine ⟨?_, m, .ast 1 [21] [] (.seq (.cons (.inl1 (.ifBool true) (.readArg 1 1) (.retNL 1 (.lit (.int 1)))) (.cons (.lit (.int 2)) .nil))), w', ⟨fun _ _ _ => .tru, fun _ => .nil, []⟩, h1, rfl, h3, fun U => ?_⟩
  · simp only [escapedBlk, Body.Wf, Ex.Wf, Exs.Wf, SBlock.Wf, LitT.ok, Exs.length, Body.fits]
    decide
  · exact answers_val (((gives_val (f := desk true (some (.int 42))) (v := .tru) rfl).bind ((gives_pure _ _).bind (gives_val (f := desk true (some (.int 42))) rfl))).bind (gives_pure _ _))

/-- `foo = ( ^ #(7) )` -/
def arrayMethod : SMethod := ⟨[some 1], [], .exit (.lit (.arr (.cons (.val (.int 7)) .nil)))⟩

/-- **C34**, violated: a literal array is one object for all activations in the AST interpreter, and a new object each time in the bytecode interpreter. -/
theorem C34_violated_array : arrayMethod.Wf ∧ ∃ g C w1, arrayMethod.compile (fun _ => false) 1 = .ok g ∧ assemble g = .ok C ∧
    Gives (bcRun (onMeth (World.of (desk true none))) C) desk0 (.ret (.int 42)) w1 ∧ w1.sent = [("at:put:".toList, [.int 42, .int 1, .int 7]), ("new:".toList, [.nil, .int 1])] ∧
    ∀ alloc, ∃ am, arrayMethod.ast (fun _ => false) alloc = .ok am ∧ ∀ (W E : Type) (A : World Nat W E) U (err : Err → E) (w : W),
      Gives (am.run A U err) w (.ret (alloc (.cons (.val (.int 7)) .nil))) w := by
  obtain ⟨g, C, w', h1, h2, h4, h3⟩ := bench_done (f := desk true none) (s := arrayMethod) (known := fun _ => false) (n := 1) (k := 10) (w := desk0) (v := .int 42)
    (sent := [("at:put:".toList, [.int 42, .int 1, .int 7]), ("new:".toList, [.nil, .int 1])]) (by decide +kernel)
  refine ⟨⟨?_, trivial, by decide⟩, g, C, w', h1, h2, h3, h4, fun alloc => ⟨.triv (.lit _), rfl, fun W E A U err w => gives_answer _ _⟩⟩
  simp only [arrayMethod, Body.Wf, Ex.Wf]
  decide

/-! ### Methods that only the bytecode compiler accepts -/

/-- `foo: c = ( | a | c ifTrue: [ a := self ] )` -/
def selfMethod : SMethod := ⟨[some 1, some 2], [11], .last (.send "ifTrue:".toList (.var true 1 0)
  (.cons (.blk true (.mk 1 [21] [] (.last (.asg (.var "a".toList false 0 1) [] (.var true 0 1))))) .nil))⟩

/-- **C34**, violated: a method with `[ a := self ]` as the argument of `ifTrue:` compiles to bytecode, but the AST compiler raises an `AttributeError`: the node for `self` replaces itself
when it is inlined, which needs its parent, and `UninitializedWriteNode` has not adopted it (`variable_node.py:67-71, 123-132`). -/
theorem C34_violated_assign_self : selfMethod.Wf ∧ (∃ g C, selfMethod.compile (fun _ => false) 1 = .ok g ∧ assemble g = .ok C) ∧
    ∀ alloc, (selfMethod.ast (fun _ => false) alloc).map (fun _ => ()) = .error .attribute := by
  obtain ⟨g, C, w', h1, h2, _, h3⟩ := bench_done (f := desk true none) (s := selfMethod) (known := fun _ => false) (n := 1) (k := 10) (w := desk0) (v := .obj 0) (sent := []) (by decide +kernel)
  refine ⟨⟨?_, trivial, by decide⟩, ⟨g, C, h1, h2⟩, fun alloc => rfl⟩
  simp only [selfMethod, Body.Wf, Ex.Wf, Exs.Wf, SBlock.Wf, Exs.length, Body.fits]
  decide

/-- `foo: c = ( ^ c ifTrue: [ Array ] )` -/
def globalMethod : SMethod := ⟨[some 1, some 2], [], .exit (.send "ifTrue:".toList (.var true 1 0) (.cons (.blk false (.mk 1 [21] [] (.last (.glob "Array".toList)))) .nil))⟩

/-- **C34**, violated: `c ifTrue: [ Array ]`, where the global is known when the method is compiled, compiles to bytecode, but the AST compiler raises an `AttributeError`: the trivial
method for the block was made without the universe (`global_read_node.py:72-73`), which `GlobalRead.inline` asks for its globals (`method_trivial.py:128-132`). -/
theorem C34_violated_known_global : globalMethod.Wf ∧ (∃ g C, globalMethod.compile (fun _ => true) 1 = .ok g ∧ assemble g = .ok C) ∧
    ∀ alloc, (globalMethod.ast (fun _ => true) alloc).map (fun _ => ()) = .error .attribute := by
  obtain ⟨g, C, w', h1, h2, _, h3⟩ := bench_done (f := desk true none) (s := globalMethod) (known := fun _ => true) (n := 1) (k := 10) (w := desk0) (v := .nil) (sent := []) (by decide +kernel)
  refine ⟨⟨?_, trivial, by decide⟩, ⟨g, C, h1, h2⟩, fun alloc => rfl⟩
  simp only [globalMethod, Body.Wf, Ex.Wf, Exs.Wf, SBlock.Wf, Exs.length, Body.fits]
  decide

/-- `foo: x = ( ^ x + [ self ] )` -/
def plusBlockMethod : SMethod := ⟨[some 1, some 2], [], .exit (.send "+".toList (.var true 1 0) (.cons (.blk true (.mk 1 [21] [] (.last (.var true 0 1)))) .nil))⟩

/-- **C34**, violated: `x + [ self ]` compiles to bytecode, but the AST compiler executes the argument of `+` without a frame to see whether it is 1, and a block that needs its context
reads the frame (`compiler/ast/parser.py:226-233`, `block_node.py:27-28`). -/
theorem C34_violated_plus_block : plusBlockMethod.Wf ∧ (∃ g C, plusBlockMethod.compile (fun _ => false) 1 = .ok g ∧ assemble g = .ok C) ∧
    ∀ alloc, (plusBlockMethod.ast (fun _ => false) alloc).map (fun _ => ()) = .error .type := by
  obtain ⟨g, C, w', h1, h2, _, h3⟩ := bench_done (f := desk true none) (s := plusBlockMethod) (known := fun _ => false) (n := 1) (k := 10) (w := desk0) (v := .int 42)
    (sent := [("+".toList, [.obj 1, .obj 1])]) (by decide +kernel)
  refine ⟨⟨?_, trivial, by decide⟩, ⟨g, C, h1, h2⟩, fun alloc => rfl⟩
  simp only [plusBlockMethod, Body.Wf, Ex.Wf, Exs.Wf, SBlock.Wf, Exs.length, Body.fits]
  decide

/-- `foo: c = ( c ifTrue: [ self do: [ self do: Foo ] ] )` -/
def unknownMethod : SMethod := ⟨[some 1, some 2], [], .last (.send "ifTrue:".toList (.var true 1 0)
  (.cons (.blk true (.mk 1 [21] [] (.last (.send "do:".toList (.var true 0 1)
    (.cons (.blk true (.mk 2 [22] [] (.last (.send "do:".toList (.var true 0 2) (.cons (.glob "Foo".toList) .nil))))) .nil))))) .nil))⟩

/-- **C34**, violated: in a block inside a block that was inlined, reading a global that does not exist sends `unknownGlobal:` to the object two contexts out, although there is only one
context around the block, that of the method, where `self` is now found: `_UninitializedGlobalReadNode` has no `handle_outer_inlined` (`global_read_node.py:30-59`).  The read of `self`
beside it was adapted. -/
theorem C34_violated_unknown_global : unknownMethod.Wf ∧ ∀ alloc, unknownMethod.ast (fun _ => false) alloc = .ok (.ast [] false (.seq (.cons
    (.inl1 (.ifBool true) (.readArg 1 0) (.send "do:".toList (.self 0)
      (.cons (.blk true (.ast 2 [22] [] (.send "do:".toList (.self 1) (.cons (.globU "Foo".toList 2) .nil)))) .nil))) (.cons (.self 0) .nil)))) := by
  refine ⟨⟨?_, trivial, by decide⟩, fun alloc => rfl⟩
  simp only [unknownMethod, Body.Wf, Ex.Wf, Exs.Wf, SBlock.Wf, Exs.length, Body.fits]
  decide

end PySOM.BC

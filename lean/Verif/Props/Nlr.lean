import Verif.Lemmas.Nlr
/-!
# C36: non-local return
-/
set_option autoImplicit false
namespace PySOM.Nlr
open Spec

/-- C36, compile time.  Whatever the parser meets (blocks nested to any depth, `^` anywhere, variables, blocks inlined into their
surroundings), the notes the compiler makes are consistent: all blocks around a `^` get a context, the method catches returns, and
the number of levels to go up is the number of blocks around the `^` that still exist. -/
theorem C36_compile (n : Nat) (evs : List Ev) (c : Code) (h : compile n evs = some c) : Ok 0 c := compile_ok h

/-- `foo = ( … [ … [ … ^ v ] … [ ^ w ] ifTrue: … ] … )`: two levels of blocks and one inlined block. -/
def nestedEvents : List Ev := [.openBlock, .openBlock, .caret, .closeBlock 2, .openBlock, .caret, .inlineBlock, .closeBlock 1]
example : compile 7 nestedEvents =
    some (.mk 7 0 false false false true false [.mk 1 1 true false false false true [.mk 2 2 true false false false true []]]) := rfl
/-- A block inside a block that is inlined into the method: `foo = ( a ifTrue: [ b do: [ ^ v ] ] )`; the level becomes 1. -/
example : compile 7 [.openBlock, .openBlock, .caret, .closeBlock 2, .inlineBlock] =
    some (.mk 7 0 false false false true false [.mk 2 1 true false false false true []]) := rfl

theorem sim_run (e : Engine) (esc : Seen → Option Code) (hesc : ∀ v m, esc v = some m → Ok 0 m) : ∀ (qs : List Req)
    {own : List (Nat × Code)} {s : State} {t : Spec.State}, Rel own s t → (e = .bc → Plain (s.mem.map (·.rcvr)) own) →
    (∀ q ∈ qs, ReqOk q) → (e = .bc → Along esc NoBlockReceiver qs t) → Sim esc e (run e esc qs s) (Spec.run esc qs t)
  | [], _, _, _, h, hp, _, _ => ⟨_, h, hp⟩
  | q :: qs, own, s, t, h, hp, hq, ha => by
    have hs := step_sim e esc hesc h hp q (hq q List.mem_cons_self) (fun he => (ha he).1)
    simp only [run, Spec.run, bind, Except.bind, Option.bind]
    cases h1 : step e esc s q with
    | error er =>
      cases h2 : Spec.step esc t q with
      | none => rw [h1, h2] at hs; exact hs
      | some t' => rw [h1, h2] at hs; exact hs.elim
    | ok s' =>
      cases h2 : Spec.step esc t q with
      | none => rw [h1, h2] at hs; exact hs.elim
      | some t' =>
        rw [h1, h2] at hs
        obtain ⟨own', h3, h4⟩ := hs
        exact sim_run e esc hesc qs h3 h4 (fun q' hm => hq q' (List.mem_cons_of_mem _ hm)) (fun he => (ha he).2 t' h2)

theorem start_rel (m : Code) (hm : Ok 0 m) : ∃ own, Rel own (start m) (Spec.start m) ∧ Plain ((start m).mem.map (·.rcvr)) own := by
  have h0 : Rel [] ⟨[], [], [.obj 0], 1, []⟩ ⟨[], [.obj 0], 1, 0, []⟩ := by
    refine ⟨rfl, .cons (.obj 0) .nil, ?_, ?_, ⟨.nil, List.nodup_nil, ?_⟩, rfl, rfl, ?_, List.nodup_nil, ?_, ?_, ?_⟩
    · intro v hv; rw [List.mem_singleton] at hv; rw [hv]; trivial
    · intro v hv; cases hv
    · intro x ctx h m hx; simp at hx
    · intro i hi; cases hi
    · intro i hi; cases hi
    · intro x y c hx; simp at hx
    · intro c y hp; rw [List.mem_singleton] at hp; cases hp
  obtain ⟨own, h1, h2⟩ := activate_rel h0 (m := m) (v := .obj 0) (a := ⟨m, .obj 0, 0, 0, .obj 0, false⟩) (.obj 0) trivial
    (fun c y he => by cases he) rfl rfl rfl (Or.inl ⟨hm, rfl, rfl⟩)
  refine ⟨own, h1, Plain.activate (i := 0) (s := ⟨[], [], [.obj 0], 1, []⟩) (own := []) ?_ rfl h2 (fun _ => ⟨0, rfl⟩)⟩
  intro x h m' v ho
  simp at ho

/-- What the machine does compared with the specification: the same activations go on with the same values, the same messages are
sent; requests are refused by one if they are refused by the other; and no Python exception ever gets out, provided every object
understands `escapedBlock:`. -/
def Agrees (esc : Seen → Option Code) : Except Fail State → Option Spec.State → Prop
  | .ok s, some t => s.view = t.view
  | .error er, none => (∀ v, esc v ≠ none) → er = .refused
  | _, _ => False

theorem Sim.agrees {esc : Seen → Option Code} {e : Engine} {r : Except Fail State} {o : Option Spec.State} (h : Sim esc e r o) :
    Agrees esc r o := by
  cases r with
  | ok s => cases o with
    | none => exact h.elim
    | some t => obtain ⟨own, h1, _⟩ := h; exact h1.view
  | error er => cases o with
    | none => exact h
    | some t => exact h.elim

/-- C36 for the AST interpreter.  For every run of a program, i.e. every sequence of invocations of methods and blocks, creations of blocks,
returns and `^` in blocks: `^ v` in a block makes exactly the activation the block was lexically created in answer `v` (all activations
above it end), if it is still active; otherwise `escapedBlock:` is sent to its receiver.  See `Spec.caret`. -/
theorem C36_ast (esc : Seen → Option Code) (hesc : ∀ v m, esc v = some m → Ok 0 m) (m : Code) (hm : Ok 0 m) (qs : List Req)
    (hq : ∀ q ∈ qs, ReqOk q) : Agrees esc (run .ast esc qs (start m)) (Spec.run esc qs (Spec.start m)) := by
  obtain ⟨own, h1, _⟩ := start_rel m hm
  exact (sim_run .ast esc hesc qs h1 (fun h => by cases h) hq (fun h => by cases h)).agrees

/-- C36 for the bytecode interpreter.  Full statement: as `C36_ast`.  Missing: methods with non-local returns invoked on a receiver that is
itself a block, where `escapedBlock:` goes to the wrong object (`C36_violated_block_receiver`). -/
theorem C36_bc_partial (esc : Seen → Option Code) (hesc : ∀ v m, esc v = some m → Ok 0 m) (m : Code) (hm : Ok 0 m) (qs : List Req)
    (hq : ∀ q ∈ qs, ReqOk q) (hb : Along esc NoBlockReceiver qs (Spec.start m)) :
    Agrees esc (run .bc esc qs (start m)) (Spec.run esc qs (Spec.start m)) := by
  obtain ⟨own, h1, h2⟩ := start_rel m hm
  exact (sim_run .bc esc hesc qs h1 (fun _ => h2) hq (fun _ => hb)).agrees

theorem step_engine (esc : Seen → Option Code) {own : List (Nat × Code)} {s : State} {t : Spec.State} (h : Rel own s t) (q : Req)
    (hh : HomeActive t q) : step .bc esc s q = step .ast esc s q := by
  cases q with
  | caret r =>
    have hst := h.stack
    obtain ⟨hfr, hnd, hmk⟩ := hst
    obtain ⟨mem, stack, pool, nextObj, log⟩ := s
    obtain ⟨tstack, tpool, tobj, tid, tlog⟩ := t
    simp only at hfr hmk
    cases hfr with
    | nil => rfl
    | @cons f a fs as hfa hfs =>
    by_cases hcar : f.code.caret = true
    · have hblk : f.code.throws = true ∧ (∃ o, f.rcvr = .blk f.code o) ∧ a.rcvr = .blk f.code a.home a.self := by
        rcases hfa.kind with ⟨k1, _, _⟩ | ⟨_, ⟨l, k1, k2⟩, k3, k4⟩
        · cases k1 with | intro _ hc _ _ _ => have := (hc hcar).2; omega
        · cases k2 with | intro _ hc _ _ _ => exact ⟨(hc hcar).1, k3, k4⟩
      obtain ⟨hth, ⟨o, hro⟩, har⟩ := hblk
      obtain ⟨x, ctx, m, b, g1, g2, g3, g4, g5, g6⟩ := hfa.rcvr.home f.code o a.home a.self hro har hth
      have hon : ctx.on = true := (hmk x ctx a.home m g2 g3 g4).mpr (hh a rfl)
      simp only [step, doReturnNonLocal, g1, g2, bind, Except.bind, if_pos hon]
    · simp only [step, if_neg hcar]
  | _ => rfl

/-- C36 for the bytecode interpreter, runs in which no block is left by `^` after the end of its home: no restriction on receivers. -/
theorem C36_bc_no_escape_partial (esc : Seen → Option Code) (hesc : ∀ v m, esc v = some m → Ok 0 m) (m : Code) (hm : Ok 0 m)
    (qs : List Req) (hq : ∀ q ∈ qs, ReqOk q) (hb : Along esc HomeActive qs (Spec.start m)) :
    Agrees esc (run .bc esc qs (start m)) (Spec.run esc qs (Spec.start m)) := by
  have key : ∀ (qs : List Req) (own : List (Nat × Code)) (s : State) (t : Spec.State), Rel own s t → (∀ q ∈ qs, ReqOk q) →
      Along esc HomeActive qs t → run .bc esc qs s = run .ast esc qs s := by
    intro qs
    induction qs with
    | nil => intros; rfl
    | cons q qs ih =>
      intro own s t h hq ha
      simp only [run, step_engine esc h q ha.1, bind, Except.bind]
      have hs := step_sim .ast esc hesc h (fun he => by cases he) q (hq q List.mem_cons_self) (fun he => by cases he)
      cases h1 : step .ast esc s q with
      | error er => rfl
      | ok s' =>
        rw [h1] at hs
        cases h2 : Spec.step esc t q with
        | none => rw [h2] at hs; exact hs.elim
        | some t' =>
          rw [h2] at hs
          obtain ⟨own', h3, _⟩ := hs
          exact ih own' s' t' h3 (fun q' hm => hq q' (List.mem_cons_of_mem _ hm)) (ha.2 t' h2)
  obtain ⟨own, h1, _⟩ := start_rel m hm
  rw [key qs own _ _ h1 hq hb]
  exact C36_ast esc hesc m hm qs hq

/-! ## Concrete runs -/

/-- A method without blocks. -/
def leaf : Code := .mk 9 0 false false false false false []
theorem leaf_ok : Ok 0 leaf := C36_compile 9 [] leaf rfl

/-- The method of `nestedEvents`. -/
def nested : Code := .mk 7 0 false false false true false [.mk 1 1 true false false false true [.mk 2 2 true false false false true []]]
theorem nested_ok : Ok 0 nested := C36_compile 7 nestedEvents nested rfl

/-- Every object implements `escapedBlock:` by `leaf`. -/
def escLeaf : Seen → Option Code := fun _ => some leaf

/-- `nested` calls itself, the second activation evaluates its block, which creates and evaluates the inner block, after another method call
in between; `^` there returns from the second activation of `nested` to the first. -/
def deepRun : List Req := [.new, .send 1 nested, .block 0, .value 2, .block 0, .send 0 leaf, .value 3, .caret 1]
example : (∀ q ∈ deepRun, ReqOk q) ∧ Along escLeaf NoBlockReceiver deepRun (Spec.start nested) ∧
    Along escLeaf HomeActive deepRun (Spec.start nested) := by
  refine ⟨?_, ?_, ?_⟩
  · intro q hq
    simp only [deepRun, List.mem_cons, List.not_mem_nil, or_false] at hq
    rcases hq with rfl | rfl | rfl | rfl | rfl | rfl | rfl | rfl <;> first | trivial | exact nested_ok | exact leaf_ok
  · refine ⟨trivial, fun t' h => ?_⟩; cases h
    refine ⟨(by rintro _ c h self hp; cases hp), fun t' h => ?_⟩; cases h
    refine ⟨trivial, fun t' h => ?_⟩; cases h
    refine ⟨trivial, fun t' h => ?_⟩; cases h
    refine ⟨trivial, fun t' h => ?_⟩; cases h
    refine ⟨(by rintro h; cases h), fun t' h => ?_⟩; cases h
    refine ⟨trivial, fun t' h => ?_⟩; cases h
    exact ⟨trivial, fun _ _ => trivial⟩
  · refine ⟨trivial, fun t' h => ?_⟩; cases h
    refine ⟨trivial, fun t' h => ?_⟩; cases h
    refine ⟨trivial, fun t' h => ?_⟩; cases h
    refine ⟨trivial, fun t' h => ?_⟩; cases h
    refine ⟨trivial, fun t' h => ?_⟩; cases h
    refine ⟨trivial, fun t' h => ?_⟩; cases h
    refine ⟨trivial, fun t' h => ?_⟩; cases h
    refine ⟨?_, fun _ _ => trivial⟩
    intro a ha; cases ha; decide
/-- The state after it: only the first activation is left and has been answered the value 1. -/
example : ((run .bc escLeaf deepRun (start nested)).toOption.map fun s => (s.stack.length, s.log)) = some (1, [.answered 1 1]) := rfl

/-- The block escapes: `nested` answers its block, which is evaluated afterwards; `escapedBlock:` is sent to the receiver of `nested`. -/
def escapeRun : List Req := [.new, .send 1 nested, .block 0, .ret 2, .value 2, .caret 0]
example : ((run .bc escLeaf escapeRun (start nested)).toOption.map fun s => (s.stack.length, s.log)) =
    some (3, [.answered 1 2, .escaped (.obj 1) (.blk (.mk 1 1 true false false false true [.mk 2 2 true false false false true []]))]) := rfl

/-! ## Violations -/

/-- The bytecode interpreter looks for the receiver of `escapedBlock:` by leaving blocks as long as the receiver is a block
(`bc/frame.py:187-200`), also if the method's receiver is a block.  Here `nested` is invoked on a block created by the first activation (of
the object 0), as a method of class `Block` would be; the escaped block is reported to the object 0 instead. -/
theorem C36_violated_block_receiver :
    ∃ qs, ((run .bc escLeaf qs (start nested)).toOption.map (·.log.getLast?)) =
        some (some (.escaped (.obj 0) (.blk (.mk 1 1 true false false false true [.mk 2 2 true false false false true []])))) ∧
      ((Spec.run escLeaf qs (Spec.start nested)).map (·.log.getLast?)) =
        some (some (.escaped (.blk (.mk 1 1 true false false false true [.mk 2 2 true false false false true []]))
          (.blk (.mk 1 1 true false false false true [.mk 2 2 true false false false true []])))) ∧
      (∀ q ∈ qs, ReqOk q) := by
  refine ⟨[.block 0, .send 1 nested, .block 0, .ret 2, .value 2, .caret 0], rfl, rfl, ?_⟩
  intro q hq
  simp only [List.mem_cons, List.not_mem_nil, or_false] at hq
  rcases hq with rfl | rfl | rfl | rfl | rfl | rfl <;> first | trivial | exact nested_ok

/-- `main = ( [] foo )`: a method with a block that needs no context, on which `nested` is invoked. -/
def plainBlock : Code := .mk 5 0 false false false false false [.mk 6 1 false false false false false []]
/-- With a receiver that is a block without context, there is an `AssertionError` instead. -/
theorem C36_violated_block_receiver_fails :
    ∃ qs, (∀ q ∈ qs, ReqOk q) ∧ Ok 0 plainBlock ∧
      run .bc escLeaf qs (start plainBlock) = .error (.raised .assertion) ∧ (Spec.run escLeaf qs (Spec.start plainBlock)).isSome := by
  refine ⟨[.block 0, .send 1 nested, .block 0, .ret 2, .value 2, .caret 0], ?_, ?_, rfl, rfl⟩
  · intro q hq
    simp only [List.mem_cons, List.not_mem_nil, or_false] at hq
    rcases hq with rfl | rfl | rfl | rfl | rfl | rfl <;> first | trivial | exact nested_ok
  · exact C36_compile 5 [.openBlock, .closeBlock 6] plainBlock rfl

/-- Both interpreters: `escapedBlock:` to an object that does not understand it ends in an `AttributeError` (`send.py:4-10` calls `invoke_2` on
`None`) instead of `doesNotUnderstand:arguments:`. -/
theorem C36_violated_not_understood (e : Engine) :
    run e (fun _ => none) escapeRun (start nested) = .error (.raised .attribute) := by cases e <;> rfl
end PySOM.Nlr

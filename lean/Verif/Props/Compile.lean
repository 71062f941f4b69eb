import Verif.Lemmas.Walk
/-!
# C31 the operand stack, C44 well-formed bytecode: compiled methods

The theorems are about `compile`, for every way of inlining blocks that meets `Inliner.OK`: inlining a block adds code that
leaves exactly one more element on the stack.  `Props/Inline.lean` shows this for the inliner of `method_bc.py`.
-/
set_option autoImplicit false
namespace PySOM.BC
open PySOM

/-! ## Specification of instruction boundaries and jump targets, on bytes -/
namespace Spec

/-- The indexes at which instructions begin: 0, and after each instruction the index behind it. -/
inductive Boundary (bs : List Nat) : Nat → Prop where
  | zero : Boundary bs 0
  | next (p op n : Nat) (h : Boundary bs p) (ho : bs[p]? = some op) (hn : bytecodeLength op = some n) : Boundary bs (p + n)

/-- Forward jumps with a one-byte offset. -/
def forward1 : List Nat :=
  [Op.jump, Op.jumpOnTrueTopNil, Op.jumpOnFalseTopNil, Op.jumpOnTruePop, Op.jumpOnFalsePop, Op.jumpOnNotNilTopTop, Op.jumpOnNilTopTop,
   Op.jumpOnNotNilPop, Op.jumpOnNilPop]

/-- Forward jumps with a two-byte offset, low byte first. -/
def forward2 : List Nat :=
  [Op.jump2, Op.jump2OnTrueTopNil, Op.jump2OnFalseTopNil, Op.jump2OnTruePop, Op.jump2OnFalsePop, Op.jump2OnNotNilTopTop, Op.jump2OnNilTopTop,
   Op.jump2OnNotNilPop, Op.jump2OnNilPop]

/-- `t` is the index to which the instruction at `p` may jump. -/
def JumpsTo (bs : List Nat) (p : Nat) (t : Int) : Prop :=
  ∃ op a b, bs[p]? = some op ∧ bs[p + 1]? = some a ∧ bs[p + 2]? = some b ∧
    ((op ∈ forward1 ∧ t = p + a) ∨ (op ∈ forward2 ∧ t = p + (a + 256 * b)) ∨
     (op = Op.jumpBackward ∧ t = p - a) ∨ (op = Op.jump2Backward ∧ t = (p : Int) - (a + 256 * b)))

/-- Well-formed bytecode: from boundary to boundary there are whole, valid instructions up to the end; jumps go to boundaries
inside the code. -/
structure WellFormed {M : Type} (lits : List (Lit M)) (bs : List Nat) : Prop where
  byte : ∀ b ∈ bs, b ≤ 255
  whole : ∀ p, Boundary bs p → p = bs.length ∨
    ∃ op n d, bs[p]? = some op ∧ bytecodeLength op = some n ∧ p + n ≤ bs.length ∧ decode lits (bs.drop p) = some d
  jumps : ∀ p t, Boundary bs p → JumpsTo bs p t → ∃ r : Nat, t = r ∧ r < bs.length ∧ Boundary bs r
end Spec

section
variable {M X : Type}

theorem Walk.boundary {lits : List (Lit M)} {B : List Nat} {p q : Nat} (h : Walk lits B p q) (hp : Spec.Boundary B p) : Spec.Boundary B q := by
  induction h with
  | refl p => exact hp
  | step p q d h hl hs ih =>
    apply ih
    cases hb : B.drop p with
    | nil => rw [hb] at h; cases h
    | cons op rest =>
      rw [hb] at h
      refine .next p op _ hp ?_ (C44_lengths_agree lits op rest d h)
      have := List.getElem?_drop (xs := B) (i := p) (j := 0)
      rw [hb] at this
      simpa using this.symm

theorem boundary_walk {lits : List (Lit M)} {B : List Nat} (hw : Walk lits B 0 B.length) {p : Nat} (h : Spec.Boundary B p) : Walk lits B 0 p := by
  induction h with
  | zero => exact .refl _
  | next p op n h ho hn ih =>
    have hlt : p < B.length := (List.getElem?_eq_some_iff.mp ho).1
    have hw' := ih.linear' hw (by omega)
    cases hw' with
    | refl => omega
    | step _ _ d hd hl hs =>
      cases hb : B.drop p with
      | nil => rw [hb] at hd; cases hd
      | cons op' rest =>
        have h1 := List.getElem?_drop (xs := B) (i := p) (j := 0)
        rw [hb] at h1
        simp only [List.getElem?_cons_zero, Nat.add_zero] at h1
        rw [ho] at h1
        cases h1
        have h2 := C44_lengths_agree lits op rest d (hb ▸ hd)
        rw [hn] at h2
        cases h2
        exact ih.trans (.step _ _ d hd hl (.refl _))

/-- The jump targets of the specification are the ones of the decoder. -/
theorem jumpsTo_target {lits : List (Lit M)} {B : List Nat} {p : Nat} {t : Int} (h : Spec.JumpsTo B p t) : ∃ d, decode lits (B.drop p) = some d ∧ d.target p = some t := by
  obtain ⟨op, a, b, ho, ha, hb, h⟩ := h
  have e : decode lits (B.drop p) = decodeOp lits op (some a) (some b) := by
    have h1 := List.getElem?_drop (xs := B) (i := p) (j := 0)
    have h2 := List.getElem?_drop (xs := B) (i := p) (j := 1)
    have h3 := List.getElem?_drop (xs := B) (i := p) (j := 2)
    rw [Nat.add_zero, ho] at h1
    rw [ha] at h2
    rw [hb] at h3
    cases hd : B.drop p with
    | nil => rw [hd] at h1; cases h1
    | cons op' rest =>
      rw [hd] at h1 h2 h3
      simp only [List.getElem?_cons_zero, Option.some.injEq] at h1
      simp only [List.getElem?_cons_succ] at h2 h3
      subst h1
      simp only [decode, h2, h3]
  rw [e]
  have sh : a + b <<< 8 = a + 256 * b := by rw [Nat.shiftLeft_eq]; omega
  rcases h with ⟨hm, rfl⟩ | ⟨hm, rfl⟩ | ⟨rfl, rfl⟩ | ⟨rfl, rfl⟩
  · simp only [Spec.forward1, List.mem_cons, List.not_mem_nil, or_false] at hm
    rcases hm with rfl | rfl | rfl | rfl | rfl | rfl | rfl | rfl | rfl <;> exact ⟨_, rfl, rfl⟩
  · simp only [Spec.forward2, List.mem_cons, List.not_mem_nil, or_false] at hm
    rcases hm with rfl | rfl | rfl | rfl | rfl | rfl | rfl | rfl | rfl <;>
      exact ⟨_, rfl, congrArg some (show (p : Int) + ((a + b <<< 8 : Nat) : Int) = _ by rw [sh]; omega)⟩
  · exact ⟨_, rfl, rfl⟩
  · exact ⟨_, rfl, congrArg some (show (p : Int) - ((a + b <<< 8 : Nat) : Int) = _ by rw [sh]; omega)⟩

theorem assemble_ok {g : G M X} {C : Code M} (h : assemble g = .ok C) :
    (∀ b ∈ g.bytes, b ≤ 255) ∧ C = ⟨g.lits, g.bytes, (g.maxDepth + 2 + 2).toNat⟩ := by
  unfold assemble at h
  split at h
  · rename_i ha
    cases h
    refine ⟨fun b hb => ?_, rfl⟩
    have := List.all_eq_true.mp ha b hb
    simpa using this
  · cases h

/-- **C31**: no execution of a compiled method or block reads below the bottom of the operand stack, writes above its end, or runs
into something that is no instruction; also when the stack has only the size the compiler computed, without the elements
`assemble` adds to it. -/
theorem C31_stack_safe {W E : Type} {I : Inliner M X} (hI : I.OK) {isBlock : Bool} {lvl : Nat} {env : X} {b : Body M} {g : G M X} {C : Code M}
    (hw : b.wf (I.good lvl)) (hlv : isBlock = true ↔ 1 ≤ lvl) (hc : compile I.run isBlock lvl env b = .ok g) (ha : assemble g = .ok C)
    (A : World M W E) (w : W) (n : Nat) (k : Crash) (w' : W) :
    ¬ Steps A C n (Code.start w) (.crash k w') ∧
    ¬ Steps A { C with max := g.maxDepth.toNat } n (Code.start w) (.crash k w') := by
  obtain ⟨he, d, ht, hm⟩ := compile_ok hI hw hlv hc
  have hr := genBody_returns I isBlock lvl b (false, env)
  obtain ⟨_, rfl⟩ := assemble_ok ha
  refine ⟨fun hs => ?_, fun hs => ?_⟩
  · obtain ⟨o, _, ho, hf⟩ := (method_run (C := ⟨g.lits, g.bytes, (g.maxDepth + 2 + 2).toNat⟩) he ht (by show _ ≤ (g.maxDepth + 2 + 2).toNat; omega) hr w _
      (by trivial)).mp ⟨n, hs⟩
    cases o <;> cases hf
  · obtain ⟨o, _, ho, hf⟩ := (method_run (C := ⟨g.lits, g.bytes, g.maxDepth.toNat⟩) he ht (by show _ ≤ g.maxDepth.toNat; omega) hr w _
      (by trivial)).mp ⟨n, hs⟩
    cases o <;> cases hf

/-- Encodings of structured code are well-formed. -/
theorem Enc.wellFormed {lits : List (Lit M)} {code : SC M} {bytes : List Nat} (he : Enc lits code bytes) (hb : ∀ b ∈ bytes, b ≤ 255) (hr : code.endsRet = true) :
    Spec.WellFormed lits bytes := by
  have hat : At bytes 0 bytes := ⟨[], [], by simp, rfl⟩
  have hwk := he.walk bytes 0 hat
  rw [Nat.zero_add] at hwk
  refine ⟨hb, fun p hp => ?_, fun p t hp hj => ?_⟩
  · have h1 := boundary_walk hwk hp
    rcases h1.linear hwk with h | h
    · cases h with
      | refl => exact .inl rfl
      | step _ _ d hd hl hs =>
        right
        cases hdr : bytes.drop p with
        | nil => rw [hdr] at hd; cases hd
        | cons op rest =>
          rw [hdr] at hd
          refine ⟨op, _, d, ?_, C44_lengths_agree _ op rest d hd, hl, hd⟩
          have := List.getElem?_drop (xs := bytes) (i := p) (j := 0)
          rw [hdr] at this
          simpa using this.symm
    · left
      cases h with
      | refl => rfl
      | step _ _ d hd hl hs =>
        have := decode_pos hd
        omega
  · have h1 := boundary_walk hwk hp
    obtain ⟨d, hd, htg⟩ := jumpsTo_target (lits := lits) hj
    have hlt : p < bytes.length := by obtain ⟨op, _, _, ho, _⟩ := hj; exact (List.getElem?_eq_some_iff.mp ho).1
    obtain ⟨r, hr, hr1, hr2⟩ := he.targets_lt hr bytes 0 hat p d t h1 (by omega) hd htg
    exact ⟨r, hr, by simpa using hr2, hr1.boundary .zero⟩

/-- Code whose bytes encode structured code that returns does not crash. -/
theorem SC.endsRet_returns : ∀ c : SC M, c.endsRet = true → c.returns = true
  | .ins i, h => by cases i <;> first | rfl | cases h
  | .seq a b, h => by
    simp only [SC.endsRet] at h
    simp only [SC.returns, SC.endsRet_returns b h, Bool.or_true]
  | .nop, h => by cases h
  | .thenB _ _, h => by cases h
  | .ifElse _ _ _, h => by cases h
  | .loop _ _ _, h => by cases h

theorem Enc.safe {W E : Type} {code : SC M} {C : Code M} (he : Enc C.lits code C.bytes) {d : Nat} (ht : code.ty 0 = some d) (hm : code.maxd 0 ≤ C.max)
    (hr : code.returns = true) (A : World M W E) (w : W) (n : Nat) (k : Crash) (w' : W) : ¬ Steps A C n (Code.start w) (.crash k w') := by
  intro hs
  obtain ⟨o, _, ho, hf⟩ := (method_run he ht hm hr w _ (by trivial)).mp ⟨n, hs⟩
  cases o <;> cases hf

/-- **C44**: the bytes of a compiled method or block are well-formed. -/
theorem C44_well_formed {I : Inliner M X} (hI : I.OK) {isBlock : Bool} {lvl : Nat} {env : X} {b : Body M} {g : G M X} {C : Code M}
    (hw : b.wf (I.good lvl)) (hlv : isBlock = true ↔ 1 ≤ lvl) (hc : compile I.run isBlock lvl env b = .ok g) (ha : assemble g = .ok C) :
    Spec.WellFormed C.lits C.bytes := by
  obtain ⟨he, d, ht, hm⟩ := compile_ok hI hw hlv hc
  obtain ⟨hb, rfl⟩ := assemble_ok ha
  exact he.wellFormed hb (genBody_endsRet I isBlock lvl b (false, env))

/-! ## Cases that meet the hypotheses -/

/-- Blocks that answer a literal, such as `[ 3 ]`: `LiteralReturn.inline` (`method_trivial.py:75-76`) pushes the literal. -/
def literalInliner : Inliner Val Unit where
  run v g := .ok (emitPushConstant g v)
  code v _ _ := .ins (.pushConst v)
  env _ _ x := x
  good _ _ := True

theorem literalInliner_ok : literalInliner.OK := by
  refine ⟨?_, fun _ _ _ _ _ => rfl⟩
  intro m g g' hi h _
  cases h
  exact ⟨ext_pushConstant g m, (keep_pushConstant g m).1.trans hi, rfl⟩

/-- `[ true ] whileTrue: [ 7 ]. x := self foo: 1. ^ x = 5 ifTrue: [ 3 ] ifFalse: [ 4 ]` -/
def exampleBody : Body Val :=
  .stmt (.send "whileTrue:".toList (.blk false .tru) (.cons (.blk false (.int 7)) .nil))
    (.stmt (.asg (.var "x".toList false 0 0) [] (.send "foo:".toList (.var true 0 0) (.cons (.lit (.val (.int 1))) .nil)))
      (.exit (.send "ifTrue:ifFalse:".toList (.send "=".toList (.var false 0 0) (.cons (.lit (.val (.int 5))) .nil))
        (.cons (.blk false (.int 3)) (.cons (.blk false (.int 4)) .nil)))))

example : exampleBody.wf (literalInliner.good 0) := by
  simp only [exampleBody, Body.wf, Ex.wf, Exs.wf, LitT.ok, Exs.length, literalInliner]
  decide

/-- The method above compiles and assembles. -/
example : (match compile literalInliner.run false 0 () exampleBody with
    | .ok g => (match assemble g with
      | .ok C => some (g.maxDepth, C.max, C.bytes)
      | .error _ => none)
    | .error _ => none) = some (7, 11, [18, 54, 9, 0, 15, 3, 23, 59, 7, 0, 21, 23, 75, 0, 0, 20, 36, 5, 76, 0, 0, 74, 0, 0, 15, 6, 36, 7, 54, 8, 0, 15, 10,
      50, 5, 0, 15, 11, 40]) := by
  decide +kernel

end
end PySOM.BC

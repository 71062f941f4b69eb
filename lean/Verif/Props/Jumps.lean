import Verif.Lemmas.Jump
/-!
# C29 Jump patching is exact; C44 (first part) instruction lengths
-/
set_option autoImplicit false
namespace PySOM.BC
open PySOM

/-! ## Specification: what each jump instruction is for -/
namespace Spec

/-- Kinds of forward jumps. -/
inductive JKind where
  /-- jump -/
  | always
  /-- jump if the condition holds for the top of the stack; jumping leaves an element (nil, or the top itself), not jumping removes it -/
  | keep (c : JCond)
  /-- remove the top of the stack and jump if the condition holds for it -/
  | pop (c : JCond)
  deriving DecidableEq, Repr

/-- The forward jumps by name. -/
def kindOf : List (Nat × JKind) :=
  [(Op.jump, .always), (Op.jumpOnTrueTopNil, .keep .onTrue), (Op.jumpOnFalseTopNil, .keep .onFalse), (Op.jumpOnTruePop, .pop .onTrue),
   (Op.jumpOnFalsePop, .pop .onFalse), (Op.jumpOnNotNilTopTop, .keep .onNotNil), (Op.jumpOnNilTopTop, .keep .onNil),
   (Op.jumpOnNotNilPop, .pop .onNotNil), (Op.jumpOnNilPop, .pop .onNil),
   (Op.jump2, .always), (Op.jump2OnTrueTopNil, .keep .onTrue), (Op.jump2OnFalseTopNil, .keep .onFalse), (Op.jump2OnTruePop, .pop .onTrue),
   (Op.jump2OnFalsePop, .pop .onFalse), (Op.jump2OnNotNilTopTop, .keep .onNotNil), (Op.jump2OnNilTopTop, .keep .onNil),
   (Op.jump2OnNotNilPop, .pop .onNotNil), (Op.jump2OnNilPop, .pop .onNil)]

/-- Where and with which stack execution continues. -/
def landing {W E : Type} (k : JKind) (next target max : Nat) (s : List Val) (w : W) : Cfg W E :=
  match k, s with
  | .always, s => enter max target s w
  | .keep _, [] => .crash .underflow w
  | .keep c, v :: s => if c.holds v then enter max target (c.top v :: s) w else enter max next s w
  | .pop _, [] => .crash .underflow w
  | .pop c, v :: s => if c.holds v then enter max target s w else enter max next s w

end Spec

section
variable {M X W E : Type}

theorem kind_mem {op : Nat} {k : Spec.JKind} (hk : Spec.kindOf.lookup op = some k) : jumpBytecodes.contains op = true := by
  simp only [Spec.kindOf, List.lookup] at hk
  repeat' split at hk
  all_goals first
    | (rename_i h; have h := beq_iff_eq.mp h; subst h; decide)
    | cases hk

theorem kind_decode {op : Nat} {k : Spec.JKind} (hk : Spec.kindOf.lookup op = some k) (lits : List (Lit M)) (o : Nat) (rest : List Nat)
    (max p : Nat) (s : List Val) (w : W) :
    ∃ d : Dec M, decode lits (op :: 0 :: 0 :: rest) = some d ∧ (∀ i l, d ≠ .ins i l) ∧
      (jumpTo max p s w (d.withOff o) : Cfg W E) = Spec.landing k (p + 3) (p + o) max s w := by
  simp only [Spec.kindOf, List.lookup] at hk
  repeat' split at hk
  all_goals first
    | cases hk; done
    | (rename_i h; have h := beq_iff_eq.mp h; subst h; cases hk; exact ⟨_, rfl, (by intro i l h; cases h), (by cases s <;> rfl)⟩)

/-- **C29**, forward jumps.  `pre` is the code before the jump, `mid` the code emitted after it, before it is patched.  Patching succeeds exactly if the distance fits
into two bytes, and otherwise it is reported as a parse error. -/
theorem C29_patch_accepts_iff (g : G M X) (pre mid : List Nat) (op x y : Nat) (k : Spec.JKind) (hk : Spec.kindOf.lookup op = some k)
    (hb : g.bytes = pre ++ op :: x :: y :: mid) :
    (∃ g', patchJump g (pre.length + 1) = .ok g') ∨ patchJump g (pre.length + 1) = .error .parse := by
  rw [patchJump_eq g pre mid op x y hb (kind_mem hk)]
  split
  · exact .inl ⟨_, rfl⟩
  · exact .inr rfl

/-- **C29**: the distance that cannot be encoded is rejected, every other one is accepted. -/
theorem C29_patch_rejects_iff (g : G M X) (pre mid : List Nat) (op x y : Nat) (k : Spec.JKind) (hk : Spec.kindOf.lookup op = some k)
    (hb : g.bytes = pre ++ op :: x :: y :: mid) :
    patchJump g (pre.length + 1) = .error .parse ↔ 65536 ≤ 3 + mid.length := by
  rw [patchJump_eq g pre mid op x y hb (kind_mem hk)]
  split
  · exact ⟨nofun, by omega⟩
  · exact ⟨fun _ => by omega, fun _ => rfl⟩

/-- **C29**: patching changes only the three bytes of the jump, and they are bytes. -/
theorem C29_patch_local (g g' : G M X) (pre mid : List Nat) (op x y : Nat) (k : Spec.JKind) (hk : Spec.kindOf.lookup op = some k)
    (hb : g.bytes = pre ++ op :: x :: y :: mid) (h : patchJump g (pre.length + 1) = .ok g') :
    ∃ p, p.length = 3 ∧ (∀ b ∈ p, b ≤ 255) ∧ g' = { g with bytes := pre ++ p ++ mid } := by
  rw [patchJump_eq g pre mid op x y hb (kind_mem hk)] at h
  split at h
  · cases h
    exact ⟨_, patched_length _ _, patched_bytes (kind_mem hk) (by omega), rfl⟩
  · cases h

/-- **C29**: whatever code is added later, the interpreter, arriving at the patched jump, continues at the instruction that was the next one to be emitted when the
jump was patched (`g'.bytes.length`) if the jump is taken, and directly behind the jump otherwise, with the stack the kind of jump prescribes. -/
theorem C29_patch_target (g g' : G M X) (pre mid : List Nat) (op x y : Nat) (k : Spec.JKind) (hk : Spec.kindOf.lookup op = some k)
    (hb : g.bytes = pre ++ op :: x :: y :: mid) (h : patchJump g (pre.length + 1) = .ok g')
    (A : World M W E) (C : Code M) (later : List Nat) (hC : C.bytes = g'.bytes ++ later) (s : List Val) (w : W) (c : Cfg W E) :
    Step A C (.run pre.length s w) c ↔ c = Spec.landing k (pre.length + 3) g'.bytes.length C.max s w := by
  rw [patchJump_eq g pre mid op x y hb (kind_mem hk)] at h
  split at h
  · rename_i hle
    cases h
    obtain ⟨d, h1, h2, h3⟩ := kind_decode (W := W) (E := E) (M := M) hk C.lits (3 + mid.length) [] C.max pre.length s w
    have hd : Is C.lits (d.withOff (3 + mid.length)) (patched op (3 + mid.length)) :=
      fun rest => decode_patched (kind_mem hk) C.lits 0 0 (3 + mid.length) [] rest d h1
    have hat : At C.bytes pre.length (patched op (3 + mid.length)) := ⟨pre, mid ++ later, by simp [hC], rfl⟩
    have hn : ∀ i len, d.withOff (3 + mid.length) ≠ .ins i len := by
      intro i len
      cases d with
      | ins i l => exact (h2 i l rfl).elim
      | jump _ => exact nofun
      | jumpTop _ _ => exact nofun
      | jumpPop _ _ => exact nofun
      | jumpBack _ => exact nofun
    rw [step_jump hat hd hn, h3]
    simp only [List.length_append, patched_length, Nat.add_assoc]
  · cases h

/-- **C29**: the conditional jump the generator emits is of the kind it asked for. -/
theorem C29_emitted_kind (c : JCond) (needsPop : Bool) :
    Spec.kindOf.lookup (jumpOp c needsPop) = some (if needsPop then .pop c else .keep c) := by
  cases c <;> cases needsPop <;> rfl

/-- **C29**, end to end: emit a conditional jump, emit any code, patch, emit any more code. -/
theorem C29_emit_patch (g g1 g2 : G M X) (c : JCond) (needsPop : Bool) (mid : List Nat)
    (h1 : g1.bytes = (emitJumpOnDummy g c needsPop).2.bytes ++ mid) (h2 : patchJump g1 (emitJumpOnDummy g c needsPop).1 = .ok g2)
    (A : World M W E) (C : Code M) (later : List Nat) (hC : C.bytes = g2.bytes ++ later) (s : List Val) (w : W) (c' : Cfg W E) :
    Step A C (.run g.bytes.length s w) c' ↔
      c' = Spec.landing (if needsPop then .pop c else .keep c) (g.bytes.length + 3) g2.bytes.length C.max s w := by
  have hb : g1.bytes = g.bytes ++ jumpOp c needsPop :: 0 :: 0 :: mid := by
    rw [h1]; simp [emitJumpOnDummy, emit3Dummy, addArg, addBytecode]
  exact C29_patch_target g1 g2 g.bytes mid _ 0 0 _ (C29_emitted_kind c needsPop) hb h2 A C later hC s w c'

/-- **C29**: likewise for the unconditional forward jump. -/
theorem C29_emit_patch_always (g g1 g2 : G M X) (mid : List Nat)
    (h1 : g1.bytes = (emitJumpDummy g).2.bytes ++ mid) (h2 : patchJump g1 (emitJumpDummy g).1 = .ok g2)
    (A : World M W E) (C : Code M) (later : List Nat) (hC : C.bytes = g2.bytes ++ later) (s : List Val) (w : W) (c' : Cfg W E) :
    Step A C (.run g.bytes.length s w) c' ↔ c' = enter C.max g2.bytes.length s w := by
  have hb : g1.bytes = g.bytes ++ Op.jump :: 0 :: 0 :: mid := by
    rw [h1]; simp [emitJumpDummy, emit3Dummy, addArg, addBytecode]
  have h := C29_patch_target g1 g2 g.bytes mid Op.jump 0 0 .always rfl hb h2 A C later hC s w c'
  rw [h]; rfl

/-- **C29**, backward jumps: rejected exactly if the distance does not fit. -/
theorem C29_backward_rejects_iff (g : G M X) (begin : Nat) (hb : begin ≤ g.bytes.length) :
    emitBackJump g begin = .error .parse ↔ 65536 ≤ g.bytes.length - begin := by
  unfold emitBackJump
  dsimp only
  split
  · exact ⟨fun _ => by omega, fun _ => rfl⟩
  · exact ⟨nofun, by omega⟩

/-- **C29**, backward jumps: three bytes are appended, and the interpreter, arriving at them, continues at `begin`. -/
theorem C29_backward_target (g g' : G M X) (begin : Nat) (hb : begin ≤ g.bytes.length) (h : emitBackJump g begin = .ok g')
    (A : World M W E) (C : Code M) (later : List Nat) (hC : C.bytes = g'.bytes ++ later) (s : List Val) (w : W) (c : Cfg W E) :
    (∃ p, p.length = 3 ∧ (∀ b ∈ p, b ≤ 255) ∧ g'.bytes = g.bytes ++ p) ∧
    (Step A C (.run g.bytes.length s w) c ↔ c = enter C.max begin s w) := by
  unfold emitBackJump at h
  dsimp only at h
  split at h
  · cases h
  · rename_i hr
    cases h
    have ho : (((g.bytes.length : Int) - (begin : Int)).toNat) = g.bytes.length - begin := by omega
    rw [ho] at hC ⊢
    generalize hoff : g.bytes.length - begin = off at hC ⊢
    have hle : off ≤ 0xFFFF := by omega
    have h3 : off &&& 0xFF = off % 2 ^ 8 := Nat.and_two_pow_sub_one_eq_mod off 8
    have h4 : off >>> 8 = off / 2 ^ 8 := Nat.shiftRight_eq_div_pow off 8
    have hbytes : ∀ op, (emit3 g op (off &&& 0xFF) (off >>> 8) 0).bytes = g.bytes ++ [op, off &&& 0xFF, off >>> 8] := by
      intro op; simp [emit3, addArg, addBytecode]
    refine ⟨⟨[_, off &&& 0xFF, off >>> 8], rfl, ?_, hbytes _⟩, ?_⟩
    · intro b hb
      simp only [List.mem_cons, List.not_mem_nil, or_false] at hb
      rcases hb with rfl | rfl | rfl
      · split <;> decide
      · omega
      · omega
    · have hC : C.bytes = g.bytes ++ ([if off ≤ 0xFF then Op.jumpBackward else Op.jump2Backward, off &&& 0xFF, off >>> 8] ++ later) := by
        rw [hC]; simp only [hbytes]; simp
      have hat : At C.bytes g.bytes.length [if off ≤ 0xFF then Op.jumpBackward else Op.jump2Backward, off &&& 0xFF, off >>> 8] :=
        ⟨g.bytes, later, hC, rfl⟩
      have hd : Is C.lits (.jumpBack off : Dec M) [if off ≤ 0xFF then Op.jumpBackward else Op.jump2Backward, off &&& 0xFF, off >>> 8] := by
        intro rest
        split
        · have : off &&& 0xFF = off := by omega
          rw [this]; rfl
        · have := low_high off
          conv => rhs; rw [← this]
          rfl
      rw [step_jump hat hd (by intro i l h; cases h)]
      simp only [jumpTo]
      rw [if_pos (by omega)]
      have : g.bytes.length - off = begin := by omega
      rw [this]

/-- The theorem about forward jumps applies to a jump over 300 bytes, which needs the long form. -/
example : ∃ g' : G Nat Unit, patchJump { G.new 0 () with bytes := [Op.pushNil, Op.jumpOnFalsePop, 0, 0] ++ List.replicate 300 Op.dup } 2 = .ok g' ∧
    g'.bytes.take 4 = [Op.pushNil, Op.jump2OnFalsePop, 47, 1] := by
  have h := patchJump_eq (M := Nat) (X := Unit) { G.new 0 () with bytes := [Op.pushNil, Op.jumpOnFalsePop, 0, 0] ++ List.replicate 300 Op.dup }
    [Op.pushNil] (List.replicate 300 Op.dup) Op.jumpOnFalsePop 0 0 (by simp only [List.cons_append, List.nil_append]) (by decide)
  rw [if_pos (by rw [List.length_replicate]; decide)] at h
  exact ⟨_, h, by decide +kernel⟩

/-- …and to one over 10 bytes. -/
example : ∃ g' : G Nat Unit, patchJump { G.new 0 () with bytes := [Op.pushNil, Op.jumpOnFalsePop, 0, 0] ++ List.replicate 10 Op.dup } 2 = .ok g' ∧
    g'.bytes.take 4 = [Op.pushNil, Op.jumpOnFalsePop, 13, 0] := by
  refine ⟨_, rfl, ?_⟩
  decide +kernel

/-! ## C44: instruction lengths -/

/-- Length of a decoded instruction, as far as the interpreter advances over it when it does not jump. -/
def Dec.len : Dec M → Nat
  | .ins _ n => n
  | _ => 3

/-- **C44**: the interpreter advances over every instruction by the length given in the length table. -/
theorem C44_lengths_agree (lits : List (Lit M)) (op : Nat) (rest : List Nat) (d : Dec M) (h : decode lits (op :: rest) = some d) :
    bytecodeLength op = some d.len := by
  have hop : op < 78 := by
    apply Classical.byContradiction
    intro hn
    have : decode lits (op :: rest) = none := by
      simp only [decode, decodeOp]
      repeat (rw [if_neg (by intro h; rw [h] at hn; exact hn (by decide))])
    rw [this] at h
    cases h
  have hcases : ∀ n, n < 78 → decode lits (n :: rest) = some d → bytecodeLength n = some d.len := by
    intro n hn
    simp only [decode]
    generalize rest[0]? = a
    generalize rest[1]? = b
    intro h
    have hn : n = 0 ∨ n = 1 ∨ n = 2 ∨ n = 3 ∨ n = 4 ∨ n = 5 ∨ n = 6 ∨ n = 7 ∨ n = 8 ∨ n = 9 ∨ n = 10 ∨ n = 11 ∨ n = 12 ∨ n = 13 ∨ n = 14 ∨ n = 15 ∨ n = 16 ∨ n = 17 ∨ n = 18 ∨ n = 19 ∨ n = 20 ∨ n = 21 ∨ n = 22 ∨ n = 23 ∨ n = 24 ∨ n = 25 ∨ n = 26 ∨ n = 27 ∨ n = 28 ∨ n = 29 ∨ n = 30 ∨ n = 31 ∨ n = 32 ∨ n = 33 ∨ n = 34 ∨ n = 35 ∨ n = 36 ∨ n = 37 ∨ n = 38 ∨ n = 39 ∨ n = 40 ∨ n = 41 ∨ n = 42 ∨ n = 43 ∨ n = 44 ∨ n = 45 ∨ n = 46 ∨ n = 47 ∨ n = 48 ∨ n = 49 ∨ n = 50 ∨ n = 51 ∨ n = 52 ∨ n = 53 ∨ n = 54 ∨ n = 55 ∨ n = 56 ∨ n = 57 ∨ n = 58 ∨ n = 59 ∨ n = 60 ∨ n = 61 ∨ n = 62 ∨ n = 63 ∨ n = 64 ∨ n = 65 ∨ n = 66 ∨ n = 67 ∨ n = 68 ∨ n = 69 ∨ n = 70 ∨ n = 71 ∨ n = 72 ∨ n = 73 ∨ n = 74 ∨ n = 75 ∨ n = 76 ∨ n = 77 := by omega
    rcases hn with rfl | rfl | rfl | rfl | rfl | rfl | rfl | rfl | rfl | rfl | rfl | rfl | rfl | rfl | rfl | rfl | rfl | rfl | rfl | rfl | rfl | rfl | rfl | rfl | rfl | rfl | rfl | rfl | rfl | rfl | rfl | rfl | rfl | rfl | rfl | rfl | rfl | rfl | rfl | rfl | rfl | rfl | rfl | rfl | rfl | rfl | rfl | rfl | rfl | rfl | rfl | rfl | rfl | rfl | rfl | rfl | rfl | rfl | rfl | rfl | rfl | rfl | rfl | rfl | rfl | rfl | rfl | rfl | rfl | rfl | rfl | rfl | rfl | rfl | rfl | rfl | rfl | rfl <;>
    (unfold decodeOp at h
     repeat rw [if_neg (by decide)] at h
     first
     | (cases h; done)
     | (rw [if_pos rfl] at h
        simp only [Option.bind_eq_bind, Option.bind_eq_some_iff, Option.some.injEq] at h
        first
        | (subst h; rfl)
        | (obtain ⟨_, _, h⟩ := h; subst h; rfl)
        | (obtain ⟨_, _, _, _, h⟩ := h; subst h; rfl)))
  exact hcases op hop h

example : decode ([] : List (Lit Nat)) [Op.pushLocal, 3, 1, Op.returnLocal] = some (.ins (.pushVar false 3 1) 3) := rfl
end

end PySOM.BC

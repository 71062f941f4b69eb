import Verif.Model.Gen
import Verif.Lemmas.Struct
/-!
# Jumps: patching and decoding
-/
set_option autoImplicit false
namespace PySOM.BC
open PySOM

section
variable {M X : Type}

/-- The same jump with another distance. -/
def Dec.withOff : Dec M → Nat → Dec M
  | .ins i l, _ => .ins i l
  | .jump _, o => .jump o
  | .jumpTop c _, o => .jumpTop c o
  | .jumpPop c _, o => .jumpPop c o
  | .jumpBack _, o => .jumpBack o

theorem low_high (n : Nat) : (n &&& 0xFF) + (n >>> 8) <<< 8 = n := by
  have h1 : n &&& 0xFF = n % 2 ^ 8 := Nat.and_two_pow_sub_one_eq_mod n 8
  rw [h1, Nat.shiftRight_eq_div_pow, Nat.shiftLeft_eq]
  omega

theorem mem_jumps {op : Nat} (h : jumpBytecodes.contains op = true) : 50 ≤ op ∧ op ≤ 69 := by
  simp [jumpBytecodes, Op.jump, Op.jumpOnTrueTopNil, Op.jumpOnTruePop, Op.jumpOnFalsePop, Op.jumpOnFalseTopNil, Op.jumpOnNotNilTopTop,
   Op.jumpOnNilTopTop, Op.jumpOnNotNilPop, Op.jumpOnNilPop, Op.jumpBackward, Op.jump2, Op.jump2OnTrueTopNil,
   Op.jump2OnTruePop, Op.jump2OnFalsePop, Op.jump2OnFalseTopNil, Op.jump2OnNotNilTopTop, Op.jump2OnNilTopTop,
   Op.jump2OnNotNilPop, Op.jump2OnNilPop, Op.jump2Backward] at h; omega

theorem jump_cases {op : Nat} (h : 50 ≤ op ∧ op ≤ 69) : op = 50 ∨ op = 51 ∨ op = 52 ∨ op = 53 ∨ op = 54 ∨ op = 55 ∨
    op = 56 ∨ op = 57 ∨ op = 58 ∨ op = 59 ∨ op = 60 ∨ op = 61 ∨ op = 62 ∨ op = 63 ∨ op = 64 ∨ op = 65 ∨ op = 66 ∨ op = 67 ∨ op = 68 ∨ op = 69 := by omega

/-- A jump instruction is decoded as a jump, whatever its operands. -/
theorem decode_jump {op : Nat} (h : jumpBytecodes.contains op = true) (lits : List (Lit M)) (x y : Nat) (rest : List Nat) :
    ∃ d, decode lits (op :: x :: y :: rest) = some d ∧ ∀ i l, d ≠ .ins i l := by
  rcases jump_cases (mem_jumps h) with rfl | rfl | rfl | rfl | rfl | rfl | rfl | rfl | rfl | rfl | rfl | rfl | rfl | rfl | rfl | rfl | rfl | rfl |
    rfl | rfl <;> exact ⟨_, rfl, by intro i l h; cases h⟩

/-- Short form: the distance is the first byte (the second is 0). -/
theorem decode_short {op : Nat} (h : jumpBytecodes.contains op = true) (lits : List (Lit M)) (x y o : Nat) (rest rest' : List Nat)
    (d : Dec M) (hd : decode lits (op :: x :: y :: rest) = some d) :
    decode lits (op :: o :: 0 :: rest') = some (d.withOff o) := by
  rcases jump_cases (mem_jumps h) with rfl | rfl | rfl | rfl | rfl | rfl | rfl | rfl | rfl | rfl | rfl | rfl | rfl | rfl | rfl | rfl | rfl | rfl |
    rfl | rfl <;> (cases hd; first | rfl | (show some _ = some _; simp [Dec.withOff]))

/-- Long form. -/
theorem decode_long {op : Nat} (h : jumpBytecodes.contains op = true) (lits : List (Lit M)) (x y o : Nat) (rest rest' : List Nat)
    (d : Dec M) (hd : decode lits (op :: x :: y :: rest) = some d) :
    decode lits ((if op < firstDoubleByteJump then op + numSingleByteJumps else op) :: (o &&& 0xFF) :: (o >>> 8) :: rest') = some (d.withOff o) := by
  have hn : numSingleByteJumps = 10 := by decide
  have hf : firstDoubleByteJump = 60 := rfl
  rw [hn, hf]
  rcases jump_cases (mem_jumps h) with rfl | rfl | rfl | rfl | rfl | rfl | rfl | rfl | rfl | rfl | rfl | rfl | rfl | rfl | rfl | rfl | rfl | rfl |
    rfl | rfl <;> (cases hd; simp only [Nat.reduceLT, ↓reduceIte, Nat.reduceAdd]; conv => rhs; rw [← low_high o]
                   rfl)

theorem long_mem {op : Nat} (h : jumpBytecodes.contains op = true) :
    jumpBytecodes.contains (if op < firstDoubleByteJump then op + numSingleByteJumps else op) = true := by
  have hn : numSingleByteJumps = 10 := by decide
  have hf : firstDoubleByteJump = 60 := rfl
  rw [hn, hf]
  rcases jump_cases (mem_jumps h) with rfl | rfl | rfl | rfl | rfl | rfl | rfl | rfl | rfl | rfl | rfl | rfl | rfl | rfl | rfl | rfl | rfl | rfl |
    rfl | rfl <;> decide

/-- The bytes of a jump after patching. -/
def patched (op off : Nat) : List Nat :=
  if off ≤ 0xFF then [op, off, 0]
  else [if op < firstDoubleByteJump then op + numSingleByteJumps else op, off &&& 0xFF, off >>> 8]

theorem patched_length (op off : Nat) : (patched op off).length = 3 := by unfold patched; split <;> rfl

theorem patchJump_eq (g : G M X) (pre mid : List Nat) (op x y : Nat) (hb : g.bytes = pre ++ op :: x :: y :: mid)
    (hop : jumpBytecodes.contains op = true) :
    patchJump g (pre.length + 1) =
      if 3 + mid.length ≤ 0xFFFF then .ok { g with bytes := pre ++ patched op (3 + mid.length) ++ mid } else .error .parse := by
  have hget : g.bytes[pre.length]? = some op := by rw [hb]; simp
  have hlen : ((g.bytes.length : Int) - (pre.length : Int)) = ((3 + mid.length : Nat) : Int) := by rw [hb]; simp; omega
  simp only [patchJump, subAssert, bind, Except.bind]
  rw [if_pos (by omega)]
  simp only [Nat.add_sub_cancel, hget, hop, hlen, Bool.true_eq_false, if_false, Int.toNat_natCast]
  split
  · rename_i h
    rw [if_neg (show ¬ 3 + mid.length ≤ 0xFFFF by omega)]
  · rename_i h
    rw [if_pos (show 3 + mid.length ≤ 0xFFFF by omega)]
    split
    · rename_i h2
      simp only [patched, if_pos h2, hb]
      simp [List.set_append, Nat.add_sub_cancel_left, show ¬ (pre.length + 1 < pre.length) by omega,
        show pre.length + 1 + 1 - pre.length = 2 by omega, show ¬ (pre.length + 1 + 1 < pre.length) by omega]
    · rename_i h2
      rw [long_mem hop]
      simp only [patched, if_neg h2, hb, Bool.true_eq_false, if_false]
      simp [List.set_append, Nat.add_sub_cancel_left, show ¬ (pre.length + 1 < pre.length) by omega,
        show pre.length + 1 + 1 - pre.length = 2 by omega, show ¬ (pre.length + 1 + 1 < pre.length) by omega]

/-- A patched jump decodes to the same kind of jump with the distance to the end of the code. -/
theorem decode_patched {op : Nat} (h : jumpBytecodes.contains op = true) (lits : List (Lit M)) (x y o : Nat) (rest rest' : List Nat)
    (d : Dec M) (hd : decode lits (op :: x :: y :: rest) = some d) :
    decode lits (patched op o ++ rest') = some (d.withOff o) := by
  unfold patched
  split
  · exact decode_short h lits x y o rest rest' d hd
  · exact decode_long h lits x y o rest rest' d hd

theorem patched_bytes {op o : Nat} (hop : jumpBytecodes.contains op = true) (ho : o ≤ 0xFFFF) : ∀ b ∈ patched op o, b ≤ 255 := by
  have h1 := (mem_jumps hop)
  have h2 := (mem_jumps (long_mem hop))
  have h3 : o &&& 0xFF = o % 2 ^ 8 := Nat.and_two_pow_sub_one_eq_mod o 8
  have h4 : o >>> 8 = o / 2 ^ 8 := Nat.shiftRight_eq_div_pow o 8
  unfold patched
  intro b hb
  split at hb <;> simp only [List.mem_cons, List.not_mem_nil, or_false] at hb <;> rcases hb with rfl | rfl | rfl <;> omega

end
end PySOM.BC

import Verif.Props.PrimNumbers
import Verif.Spec.PrimMessages
/-!
# C02, C03, C05, C53 and C76: operations of numbers in a running program

Division and remainders, bits, absolute values, larger and smaller numbers, and comparisons of Integers with Doubles, as messages: they have exactly one outcome, and what they answer is what these properties say.
-/
set_option autoImplicit false
namespace PySOM.Mach
open PySOM BC

section
variable {ι F : Type} {I : Image ι} {p : Platform} {fo : Floats F} {b : Behaviour ι (St (Data F) Printed) Esc} {w w' : St (Data F) Printed} {r : Res Esc}

/-- A primitive that answers an integer object. -/
theorem integer_computes {sel : String} {q : Prim} (hI : I.Has I.intCls sel q) {l : Val} {vs : List Val} {x z : Int} (hl : Num.Spec.Denotes p (I.num w.sh l) x) {res : Except Err (Num.Num F)}
    (hs : (I.prog p fo).step (.start (some q) (l :: vs)) w.sh = ends (I.boxed w.sh res)) (key : Num.Spec.Answers p res z) :
    Computes ((I.prog p fo).sends b sel (l :: vs)) w fun sh v => Num.Spec.Denotes p (I.num sh v) z := by
  obtain ⟨n, hn, hd⟩ := key
  obtain ⟨new, h1, h2⟩ := box_num (I := I) w.sh hd
  refine ⟨(I.box w.sh n).2, new, ?_, fun r w' => ?_⟩
  · show Num.Spec.Denotes p (I.num { w.sh with objs := w.sh.objs ++ new } _) _
    rw [h2]
    exact hd
  have he : (I.prog p fo).step (.start (some q) (l :: vs)) w.sh = ({ w.sh with objs := w.sh.objs ++ new }, .done (I.box w.sh n).2) := by
    rw [hs, hn, ← h1]
    rfl
  rw [sends_prim (denotes_class hl) hI, Do.prim_iff, he]

theorem arith_computes {sel : String} {o : Arith} (hI : I.Has I.intCls sel (.arith o)) {l m : Val} {x z : Int} (hl : Num.Spec.Denotes p (I.num w.sh l) x)
    (key : Num.Spec.Answers p (o.op p fo (I.num w.sh l) (I.num w.sh m)) z) : Computes ((I.prog p fo).sends b sel [l, m]) w fun sh v => Num.Spec.Denotes p (I.num sh v) z :=
  integer_computes hI hl rfl key

theorem arith_fails {sel : String} {o : Arith} (hI : I.Has I.intCls sel (.arith o)) {x : Int} {m : Val} {e : Err} (key : o.op p fo (.int x) (I.num w.sh m) = .error e) :
    (I.prog p fo).sends b sel [.int x, m] w (toSrc r) w' ↔ r = .exc (.err e) ∧ w' = w := by
  rw [sends_prim (c := I.intCls) rfl hI]
  refine raises_iff (s := w.sh) ?_
  show ends (I.boxed w.sh (o.op p fo (.int x) (I.num w.sh m))) = _
  rw [key]
  rfl

/-! ## Division -/

/-- C02: `/`, `%` and `rem:` of Integers, with a divisor other than zero: floored quotient and modulus, and truncating remainder.  On RPython the smallest Integer by −1 is left out; see `C02_violated_min_by_minus_one`. -/
theorem C02_messages_partial {d m t : String} (hd : I.Has I.intCls d (.arith .div)) (hm : I.Has I.intCls m (.arith .mod)) (ht : I.Has I.intCls t (.arith .rem)) {x y : Int}
    (hx : Num.Spec.Denotes (F := F) p (.int x) x) (hy : Num.Spec.Denotes (F := F) p (.int y) y) (h0 : y ≠ 0) (hov : ¬ (p = .rpython ∧ x = -(2 ^ 63) ∧ y = -1)) :
    ∃ i j k : Int, Num.Spec.FloorDivMod x y i j ∧ Num.Spec.TruncRem x y k ∧ ∀ (r : Res Esc) w',
      ((I.prog p fo).sends b d [.int x, .int y] w (toSrc r) w' ↔ r = .val (.int i) ∧ w' = w) ∧
      ((I.prog p fo).sends b m [.int x, .int y] w (toSrc r) w' ↔ r = .val (.int j) ∧ w' = w) ∧
      ((I.prog p fo).sends b t [.int x, .int y] w (toSrc r) w' ↔ r = .val (.int k) ∧ w' = w) := by
  obtain ⟨i, j, k, e1, e2, e3, h1, h2, -⟩ := Num.C02_division_laws_partial p fo.toFloatOps x y hx hy h0 hov
  refine ⟨i, j, k, h1, h2, fun r w' => ⟨?_, ?_, ?_⟩⟩
  · rw [sends_prim (c := I.intCls) rfl hd]
    refine ends_iff (s := w.sh) ?_
    show ends (I.boxed w.sh (Num.primIntDiv p fo.toFloatOps (.int x) (.int y))) = _
    rw [e1]
    rfl
  · rw [sends_prim (c := I.intCls) rfl hm]
    refine ends_iff (s := w.sh) ?_
    show ends (I.boxed w.sh (Num.primModulo p fo.toFloatOps (.int x) (.int y))) = _
    rw [e2]
    rfl
  · rw [sends_prim (c := I.intCls) rfl ht]
    refine ends_iff (s := w.sh) ?_
    show ends (I.boxed w.sh (Num.primRemainder p fo.toFloatOps (.int x) (.int y))) = _
    rw [e3]
    rfl

/-- C02: by zero, each of the three ends the program with the error for this, and changes nothing. -/
theorem C02_zero_messages {sel : String} {o : Arith} (ho : o = .div ∨ o = .mod ∨ o = .rem) (hI : I.Has I.intCls sel (.arith o)) {x : Int} :
    (I.prog p fo).sends b sel [.int x, .int 0] w (toSrc r) w' ↔ r = .exc (.err .zeroDiv) ∧ w' = w := by
  obtain ⟨h1, h2, h3⟩ := Num.C02_zero_divisor p fo.toFloatOps x
  rcases ho with rfl | rfl | rfl
  · exact arith_fails hI h1
  · exact arith_fails hI h2
  · exact arith_fails hI h3

/-- C03: `/` and `%` with a BigInteger among the operands. -/
theorem C03_messages_partial {d m : String} (hd : I.Has I.intCls d (.arith .div)) (hm : I.Has I.intCls m (.arith .mod)) {l n : Val} {x y : Int} (hx : Num.Spec.Denotes .rpython (I.num w.sh l) x)
    (hy : Num.Spec.Denotes .rpython (I.num w.sh n) y) (hb : (∃ i, I.num w.sh l = .big i) ∨ ∃ i, I.num w.sh n = .big i) (h0 : y ≠ 0) :
    ∃ i j : Int, Num.Spec.FloorDivMod x y i j ∧ Computes ((I.prog .rpython fo).sends b d [l, n]) w (fun sh v => Num.Spec.Denotes .rpython (I.num sh v) i) ∧
      Computes ((I.prog .rpython fo).sends b m [l, n]) w (fun sh v => Num.Spec.Denotes .rpython (I.num sh v) j) := by
  obtain ⟨i, j, h1, h2, h3⟩ := Num.C03_division_partial fo.toFloatOps _ _ x y hx hy hb h0
  exact ⟨i, j, h3, arith_computes hd hx h1, arith_computes hm hx h2⟩

/-! ## Bits -/

/-- C05: `&` answers the integer with the bits that both have. -/
theorem C05_and_message {sel : String} (hI : I.Has I.intCls sel (.arith .band)) {l m : Val} {x y : Int} (hl : Num.Spec.Denotes p (I.num w.sh l) x) (hm : Num.Spec.Denotes p (I.num w.sh m) y) :
    ∃ z : Int, (∀ k, Num.Spec.bit z k = (Num.Spec.bit x k && Num.Spec.bit y k)) ∧ Computes ((I.prog p fo).sends b sel [l, m]) w fun sh v => Num.Spec.Denotes p (I.num sh v) z := by
  obtain ⟨z, h1, h2⟩ := Num.C05_and p fo.toFloatOps _ _ x y hl hm
  exact ⟨z, h2, arith_computes hI hl h1⟩

/-- C05: `bitXor:` of Integers answers the integer with the bits that one of them has.  It fails for BigIntegers; see `C05_violated_big`. -/
theorem C05_xor_message_partial {sel : String} (hI : I.Has I.intCls sel (.arith .xor)) {x y : Int} (hx : Num.Spec.Denotes (F := F) p (.int x) x) (hy : Num.Spec.Denotes (F := F) p (.int y) y) :
    ∃ z : Int, (∀ k, Num.Spec.bit z k = (Num.Spec.bit x k != Num.Spec.bit y k)) ∧ Computes ((I.prog p fo).sends b sel [.int x, .int y]) w fun sh v => Num.Spec.Denotes p (I.num sh v) z := by
  obtain ⟨z, h1, h2⟩ := Num.C05_xor_partial p x y hx hy
  exact ⟨z, h2, arith_computes hI hx h1⟩

/-- C05: `<<` of an Integer multiplies by the power of two. -/
theorem C05_shift_left_message {sel : String} (hI : I.Has I.intCls sel (.arith .shl)) {x n : Int} (hx : Num.Spec.Denotes (F := F) p (.int x) x) (hn : 0 ≤ n) (hb : p = .cpython → n < 2 ^ 63) :
    Computes ((I.prog p fo).sends b sel [.int x, .int n]) w fun sh v => Num.Spec.Denotes p (I.num sh v) (x * 2 ^ n.toNat) :=
  arith_computes hI hx (Num.C05_shift_left p x n hx hn hb)

/-- C05: `>>>` of an Integer that is not negative divides by the power of two.  For negative ones the platforms differ; see `C05_violated_shift_right_platforms`. -/
theorem C05_shift_right_message_partial {sel : String} (hI : I.Has I.intCls sel (.arith .shr)) {x n : Int} (hx : Num.Spec.Denotes (F := F) p (.int x) x) (h0 : 0 ≤ x) (hn : 0 ≤ n) (hb : p = .rpython → n < 64) :
    Computes ((I.prog p fo).sends b sel [.int x, .int n]) w fun sh v => Num.Spec.Denotes p (I.num sh v) (x / 2 ^ n.toNat) :=
  arith_computes hI hx (Num.C05_shift_right p x n hx h0 hn hb)

/-- C05: the 32-bit views of an Integer are in their ranges and congruent to it modulo 2^32. -/
theorem C05_32_bit_messages {s u : String} (hs : I.Has I.intCls s .as32s) (hu : I.Has I.intCls u .as32u) {x : Int} :
    ∃ i j : Int, (-(2 ^ 31) ≤ i ∧ i < 2 ^ 31 ∧ ((2 : Int) ^ 32) ∣ (x - i)) ∧ (0 ≤ j ∧ j < 2 ^ 32 ∧ ((2 : Int) ^ 32) ∣ (x - j)) ∧ ∀ (r : Res Esc) w',
      ((I.prog p fo).sends b s [.int x] w (toSrc r) w' ↔ r = .val (.int i) ∧ w' = w) ∧ ((I.prog p fo).sends b u [.int x] w (toSrc r) w' ↔ r = .val (.int j) ∧ w' = w) := by
  obtain ⟨i, j, e1, e2, h1, h2⟩ := Num.C05_32_bit_views (F := F) p x
  refine ⟨i, j, h1, h2, fun r w' => ⟨?_, ?_⟩⟩
  · rw [sends_prim (c := I.intCls) rfl hs]
    refine ends_iff (s := w.sh) ?_
    show ends (I.boxed w.sh (Num.primAs32Signed p (.int x))) = _
    rw [e1]
    rfl
  · rw [sends_prim (c := I.intCls) rfl hu]
    refine ends_iff (s := w.sh) ?_
    show ends (I.boxed w.sh (Num.primAs32Unsigned p (.int x))) = _
    rw [e2]
    rfl

/-! ## Sizes -/

/-- C53: `abs` answers the absolute value.  On RPython the smallest machine integer is left out; see `C53_violated_abs_min`. -/
theorem C53_abs_message_partial {sel : String} (hI : I.Has I.intCls sel .abs) {l : Val} {x : Int} (hl : Num.Spec.Denotes p (I.num w.sh l) x) (h : ¬ (p = .rpython ∧ I.num w.sh l = .int (-(2 ^ 63)))) :
    Computes ((I.prog p fo).sends b sel [l]) w fun sh v => Num.Spec.Denotes p (I.num sh v) x.natAbs :=
  integer_computes hI hl rfl (Num.C53_abs_partial p _ x hl h)

/-- C53: `max:` and `min:` answer the operand itself that is larger, or smaller. -/
theorem C53_max_min_messages {g s : String} (hg : I.Has I.intCls g .max) (hs : I.Has I.intCls s .min) {l m : Val} {x y : Int} (hl : Num.Spec.Denotes p (I.num w.sh l) x) (hm : Num.Spec.Denotes p (I.num w.sh m) y) :
    ((I.prog p fo).sends b g [l, m] w (toSrc r) w' ↔ r = .val (if x < y then m else l) ∧ w' = w) ∧
    ((I.prog p fo).sends b s [l, m] w (toSrc r) w' ↔ r = .val (if x < y then l else m) ∧ w' = w) := by
  have key : Num.primLessThan p fo.toFloatOps (I.num w.sh l) (I.num w.sh m) = .ok (decide (x < y)) := (Num.C04_comparisons p fo.toFloatOps _ _ x y hl hm).1
  constructor
  · rw [sends_prim (denotes_class hl) hg]
    refine ends_iff (s := w.sh) ?_
    show ends (w.sh, (Num.primLessThan p fo.toFloatOps (I.num w.sh l) (I.num w.sh m)).map fun b => if b then m else l) = _
    rw [key]
    simp only [ends, Except.map, decide_eq_true_eq]
  · rw [sends_prim (denotes_class hl) hs]
    refine ends_iff (s := w.sh) ?_
    show ends (w.sh, (Num.primLessThan p fo.toFloatOps (I.num w.sh l) (I.num w.sh m)).map fun b => if b then l else m) = _
    rw [key]
    simp only [ends, Except.map, decide_eq_true_eq]

/-! ## Numbers of both kinds -/

theorem compare_gen {sel : String} {o : Compare} {c : Nat} {l m : Val} {x y : Num.Num F} {t : Bool} (hI : I.Has c sel (.compare o)) (hc : I.classOf w.sh l = some c) (hx : I.num w.sh l = x) (hy : I.num w.sh m = y)
    (key : o.op p fo x y = .ok t) : (I.prog p fo).sends b sel [l, m] w (toSrc r) w' ↔ r = .val (bool t) ∧ w' = w := by
  subst hx hy
  rw [sends_prim hc hI]
  refine ends_iff (s := w.sh) ?_
  show ends (w.sh, (o.op p fo (I.num w.sh l) (I.num w.sh m)).map bool) = _
  rw [key]
  rfl

theorem larger_gen {g s : String} {c : Nat} {l m : Val} {x y : Num.Num F} {t : Bool} (hg : I.Has c g .max) (hs : I.Has c s .min) (hc : I.classOf w.sh l = some c) (hx : I.num w.sh l = x) (hy : I.num w.sh m = y)
    (key : Num.primLessThan p fo.toFloatOps x y = .ok t) :
    ((I.prog p fo).sends b g [l, m] w (toSrc r) w' ↔ r = .val (if t then m else l) ∧ w' = w) ∧ ((I.prog p fo).sends b s [l, m] w (toSrc r) w' ↔ r = .val (if t then l else m) ∧ w' = w) := by
  subst hx hy
  constructor
  · rw [sends_prim hc hg]
    refine ends_iff (s := w.sh) ?_
    show ends (w.sh, (Num.primLessThan p fo.toFloatOps (I.num w.sh l) (I.num w.sh m)).map fun b => if b then m else l) = _
    rw [key]
    rfl
  · rw [sends_prim hc hs]
    refine ends_iff (s := w.sh) ?_
    show ends (w.sh, (Num.primLessThan p fo.toFloatOps (I.num w.sh l) (I.num w.sh m)).map fun b => if b then l else m) = _
    rw [key]
    rfl

end

section
open F64 F64.Spec
attribute [local irreducible] F64.ofInt F64.sqrt F64.toInt F64.eq F64.primRound F64.positiveInfinity F64.one
variable {ι : Type} {I : Image ι} {b : Behaviour ι (St (Data F64.Float) Printed) Esc} {w w' : St (Data F64.Float) Printed} {r : Res Esc}

/-- C76: comparisons between Integers up to 2^53 and Doubles other than NaN, in any mix, answer what the order of the numbers says, and change nothing. -/
theorem C76_message_partial {sel : String} {o : Compare} {c : Nat} {l m : Val} {x y : Ext} {P : Prop} (hI : I.Has c sel (.compare o)) (hc : I.classOf w.sh l = some c) (hx : number (I.num w.sh l) = some x)
    (hy : number (I.num w.sh m) = some y) (sx : F64.Spec.Small (I.num w.sh l)) (sy : F64.Spec.Small (I.num w.sh m)) (hP : o.says x y = some P) :
    ∃ t : Bool, (t = true ↔ P) ∧ ∀ (r : Res Esc) w', (I.prog .cpython ops).sends b sel [l, m] w (toSrc r) w' ↔ r = .val (bool t) ∧ w' = w := by
  obtain ⟨h1, h2, h3, h4, h5, h6⟩ := C76_compare_partial hx hy sx sy
  have key : Tells (o.op .cpython ops (I.num w.sh l) (I.num w.sh m)) P := by
    cases o with
    | lt => cases hP; exact h1
    | gt => cases hP; exact h2
    | le => cases hP; exact h3
    | ge => cases hP; exact h4
    | eq => cases hP; exact h5
    | ne => cases hP; exact h6
    | same => cases hP
  obtain ⟨t, e, ht⟩ := key
  exact ⟨t, ht, fun r w' => compare_gen (fo := ops) hI hc rfl rfl e⟩

/-- C76: `max:` and `min:` between them answer the operand itself that is larger, or smaller. -/
theorem C76_max_min_message_partial {g s : String} {c : Nat} {l m : Val} {x y : Ext} (hg : I.Has c g .max) (hs : I.Has c s .min) (hc : I.classOf w.sh l = some c) (hx : number (I.num w.sh l) = some x)
    (hy : number (I.num w.sh m) = some y) (sx : F64.Spec.Small (I.num w.sh l)) (sy : F64.Spec.Small (I.num w.sh m)) :
    ∃ t : Bool, (t = true ↔ x.lt y) ∧ ∀ (r : Res Esc) w', ((I.prog .cpython ops).sends b g [l, m] w (toSrc r) w' ↔ r = .val (if t then m else l) ∧ w' = w) ∧
      ((I.prog .cpython ops).sends b s [l, m] w (toSrc r) w' ↔ r = .val (if t then l else m) ∧ w' = w) := by
  obtain ⟨t, e, ht⟩ := (C76_compare_partial hx hy sx sy).1
  exact ⟨t, ht, fun r w' => larger_gen (fo := ops) hg hs hc rfl rfl e⟩

end

/-! ## A program -/

/-- Numbers with these messages. -/
def messagesImage : Image Unit :=
  { tinyImage with
    table := fun c sel =>
      if c = 3 then [("/".toList, .inr (.arith .div)), ("%".toList, .inr (.arith .mod)), ("rem:".toList, .inr (.arith .rem)), ("&".toList, .inr (.arith .band)), ("<<".toList, .inr (.arith .shl)), ("<".toList, .inr (.compare .lt)),
        ("max:".toList, .inr .max), ("min:".toList, .inr .min), ("abs".toList, .inr .abs)].lookup sel
      else if c = 7 then [("<".toList, .inr (.compare .lt)), ("max:".toList, .inr .max), ("min:".toList, .inr .min)].lookup sel
      else none }

/-- A Double, minus infinity. -/
def messagesStart : St (Data F64.Float) Printed := ⟨⟨[.data 7 (.dbl (.inf true))], fun _ => none, ⟨[], []⟩⟩, [], 0⟩

/-- `-7 / 2`, `-7 % 2` and `-7 rem: 2`; `3 / 0`; `-5 abs`; `4 max: 9`. -/
example (b : Behaviour Unit (St (Data F64.Float) Printed) Esc) :
    (messagesImage.prog .cpython F64.ops).sends b "/" [.int (-7), .int 2] messagesStart (.val (.int (-4))) messagesStart ∧
    (messagesImage.prog .cpython F64.ops).sends b "%" [.int (-7), .int 2] messagesStart (.val (.int 1)) messagesStart ∧
    (messagesImage.prog .cpython F64.ops).sends b "rem:" [.int (-7), .int 2] messagesStart (.val (.int (-1))) messagesStart ∧
    (messagesImage.prog .cpython F64.ops).sends b "/" [.int 3, .int 0] messagesStart (.exc (.err .zeroDiv)) messagesStart ∧
    (messagesImage.prog .cpython F64.ops).sends b "max:" [.int 4, .int 9] messagesStart (.val (.int 9)) messagesStart ∧
    (messagesImage.prog .cpython F64.ops).sends b "min:" [.int 4, .int 9] messagesStart (.val (.int 4)) messagesStart := by
  obtain ⟨i, j, k, h1, h2, h⟩ := C02_messages_partial (I := messagesImage) (p := .cpython) (fo := F64.ops) (b := b) (w := messagesStart) (d := "/") (m := "%") (t := "rem:") (x := -7) (y := 2) ⟨3, rfl⟩ ⟨3, rfl⟩ ⟨3, rfl⟩
    ⟨trivial, rfl⟩ ⟨trivial, rfl⟩ (by decide) (fun h => nomatch h.1)
  obtain ⟨rfl, rfl⟩ := Num.C02_laws_determine (x := -7) (y := 2) (q := -4) (m := 1) (by decide) ⟨by decide, by decide, by decide⟩ h1
  have hk : k = -1 := by
    obtain ⟨⟨a, ha⟩, hb, -, hc⟩ := h2
    have := hc (by decide)
    omega
  subst hk
  have hm := fun r w' => C53_max_min_messages (I := messagesImage) (p := .cpython) (fo := F64.ops) (b := b) (w := messagesStart) (r := r) (w' := w') (g := "max:") (s := "min:") (l := .int 4) (m := .int 9) (x := 4) (y := 9) ⟨3, rfl⟩ ⟨3, rfl⟩
    ⟨trivial, rfl⟩ ⟨trivial, rfl⟩
  exact ⟨(h (.val (.int (-4))) _).1.2 ⟨rfl, rfl⟩, (h (.val (.int 1)) _).2.1.2 ⟨rfl, rfl⟩, (h (.val (.int (-1))) _).2.2.2 ⟨rfl, rfl⟩,
    (C02_zero_messages (r := .exc (.err .zeroDiv)) (o := .div) (.inl rfl) ⟨3, rfl⟩).2 ⟨rfl, rfl⟩, (hm (.val (.int 9)) _).1.2 ⟨rfl, rfl⟩, (hm (.val (.int 4)) _).2.2 ⟨rfl, rfl⟩⟩

/-- `12 & 10` and `3 << 2`, and `-5 abs`. -/
example (b : Behaviour Unit (St (Data F64.Float) Printed) Esc) :
    Computes ((messagesImage.prog .cpython F64.ops).sends b "&" [.int 12, .int 10]) messagesStart (fun sh v => Num.Spec.Denotes .cpython (messagesImage.num sh v) 8) ∧
    Computes ((messagesImage.prog .cpython F64.ops).sends b "<<" [.int 3, .int 2]) messagesStart (fun sh v => Num.Spec.Denotes .cpython (messagesImage.num sh v) (3 * 2 ^ 2)) ∧
    Computes ((messagesImage.prog .cpython F64.ops).sends b "abs" [.int (-5)]) messagesStart (fun sh v => Num.Spec.Denotes .cpython (messagesImage.num sh v) 5) := by
  refine ⟨?_, C05_shift_left_message (x := 3) (n := 2) ⟨3, rfl⟩ ⟨trivial, rfl⟩ (by decide) (fun _ => by decide), C53_abs_message_partial (I := messagesImage) (p := .cpython) (w := messagesStart) (l := .int (-5)) (x := -5) ⟨3, rfl⟩ ⟨trivial, rfl⟩ (fun h => nomatch h.1)⟩
  obtain ⟨z, hz, h⟩ := C05_and_message (I := messagesImage) (p := .cpython) (fo := F64.ops) (b := b) (w := messagesStart) (sel := "&") (l := .int 12) (m := .int 10) (x := 12) (y := 10) ⟨3, rfl⟩ ⟨trivial, rfl⟩ ⟨trivial, rfl⟩
  obtain ⟨u, ⟨n, hn, hu⟩, hb⟩ := Num.C05_and .cpython F64.ops.toFloatOps (.int 12) (.int 10) 12 10 ⟨trivial, rfl⟩ ⟨trivial, rfl⟩
  cases hn
  have hu8 : u = 8 := Option.some.inj (hu.2.symm.trans (by decide))
  have hz8 : z = 8 := hu8 ▸ Num.C05_bits_determine fun k => (hz k).trans (hb k).symm
  exact hz8 ▸ h

/-- Minus infinity `< 3` is true, and `max:` answers 3. -/
example (b : Behaviour Unit (St (Data F64.Float) Printed) Esc) :
    (messagesImage.prog .cpython F64.ops).sends b "<" [.obj 0, .int 3] messagesStart (.val .tru) messagesStart ∧
    (messagesImage.prog .cpython F64.ops).sends b "max:" [.obj 0, .int 3] messagesStart (.val (.int 3)) messagesStart := by
  obtain ⟨t, h1, h2⟩ := C76_message_partial (I := messagesImage) (b := b) (w := messagesStart) (sel := "<") (o := .lt) (c := 7) (l := .obj 0) (m := .int 3) (x := .bottom) (y := .units (3 * F64.one)) ⟨7, rfl⟩ rfl rfl rfl trivial
    ⟨by decide, by decide⟩ rfl
  obtain ⟨u, h3, h4⟩ := C76_max_min_message_partial (I := messagesImage) (b := b) (w := messagesStart) (g := "max:") (s := "min:") (c := 7) (l := .obj 0) (m := .int 3) (x := .bottom) (y := .units (3 * F64.one)) ⟨7, rfl⟩ ⟨7, rfl⟩ rfl rfl rfl
    trivial ⟨by decide, by decide⟩
  have ht : t = true := h1.2 trivial
  have hu : u = true := h3.2 trivial
  subst ht hu
  exact ⟨(h2 (.val .tru) _).2 ⟨rfl, rfl⟩, (h4 (.val (.int 3)) _).1.2 ⟨rfl, rfl⟩⟩

end PySOM.Mach

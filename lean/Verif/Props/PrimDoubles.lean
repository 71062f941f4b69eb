import Verif.Props.PrimMessages
/-!
# C48 and C75: arithmetic with Doubles in a running program

Between Doubles and Integers the Integer is converted, and the answer is a new Double; what is no number is an error.  With binary64, sums, differences, products and quotients are the exact ones, rounded to the nearest Double.
-/
set_option autoImplicit false
namespace PySOM.Mach
open PySOM BC

section
variable {ι F : Type} {I : Image ι} {p : Platform} {fo : Floats F} {b : Behaviour ι (St (Data F) Printed) Esc} {w w' : St (Data F) Printed} {r : Res Esc}

theorem arith_double {sel : String} {o : Arith} {c : Nat} {l m : Val} {z : F} (hI : I.Has c sel (.arith o)) (hc : I.classOf w.sh l = some c) (key : o.op p fo (I.num w.sh l) (I.num w.sh m) = .ok (.dbl z)) :
    (I.prog p fo).sends b sel [l, m] w (toSrc r) w' ↔ r = .val (.obj w.sh.objs.length) ∧ w' = w.plus (.data I.dblCls (.dbl z)) := by
  rw [sends_prim hc hI]
  refine ends_iff (s := (w.plus (.data I.dblCls (.dbl z))).sh) ?_
  show ends (I.boxed w.sh (o.op p fo (I.num w.sh l) (I.num w.sh m))) = _
  rw [key]
  rfl

theorem arith_error {sel : String} {o : Arith} {c : Nat} {l m : Val} {e : Err} (hI : I.Has c sel (.arith o)) (hc : I.classOf w.sh l = some c) (key : o.op p fo (I.num w.sh l) (I.num w.sh m) = .error e) :
    (I.prog p fo).sends b sel [l, m] w (toSrc r) w' ↔ r = .exc (.err e) ∧ w' = w := by
  rw [sends_prim hc hI]
  refine raises_iff (s := w.sh) ?_
  show ends (I.boxed w.sh (o.op p fo (I.num w.sh l) (I.num w.sh m))) = _
  rw [key]
  rfl

theorem compare_error {sel : String} {o : Compare} {c : Nat} {l m : Val} {e : Err} (hI : I.Has c sel (.compare o)) (hc : I.classOf w.sh l = some c) (key : o.op p fo (I.num w.sh l) (I.num w.sh m) = .error e) :
    (I.prog p fo).sends b sel [l, m] w (toSrc r) w' ↔ r = .exc (.err e) ∧ w' = w := by
  rw [sends_prim hc hI]
  refine raises_iff (s := w.sh) ?_
  show ends (w.sh, (o.op p fo (I.num w.sh l) (I.num w.sh m)).map bool) = _
  rw [key]
  rfl

/-- C48: `+`, `-`, `*`, `//` and `%` with a Double among the operands answer a new Double, that of the operation on the converted operands, or fail as this operation does.  `rem:` and `&` are left out; see `C48_violated_big`. -/
theorem C48_message_partial {sel : String} {o : Arith} {c : Nat} {l m : Val} {x y : F} {z : Except Err F} (hI : I.Has c sel (.arith o)) (hc : I.classOf w.sh l = some c)
    (hx : Num.Spec.asFloat fo.toFloatOps (I.num w.sh l) = .ok x) (hy : Num.Spec.asFloat fo.toFloatOps (I.num w.sh m) = .ok y) (ex : Num.Spec.Exists p (I.num w.sh l)) (ey : Num.Spec.Exists p (I.num w.sh m))
    (hd : (∃ f, I.num w.sh l = .dbl f) ∨ ∃ f, I.num w.sh m = .dbl f) (ho : o.onDoubles fo x y = some z) :
    (∀ f, z = .ok f → ((I.prog p fo).sends b sel [l, m] w (toSrc r) w' ↔ r = .val (.obj w.sh.objs.length) ∧ w' = w.plus (.data I.dblCls (.dbl f)))) ∧
    (∀ e, z = .error e → ((I.prog p fo).sends b sel [l, m] w (toSrc r) w' ↔ r = .exc (.err e) ∧ w' = w)) := by
  have key : o.op p fo (I.num w.sh l) (I.num w.sh m) = z.map .dbl := by
    obtain ⟨h1, h2, h3, h4, -, h6, -⟩ := Num.C48_mixed_converts_partial p fo.toFloatOps _ _ x y hx hy ex ey hd
    cases o with
    | plus => cases ho; exact h1
    | minus => cases ho; exact h2
    | times => cases ho; exact h3
    | over => cases ho; exact h4
    | mod => cases ho; exact h6
    | _ => cases ho
  constructor
  · rintro f rfl
    exact arith_double hI hc key
  · rintro e rfl
    exact arith_error hI hc key

/-- C48: arithmetic of a number with what is no number is an error, and changes nothing. -/
theorem C48_rejects_message {sel : String} {o : Arith} {c t : Nat} {l m : Val} (hI : I.Has c sel (.arith o)) (hc : I.classOf w.sh l = some c) (ho : o.needsNumber) (hl : ∀ t, I.num w.sh l ≠ .obj t) (hm : I.num w.sh m = .obj t) :
    ∃ e, ∀ (r : Res Esc) w', (I.prog p fo).sends b sel [l, m] w (toSrc r) w' ↔ r = .exc (.err e) ∧ w' = w := by
  have key : ∃ e, o.op p fo (I.num w.sh l) (I.num w.sh m) = .error e := by
    have hop : o.op p fo ∈ [Num.primAdd p fo.toFloatOps, Num.primSubtract p fo.toFloatOps, Num.primMultiply p fo.toFloatOps, Num.primDoubleDiv p fo.toFloatOps, Num.primIntDiv p fo.toFloatOps, Num.primModulo p fo.toFloatOps,
        Num.primRemainder p fo.toFloatOps] := by
      cases o with
      | plus => exact .head _
      | minus => exact .tail _ (.head _)
      | times => exact .tail _ (.tail _ (.head _))
      | over => exact .tail _ (.tail _ (.tail _ (.head _)))
      | div => exact .tail _ (.tail _ (.tail _ (.tail _ (.head _))))
      | mod => exact .tail _ (.tail _ (.tail _ (.tail _ (.tail _ (.head _)))))
      | rem => exact .tail _ (.tail _ (.tail _ (.tail _ (.tail _ (.tail _ (.head _))))))
      | _ => exact ho.elim
    rw [hm]
    cases hn : I.num w.sh l with
    | int i => exact ⟨_, ((Num.C48_non_number_rejected p fo.toFloatOps t i fo.one).1 _ hop).2.1⟩
    | big i => exact ((Num.C48_non_number_rejected p fo.toFloatOps t i fo.one).1 _ hop).2.2
    | dbl f => exact ⟨_, ((Num.C48_non_number_rejected p fo.toFloatOps t 0 f).1 _ hop).1⟩
    | obj t => exact absurd hn (hl t)
  obtain ⟨e, he⟩ := key
  exact ⟨e, fun r w' => arith_error hI hc he⟩

/-- C48: so are `<`, `<=`, `>` and `>=`. -/
theorem C48_rejects_comparison {sel : String} {o : Compare} {c t : Nat} {l m : Val} (hI : I.Has c sel (.compare o)) (hc : I.classOf w.sh l = some c) (ho : o.needsNumber) (hl : ∀ t, I.num w.sh l ≠ .obj t) (hm : I.num w.sh m = .obj t) :
    ∃ e, ∀ (r : Res Esc) w', (I.prog p fo).sends b sel [l, m] w (toSrc r) w' ↔ r = .exc (.err e) ∧ w' = w := by
  have key : ∃ e, o.op p fo (I.num w.sh l) (I.num w.sh m) = .error e := by
    have hop : o.op p fo ∈ [Num.primLessThan p fo.toFloatOps, Num.primLessEq p fo.toFloatOps, Num.primGreater p fo.toFloatOps, Num.primGreaterEq p fo.toFloatOps] := by
      cases o with
      | lt => exact .head _
      | le => exact .tail _ (.head _)
      | gt => exact .tail _ (.tail _ (.head _))
      | ge => exact .tail _ (.tail _ (.tail _ (.head _)))
      | _ => exact ho.elim
    rw [hm]
    cases hn : I.num w.sh l with
    | int i => exact ⟨_, ((Num.C48_non_number_rejected p fo.toFloatOps t i fo.one).2 _ hop).2.1⟩
    | big i => exact ((Num.C48_non_number_rejected p fo.toFloatOps t i fo.one).2 _ hop).2.2
    | dbl f => exact ⟨_, ((Num.C48_non_number_rejected p fo.toFloatOps t 0 f).2 _ hop).1⟩
    | obj t => exact absurd hn (hl t)
  obtain ⟨e, he⟩ := key
  exact ⟨e, fun r w' => compare_error hI hc he⟩

end

/-! ## Binary64 -/

section
open F64 F64.Spec
attribute [local irreducible] F64.ofInt F64.sqrt F64.toInt F64.eq F64.primRound F64.positiveInfinity F64.one F64.add F64.sub F64.mul F64.div F64.fmod
variable {ι : Type} {I : Image ι} {b : Behaviour ι (St (Data F64.Float) Printed) Esc} {w : St (Data F64.Float) Printed}

theorem double_num {k : Nat} {f : F64.Float} (h : w.sh.objs[k]? = some (.data I.dblCls (.dbl f))) : I.num w.sh (.obj k) = .dbl f := by
  simp only [Image.num, h, if_pos]

theorem double_class {k : Nat} {f : F64.Float} (h : w.sh.objs[k]? = some (.data I.dblCls (.dbl f))) : I.classOf w.sh (.obj k) = some I.dblCls := by
  have := num_class (I := I) (sh := w.sh) (v := .obj k)
  rw [double_num h] at this
  exact this

theorem doubles_message {sel : String} {o : Arith} {k j : Nat} {x y : F64.Float} {z : Except Err F64.Float} (hI : I.Has I.dblCls sel (.arith o)) (hx : w.sh.objs[k]? = some (.data I.dblCls (.dbl x)))
    (hy : w.sh.objs[j]? = some (.data I.dblCls (.dbl y))) (ho : o.onDoubles ops x y = some z) (r : Res Esc) (w' : St (Data F64.Float) Printed) :
    (∀ f, z = .ok f → ((I.prog .cpython ops).sends b sel [.obj k, .obj j] w (toSrc r) w' ↔ r = .val (.obj w.sh.objs.length) ∧ w' = w.plus (.data I.dblCls (.dbl f)))) ∧
    (∀ e, z = .error e → ((I.prog .cpython ops).sends b sel [.obj k, .obj j] w (toSrc r) w' ↔ r = .exc (.err e) ∧ w' = w)) :=
  C48_message_partial (fo := ops) (p := .cpython) (x := x) (y := y) hI (double_class hx) (by rw [double_num hx]; rfl) (by rw [double_num hy]; rfl) (by rw [double_num hx]; trivial) (by rw [double_num hy]; trivial)
    (.inl ⟨x, double_num hx⟩) ho

/-- C75: a sum of finite Doubles, as a message: the exact sum, rounded to the nearest Double, in a new object. -/
theorem C75_sum_message {sel : String} {k j n m : Nat} {s t : Bool} (hI : I.Has I.dblCls sel (.arith .plus)) (hx : w.sh.objs[k]? = some (.data I.dblCls (.dbl (.fin s n)))) (hy : w.sh.objs[j]? = some (.data I.dblCls (.dbl (.fin t m)))) :
    ∃ f : F64.Float, (signed s n + signed t m ≠ 0 → ∃ d, Nearest (signed s n + signed t m).natAbs 1 d ∧ Result (decide (signed s n + signed t m < 0)) d f) ∧ (signed s n + signed t m = 0 → ∃ u, f = .fin u 0) ∧
      ∀ (r : Res Esc) w', (I.prog .cpython ops).sends b sel [.obj k, .obj j] w (toSrc r) w' ↔ r = .val (.obj w.sh.objs.length) ∧ w' = w.plus (.data I.dblCls (.dbl f)) := by
  obtain ⟨h1, h2, -⟩ := C75_arithmetic s t n m
  exact ⟨_, h1, h2, fun r w' => (doubles_message hI hx hy rfl r w').1 _ rfl⟩

/-- C75: a product. -/
theorem C75_product_message {sel : String} {k j n m : Nat} {s t : Bool} (hI : I.Has I.dblCls sel (.arith .times)) (hx : w.sh.objs[k]? = some (.data I.dblCls (.dbl (.fin s n)))) (hy : w.sh.objs[j]? = some (.data I.dblCls (.dbl (.fin t m)))) :
    ∃ (d : Nat) (f : F64.Float), Nearest (n * m) one d ∧ Result (s != t) d f ∧
      ∀ (r : Res Esc) w', (I.prog .cpython ops).sends b sel [.obj k, .obj j] w (toSrc r) w' ↔ r = .val (.obj w.sh.objs.length) ∧ w' = w.plus (.data I.dblCls (.dbl f)) := by
  obtain ⟨-, -, -, ⟨d, h1, h2⟩, -⟩ := C75_arithmetic s t n m
  exact ⟨d, _, h1, h2, fun r w' => (doubles_message hI hx hy rfl r w').1 _ rfl⟩

/-- C75: a difference is the sum with the opposite. -/
theorem C75_difference_message {sel : String} {k j n m : Nat} {s t : Bool} (hI : I.Has I.dblCls sel (.arith .minus)) (hx : w.sh.objs[k]? = some (.data I.dblCls (.dbl (.fin s n)))) (hy : w.sh.objs[j]? = some (.data I.dblCls (.dbl (.fin t m)))) :
    ∃ f : F64.Float, (signed s n - signed t m ≠ 0 → ∃ d, Nearest (signed s n - signed t m).natAbs 1 d ∧ Result (decide (signed s n - signed t m < 0)) d f) ∧ (signed s n - signed t m = 0 → ∃ u, f = .fin u 0) ∧
      ∀ (r : Res Esc) w', (I.prog .cpython ops).sends b sel [.obj k, .obj j] w (toSrc r) w' ↔ r = .val (.obj w.sh.objs.length) ∧ w' = w.plus (.data I.dblCls (.dbl f)) := by
  obtain ⟨h1, h2, -⟩ := C75_arithmetic s (!t) n m
  obtain ⟨-, -, h3, -⟩ := C75_arithmetic s t n m
  have hn : signed (!t) m = -signed t m := by cases t <;> simp [signed]
  rw [hn, ← Int.sub_eq_add_neg, ← h3] at h1 h2
  exact ⟨_, h1, h2, fun r w' => (doubles_message hI hx hy rfl r w').1 _ rfl⟩

/-- C75: a quotient, by a Double other than zero; by zero the program ends with the error for this. -/
theorem C75_quotient_message {sel : String} {k j n m : Nat} {s t : Bool} (hI : I.Has I.dblCls sel (.arith .over)) (hx : w.sh.objs[k]? = some (.data I.dblCls (.dbl (.fin s n)))) (hy : w.sh.objs[j]? = some (.data I.dblCls (.dbl (.fin t m)))) :
    (m ≠ 0 → ∃ (d : Nat) (f : F64.Float), Nearest (n * one) m d ∧ Result (s != t) d f ∧
      ∀ (r : Res Esc) w', (I.prog .cpython ops).sends b sel [.obj k, .obj j] w (toSrc r) w' ↔ r = .val (.obj w.sh.objs.length) ∧ w' = w.plus (.data I.dblCls (.dbl f))) ∧
    (m = 0 → ∀ (r : Res Esc) w', (I.prog .cpython ops).sends b sel [.obj k, .obj j] w (toSrc r) w' ↔ r = .exc (.err .zeroDiv) ∧ w' = w) := by
  obtain ⟨-, -, -, -, h1, -, h2, -⟩ := C75_arithmetic s t n m
  refine ⟨fun hm => ?_, fun hm r w' => ?_⟩
  · obtain ⟨d, f, h3, h4, h5⟩ := h1 hm
    exact ⟨d, f, h3, h5, fun r w' => (doubles_message hI hx hy rfl r w').1 f h4⟩
  · subst hm
    exact (doubles_message hI hx hy rfl r w').2 _ h2

/-- C75: a remainder is exact; by zero it is an error. -/
theorem C75_remainder_message {sel : String} {k j n m : Nat} {s t : Bool} (hI : I.Has I.dblCls sel (.arith .mod)) (hx : w.sh.objs[k]? = some (.data I.dblCls (.dbl (.fin s n)))) (hy : w.sh.objs[j]? = some (.data I.dblCls (.dbl (.fin t m)))) (r : Res Esc)
    (w' : St (Data F64.Float) Printed) :
    (m ≠ 0 → ((I.prog .cpython ops).sends b sel [.obj k, .obj j] w (toSrc r) w' ↔ r = .val (.obj w.sh.objs.length) ∧ w' = w.plus (.data I.dblCls (.dbl (.fin s (n % m)))))) ∧
    (m = 0 → ((I.prog .cpython ops).sends b sel [.obj k, .obj j] w (toSrc r) w' ↔ r = .exc (.err .value) ∧ w' = w)) := by
  obtain ⟨-, -, -, -, -, h1, -, h2⟩ := C75_arithmetic s t n m
  refine ⟨fun hm => (doubles_message hI hx hy rfl r w').1 _ (h1 hm), fun hm => ?_⟩
  subst hm
  exact (doubles_message hI hx hy rfl r w').2 _ h2

end

/-! ## A program -/

/-- Doubles with `+`, `//` and `%`. -/
def doublesImage : Image Unit :=
  { tinyImage with
    table := fun c sel => if c = 7 then [("+".toList, .inr (.arith .plus)), ("-".toList, .inr (.arith .minus)), ("*".toList, .inr (.arith .times)), ("//".toList, .inr (.arith .over)), ("%".toList, .inr (.arith .mod))].lookup sel else none }

/-- Two finite Doubles and zero. -/
def doublesStart (n m : Nat) : St (Data F64.Float) Printed := ⟨⟨[.data 7 (.dbl (.fin false n)), .data 7 (.dbl (.fin true m)), .data 7 (.dbl (.fin false 0))], fun _ => none, ⟨[], []⟩⟩, [], 0⟩

/-- A remainder, a quotient by zero, a sum of opposites, and a sum with `nil`. -/
example (b : Behaviour Unit (St (Data F64.Float) Printed) Esc) :
    (doublesImage.prog .cpython F64.ops).sends b "%" [.obj 0, .obj 1] (doublesStart 17 5) (.val (.obj 3)) ((doublesStart 17 5).plus (.data 7 (.dbl (.fin false 2)))) ∧
    (doublesImage.prog .cpython F64.ops).sends b "//" [.obj 0, .obj 2] (doublesStart 17 5) (.exc (.err .zeroDiv)) (doublesStart 17 5) ∧
    (∃ u, (doublesImage.prog .cpython F64.ops).sends b "+" [.obj 0, .obj 1] (doublesStart 5 5) (.val (.obj 3)) ((doublesStart 5 5).plus (.data 7 (.dbl (.fin u 0))))) ∧
    ∃ e, (doublesImage.prog .cpython F64.ops).sends b "+" [.obj 0, .nil] (doublesStart 17 5) (.exc (.err e)) (doublesStart 17 5) := by
  refine ⟨((C75_remainder_message (I := doublesImage) (b := b) (w := doublesStart 17 5) (s := false) (t := true) (n := 17) (m := 5) ⟨7, rfl⟩ rfl rfl (.val (.obj 3)) _).1 (by decide)).2 ⟨rfl, rfl⟩,
    ((C75_quotient_message (I := doublesImage) (b := b) (w := doublesStart 17 5) (s := false) (t := false) (n := 17) (m := 0) (k := 0) (j := 2) ⟨7, rfl⟩ rfl rfl).2 rfl (.exc (.err .zeroDiv)) _).2 ⟨rfl, rfl⟩, ?_, ?_⟩
  · obtain ⟨f, -, h1, h2⟩ := C75_sum_message (I := doublesImage) (b := b) (w := doublesStart 5 5) (sel := "+") (k := 0) (j := 1) (s := false) (t := true) (n := 5) (m := 5) ⟨7, rfl⟩ rfl rfl
    obtain ⟨u, rfl⟩ := h1 (by decide)
    exact ⟨u, (h2 (.val (.obj 3)) _).2 ⟨rfl, rfl⟩⟩
  · obtain ⟨e, h⟩ := C48_rejects_message (I := doublesImage) (p := .cpython) (fo := F64.ops) (b := b) (w := doublesStart 17 5) (sel := "+") (o := .plus) (c := 7) (t := 0) (l := .obj 0) (m := .nil) ⟨7, rfl⟩ rfl trivial
      (fun t h => nomatch h) rfl
    exact ⟨e, (h (.exc (.err e)) _).2 ⟨rfl, rfl⟩⟩

end PySOM.Mach

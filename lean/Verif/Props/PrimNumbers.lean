import Verif.Props.PrimData
import Verif.Props.Doubles
import Verif.Props.Loops
/-!
# C75, C77 and C80: conversions of numbers in a running program

`to:`, `asString` and `fromString:`, `superclass`, and the conversions between Integers and Doubles and their roots, as messages: they have exactly one outcome, and what they answer is what C75 and C77 say.
-/
set_option autoImplicit false
namespace PySOM.Mach
open PySOM BC

section
variable {ι F : Type} {I : Image ι} {p : Platform} {fo : Floats F} {b : Behaviour ι (St (Data F) Printed) Esc} {w w' : St (Data F) Printed} {r : Res Esc}

/-! ## Ranges -/

theorem ints_length (n : Nat) (lo : Int) : (ints n lo).length = n := by
  induction n generalizing lo with
  | zero => rfl
  | succ n ih => simp only [ints, List.length_cons, ih]

theorem ints_get (n : Nat) (lo : Int) (k : Nat) (h : k < n) : (ints n lo)[k]? = some (.int (lo + k)) := by
  induction n generalizing lo k with
  | zero => omega
  | succ n ih =>
    cases k with
    | zero => simp only [ints, List.getElem?_cons_zero, Int.natCast_zero, Int.add_zero]
    | succ k =>
      simp only [ints, List.getElem?_cons_succ]
      rw [ih (lo + 1) k (by omega)]
      congr 2
      omega

/-- C80: `lo to: hi` answers a new array of the Integers from `lo` to `hi`, in this order; it is empty if `hi` is below `lo`.  On RPython this is for `hi` below the largest machine integer; see `C80_violated_to`. -/
theorem C80_to_partial {sel : String} {lo hi : Int} (hI : I.Has I.intCls sel .to) (hp : p = .cpython ∨ (Num.minInt ≤ hi ∧ hi < Num.maxInt)) :
    ∃ vs : List Val, ((vs.length : Int) = if lo ≤ hi then hi - lo + 1 else 0) ∧ (∀ k : Nat, k < vs.length → vs[k]? = some (.int (lo + k))) ∧
      ∀ (r : Res Esc) w', ((I.prog p fo).sends b sel [.int lo, .int hi] w (toSrc r) w' ↔ r = .val (.obj w.sh.objs.length) ∧ w' = w.plus (.data I.arrCls (.arr vs))) := by
  have hw : Loop.wrap p (hi + 1) = hi + 1 := Loop.wrap_id p _ (hp.imp_right fun h => ⟨by omega, by omega⟩)
  refine ⟨ints (hi + 1 - lo).toNat lo, ?_, fun k hk => ints_get _ lo k (by rwa [ints_length] at hk), fun r w' => ?_⟩
  · rw [ints_length]
    split <;> omega
  · rw [sends_prim (c := I.intCls) rfl hI]
    refine ends_iff (s := (w.plus (.data I.arrCls (.arr (ints (hi + 1 - lo).toNat lo)))).sh) ?_
    show I.begin p fo w.sh .to [.int lo, .int hi] = _
    simp only [Image.begin, embInt, hw]
    rfl

/-- C80 is violated: on RPython `lo to: 9223372036854775807` answers an empty array, for every machine integer `lo`: the end of the range wraps around. -/
theorem C80_violated_to {sel : String} {lo : Int} (hI : I.Has I.intCls sel .to) (hlo : Num.minInt ≤ lo) :
    (I.prog .rpython fo).sends b sel [.int lo, .int Num.maxInt] w (toSrc r) w' ↔ r = .val (.obj w.sh.objs.length) ∧ w' = w.plus (.data I.arrCls (.arr [])) := by
  have hw : Loop.wrap .rpython (Num.maxInt + 1) = Num.minInt := by decide
  have hz : (Num.minInt - lo).toNat = 0 := by omega
  rw [sends_prim (c := I.intCls) rfl hI]
  refine ends_iff (s := (w.plus (.data I.arrCls (.arr []))).sh) ?_
  show I.begin .rpython fo w.sh .to [.int lo, .int Num.maxInt] = _
  simp only [Image.begin, embInt, hw, hz]
  rfl

/-- C80: with a limit that is not an Integer it is an error, and nothing changes. -/
theorem C80_to_rejects {sel : String} {lo : Int} {v : Val} (hI : I.Has I.intCls sel .to) (hv : ∀ i, v ≠ .int i) :
    (I.prog p fo).sends b sel [.int lo, v] w (toSrc r) w' ↔ r = .exc (.err .assertion) ∧ w' = w := by
  rw [sends_prim (c := I.intCls) rfl hI]
  refine raises_iff (s := w.sh) ?_
  show I.begin p fo w.sh .to [.int lo, v] = _
  cases v with
  | int i => exact absurd rfl (hv i)
  | _ => rfl

/-! ## Integers and texts -/

/-- C80: the text of an Integer, and what `fromString:` reads from it: `i asString` answers a new string, and `fromString:` with this string answers `i` again, whatever happened to the other objects in between. -/
theorem C80_asString_fromString {out back : String} {i : Int} {l : Val} {c : Nat} {w1 w2 w3 : St (Data F) Printed} {x y : Val} (hI : I.Has I.intCls out .numString) (hB : I.Has c back .fromString)
    (hf : p = .cpython ∨ (Num.minInt ≤ i ∧ i ≤ Num.maxInt)) (h1 : (I.prog p fo).sends b out [.int i] w (.val x) w1) (h2 : ∀ s, IsString I w1.sh x s → IsString I w2.sh x s) (hc : I.classOf w2.sh l = some c)
    (h3 : (I.prog p fo).sends b back [l, x] w2 (.val y) w3) : w1 = w.plus (.data I.strCls (.str (Num.pyStr i))) ∧ y = .int i ∧ w3 = w2 := by
  rw [show (Src.Res.val x : Src.Res Esc) = toSrc (.val x) from rfl, sends_prim (c := I.intCls) rfl hI] at h1
  obtain ⟨hx, rfl⟩ := (new_string (s := Num.pyStr i) rfl rfl).1 h1
  cases hx
  have hs : IsString I (w.plus (.data I.strCls (.str (Num.pyStr i)))).sh (.obj w.sh.objs.length) (Num.pyStr i) := by
    refine ⟨_, rfl, ?_⟩
    show (w.sh.objs ++ [_])[w.sh.objs.length]? = _
    rw [List.getElem?_append_right (Nat.le_refl _), Nat.sub_self]
    rfl
  obtain ⟨a, ha, ho⟩ := h2 _ hs
  have ht : Str.embeddedString (strObj w2.sh (.obj w.sh.objs.length)) = .ok (Num.pyStr i) := isText_iff.1 (.inr ⟨a, _, ha, ho⟩)
  have hv : Num.ovfcheck p i = some i := by
    rcases hf with rfl | hf
    · rfl
    · cases p with
      | cpython => rfl
      | rpython => simp only [Num.ovfcheck, Num.fits, decide_eq_true hf.1, decide_eq_true hf.2, Bool.and_self, if_true]
  rw [show (Src.Res.val y : Src.Res Esc) = toSrc (.val y) from rfl, sends_prim hc hB] at h3
  have e : (I.prog p fo).step (.start (some .fromString) [l, .obj w.sh.objs.length]) w2.sh = (w2.sh, .done (.int i)) := by
    show I.begin p fo w2.sh .fromString [l, .obj w.sh.objs.length] = _
    simp only [Image.begin, ht, Num.primFromString, Num.parseInt_pyStr, hv]
    rfl
  obtain ⟨hy, rfl⟩ := (ends_iff e).1 h3
  cases hy
  exact ⟨rfl, rfl, rfl⟩

/-- C80: on RPython, an integer that is not a machine integer is read as a new large integer. -/
theorem C80_fromString_large {sel : String} {i : Int} {l v : Val} {c : Nat} (hc : I.classOf w.sh l = some c) (hI : I.Has c sel .fromString) (hv : IsText w.sh v (Num.pyStr i)) (hi : i < Num.minInt ∨ Num.maxInt < i) :
    (I.prog .rpython fo).sends b sel [l, v] w (toSrc r) w' ↔ r = .val (.obj w.sh.objs.length) ∧ w' = w.plus (.data I.intCls (.big i)) := by
  rw [sends_prim hc hI]
  refine ends_iff (s := (w.plus (.data I.intCls (.big i))).sh) ?_
  have ho : Num.ovfcheck .rpython i = none := by
    refine if_neg fun h => ?_
    simp only [Num.fits, Bool.and_eq_true, decide_eq_true_eq] at h
    omega
  show I.begin .rpython fo w.sh .fromString [l, v] = _
  simp only [Image.begin, isText_iff.1 hv, Num.primFromString, Num.parseInt_pyStr, ho]
  rfl

/-- C80: `fromString:` with something that has no text answers nil. -/
theorem C80_fromString_nil {sel : String} {l v : Val} {c : Nat} (hc : I.classOf w.sh l = some c) (hI : I.Has c sel .fromString) (hv : ¬ ∃ s, IsText w.sh v s) :
    (I.prog p fo).sends b sel [l, v] w (toSrc r) w' ↔ r = .val .nil ∧ w' = w := by
  rw [sends_prim hc hI]
  refine ends_iff (s := w.sh) ?_
  show I.begin p fo w.sh .fromString [l, v] = _
  simp only [Image.begin, not_text hv]

/-! ## Superclasses -/

/-- C80: `superclass` answers the superclass of a class. -/
theorem C80_superclass {sel : String} {a m k s : Nat} {cs : List Nat} (ha : w.sh.objs[a]? = some (.data m (.cls k))) (hI : I.Has m sel .superclass) (hk : I.chain k = k :: s :: cs) :
    (I.prog p fo).sends b sel [.obj a] w (toSrc r) w' ↔ r = .val (.obj (I.clsObj s)) ∧ w' = w := by
  rw [sends_prim (c := m) (by simp only [Image.classOf, ha]) hI]
  refine ends_iff (s := w.sh) ?_
  show I.begin p fo w.sh .superclass [.obj a] = _
  simp only [Image.begin, classAt, ha, hk]

/-- C80: the class at the top has none: the answer is nil. -/
theorem C80_no_superclass {sel : String} {a m k : Nat} (ha : w.sh.objs[a]? = some (.data m (.cls k))) (hI : I.Has m sel .superclass) (hk : I.chain k = [k]) :
    (I.prog p fo).sends b sel [.obj a] w (toSrc r) w' ↔ r = .val .nil ∧ w' = w := by
  rw [sends_prim (c := m) (by simp only [Image.classOf, ha]) hI]
  refine ends_iff (s := w.sh) ?_
  show I.begin p fo w.sh .superclass [.obj a] = _
  simp only [Image.begin, classAt, ha, hk]

/-! ## Numbers, for any Doubles -/

theorem num_dbl {a : Nat} {f : F} (ha : w.sh.objs[a]? = some (.data I.dblCls (.dbl f))) : I.num w.sh (.obj a) = .dbl f := by
  simp only [Image.num, ha, if_true]

theorem round_iff {sel : String} {a : Nat} {f : F} {x : Except Err Int} (ha : w.sh.objs[a]? = some (.data I.dblCls (.dbl f))) (hI : I.Has I.dblCls sel .round) (e : fo.round f = x) :
    (I.prog p fo).sends b sel [.obj a] w (toSrc r) w' ↔ (match x with | .ok i => r = .val (.int i) ∧ w' = w | .error e => r = .exc (.err e) ∧ w' = w) := by
  rw [sends_prim (c := I.dblCls) (by simp only [Image.classOf, ha]) hI]
  have h : (I.prog p fo).step (.start (some .round) [.obj a]) w.sh = ends (w.sh, x.map .int) := by
    show ends (w.sh, (embDbl (I.num w.sh (.obj a)) >>= fo.round).map .int) = _
    rw [num_dbl ha, ← e]
    rfl
  cases x with
  | ok i => exact ends_iff h
  | error e => exact raises_iff h

theorem asInteger_iff {sel : String} {a : Nat} {f : F} {x : Except Err Int} (ha : w.sh.objs[a]? = some (.data I.dblCls (.dbl f))) (hI : I.Has I.dblCls sel .asInteger) (e : fo.toInt f = x) :
    (I.prog p fo).sends b sel [.obj a] w (toSrc r) w' ↔ (match x with | .ok i => r = .val (.int i) ∧ w' = w | .error e => r = .exc (.err e) ∧ w' = w) := by
  rw [sends_prim (c := I.dblCls) (by simp only [Image.classOf, ha]) hI]
  have h : (I.prog p fo).step (.start (some .asInteger) [.obj a]) w.sh = ends (w.sh, x.map .int) := by
    show ends (w.sh, (embDbl (I.num w.sh (.obj a)) >>= fo.toInt).map .int) = _
    rw [num_dbl ha, ← e]
    rfl
  cases x with
  | ok i => exact ends_iff h
  | error e => exact raises_iff h

theorem dblSqrt_iff {sel : String} {a : Nat} {f g : F} (ha : w.sh.objs[a]? = some (.data I.dblCls (.dbl f))) (hI : I.Has I.dblCls sel .dblSqrt) (e : fo.sqrt f = .ok g) :
    (I.prog p fo).sends b sel [.obj a] w (toSrc r) w' ↔ r = .val (.obj w.sh.objs.length) ∧ w' = w.plus (.data I.dblCls (.dbl g)) := by
  rw [sends_prim (c := I.dblCls) (by simp only [Image.classOf, ha]) hI]
  refine ends_iff (s := (w.plus (.data I.dblCls (.dbl g))).sh) ?_
  show ends (I.boxed w.sh ((embDbl (I.num w.sh (.obj a)) >>= fo.sqrt).map .dbl)) = _
  rw [num_dbl ha]
  show ends (I.boxed w.sh ((fo.sqrt f).map .dbl)) = _
  rw [e]
  rfl

theorem asDouble_iff {sel : String} {i : Int} {x : Except Err F} (hI : I.Has I.intCls sel .asDouble) (e : fo.ofInt i = x) :
    (I.prog p fo).sends b sel [.int i] w (toSrc r) w' ↔
      (match x with | .ok f => r = .val (.obj w.sh.objs.length) ∧ w' = w.plus (.data I.dblCls (.dbl f)) | .error e => r = .exc (.err e) ∧ w' = w) := by
  rw [sends_prim (c := I.intCls) rfl hI]
  have h : (I.prog p fo).step (.start (some .asDouble) [.int i]) w.sh = ends (I.boxed w.sh (x.map .dbl)) := by
    rw [← e]
    rfl
  cases x with
  | ok f => exact ends_iff h
  | error e => exact raises_iff h

theorem infinity_iff {sel : String} {l : Val} {c : Nat} {f : F} (hc : I.classOf w.sh l = some c) (hI : I.Has c sel .infinity) (e : fo.infinity = f) :
    (I.prog p fo).sends b sel [l] w (toSrc r) w' ↔ r = .val (.obj w.sh.objs.length) ∧ w' = w.plus (.data I.dblCls (.dbl f)) := by
  subst e
  rw [sends_prim hc hI]
  exact ends_iff (s := (w.plus (.data I.dblCls (.dbl fo.infinity))).sh) rfl

theorem intSqrt_iff {sel : String} {i : Int} {n : Num.Num F} (hI : I.Has I.intCls sel .intSqrt) (e : intSqrt fo (.int i) = .ok n) :
    (I.prog p fo).sends b sel [.int i] w (toSrc r) w' ↔ r = .val (I.box w.sh n).2 ∧ w' = { w with sh := (I.box w.sh n).1 } := by
  rw [sends_prim (c := I.intCls) rfl hI]
  refine ends_iff ?_
  show ends (I.boxed w.sh (intSqrt fo (.int i))) = _
  rw [e]
  rfl

theorem intSqrt_error {sel : String} {i : Int} {x : Err} (hI : I.Has I.intCls sel .intSqrt) (e : intSqrt fo (.int i) = .error x) :
    (I.prog p fo).sends b sel [.int i] w (toSrc r) w' ↔ r = .exc (.err x) ∧ w' = w := by
  rw [sends_prim (c := I.intCls) rfl hI]
  refine raises_iff (s := w.sh) ?_
  show ends (I.boxed w.sh (intSqrt fo (.int i))) = _
  rw [e]
  rfl

/-- An Integer or a Double, as a number. -/
def ofRoot : Int ⊕ F → Num.Num F
  | .inl j => .int j
  | .inr f => .dbl f

theorem intSqrt_gen (i : Int) {of : Int → Except Err F} {sq : F → Except Err F} {ti : F → Except Err Int} {eq : F → F → Bool} (h1 : fo.ofInt = of) (h2 : fo.sqrt = sq) (h3 : fo.toInt = ti) (h4 : fo.eq = eq) :
    intSqrt fo (.int i) = (do
      let res ← sq (← of i)
      let j ← ti res
      if eq res (← of j) then .ok (.inl j) else .ok (.inr res) : Except Err (Int ⊕ F)).map ofRoot := by
  subst h1 h2 h3 h4
  simp only [intSqrt]
  cases fo.ofInt i with
  | error e => rfl
  | ok x =>
    dsimp only [bind, Except.bind]
    cases fo.sqrt x with
    | error e => rfl
    | ok y =>
      dsimp only
      cases fo.toInt y with
      | error e => rfl
      | ok j =>
        dsimp only
        cases fo.ofInt j with
        | error e => rfl
        | ok z => dsimp only; split <;> rfl

end

/-! ## Doubles -/

section
open F64 F64.Spec
attribute [local irreducible] F64.ofInt F64.sqrt F64.toInt F64.eq F64.primRound F64.positiveInfinity F64.one
variable {ι : Type} {I : Image ι} {b : Behaviour ι (St (Data F64.Float) Printed) Esc} {w w' : St (Data F64.Float) Printed} {r : Res Esc}

/-- C75: `round`, sent to a finite Double other than the two just below a half, answers the nearest Integer, and changes nothing. -/
theorem C75_round_message_partial {sel : String} {a n : Nat} {s : Bool} (ha : w.sh.objs[a]? = some (.data I.dblCls (.dbl (.fin s n)))) (hI : I.Has I.dblCls sel .round) (hok : Ok (.fin s n)) (hn : n ≠ below) :
    ∃ i, nearestInt n i ∧ ∀ (r : Res Esc) w', ((I.prog .cpython ops).sends b sel [.obj a] w (toSrc r) w' ↔ r = .val (.int (signed s i)) ∧ w' = w) := by
  obtain ⟨i, e, hi⟩ := (C75_round_partial hok).2 hn
  exact ⟨i, hi, fun r w' => round_iff (fo := ops) ha hI e⟩

/-- C75: `asInteger`, sent to a finite Double, drops the fraction. -/
theorem C75_asInteger_message {sel : String} {a n : Nat} {s : Bool} (ha : w.sh.objs[a]? = some (.data I.dblCls (.dbl (.fin s n)))) (hI : I.Has I.dblCls sel .asInteger) :
    ∃ i, i * one ≤ n ∧ n < (i + 1) * one ∧ ∀ (r : Res Esc) w', ((I.prog .cpython ops).sends b sel [.obj a] w (toSrc r) w' ↔ r = .val (.int (signed s i)) ∧ w' = w) := by
  obtain ⟨i, e, h1, h2⟩ := C75_truncate s n
  exact ⟨i, h1, h2, fun r w' => asInteger_iff (fo := ops) ha hI e⟩

/-- C75: `asDouble`, sent to an Integer that is not too large, answers a new Double, the nearest one. -/
theorem C75_asDouble_message {sel : String} {i : Int} (hI : I.Has I.intCls sel .asDouble) (hi : i.natAbs < (2 ^ 54 - 1) * 2 ^ 970) :
    ∃ n, Nearest (i.natAbs * one) 1 n ∧
      ∀ (r : Res Esc) w', ((I.prog .cpython ops).sends b sel [.int i] w (toSrc r) w' ↔ r = .val (.obj w.sh.objs.length) ∧ w' = w.plus (.data I.dblCls (.dbl (.fin (decide (i < 0)) n)))) := by
  obtain ⟨n, e, _, hn⟩ := C75_convert hi
  exact ⟨n, hn, fun r w' => asDouble_iff (fo := ops) hI e⟩

/-- C75: `round` and `asInteger` of what is not a number or not finite are errors; nothing changes. -/
theorem C75_message_rejects {sel : String} {a : Nat} {f : F64.Float} (ha : w.sh.objs[a]? = some (.data I.dblCls (.dbl f))) (hI : I.Has I.dblCls sel .round ∨ I.Has I.dblCls sel .asInteger) (hf : ∀ s n, f ≠ .fin s n) :
    ∃ e, ∀ (r : Res Esc) w', (I.prog .cpython ops).sends b sel [.obj a] w (toSrc r) w' ↔ r = .exc (.err e) ∧ w' = w := by
  have hr : ∃ e, primRound f = .error e ∧ primAsInteger f = .error e := by
    obtain ⟨h1, h2, h3⟩ := C75_not_finite
    cases f with
    | nan => exact ⟨_, h1, h2⟩
    | inf s => exact ⟨_, h3 s⟩
    | fin s n => exact absurd rfl (hf s n)
  obtain ⟨e, h1, h2⟩ := hr
  exact ⟨e, fun r w' => hI.elim (fun hI => round_iff (fo := ops) ha hI h1) fun hI => asInteger_iff (fo := ops) ha hI h2⟩

/-- C75: `asDouble` of an Integer that is too large is an error. -/
theorem C75_asDouble_rejects {sel : String} {i : Int} (hI : I.Has I.intCls sel .asDouble) (hi : (2 ^ 54 - 1) * 2 ^ 970 ≤ i.natAbs) :
    (I.prog .cpython ops).sends b sel [.int i] w (toSrc r) w' ↔ r = .exc (.err .other) ∧ w' = w :=
  asDouble_iff (fo := ops) hI (C75_too_large hi)

/-- The primitive of the machine is the one of C77. -/
theorem intSqrt_eq (i : Int) : intSqrt ops (.int i) = (primSqrt i).map ofRoot := by
  unfold primSqrt
  exact intSqrt_gen (fo := ops) i (of := ofInt) (sq := sqrt) (ti := toInt) (eq := F64.eq) rfl rfl rfl rfl

/-- C77: `sqrt`, sent to an Integer up to 2^52 that is a square, answers its root. -/
theorem C77_root_message_partial {sel : String} {j : Nat} (hI : I.Has I.intCls sel .intSqrt) (hj : j * j ≤ 2 ^ 52) :
    (I.prog .cpython ops).sends b sel [.int (j * j : Nat)] w (toSrc r) w' ↔ r = .val (.int j) ∧ w' = w := by
  have e := intSqrt_eq (j * j : Nat)
  rw [((C77_root_partial hj).1 j).2 ⟨Int.natCast_nonneg _, (Int.natCast_mul _ _).symm⟩] at e
  exact intSqrt_iff (fo := ops) hI e

/-- C77: for an Integer up to 2^52 that is no square it answers a new Double. -/
theorem C77_no_root_message_partial {sel : String} {i : Nat} (hI : I.Has I.intCls sel .intSqrt) (hi : i ≤ 2 ^ 52) (hn : ∀ j : Nat, j * j ≠ i) :
    ∃ f, ∀ (r : Res Esc) w', (I.prog .cpython ops).sends b sel [.int i] w (toSrc r) w' ↔ r = .val (.obj w.sh.objs.length) ∧ w' = w.plus (.data I.dblCls (.dbl f)) := by
  obtain ⟨f, e⟩ := (C77_root_partial hi).2 hn
  have e' := intSqrt_eq i
  rw [e] at e'
  exact ⟨f, fun r w' => intSqrt_iff (fo := ops) hI e'⟩

/-- C77: `sqrt`, sent to a negative Integer, is an error. -/
theorem C77_negative_message {sel : String} {i : Int} (hI : I.Has I.intCls sel .intSqrt) (hi : i < 0) (hl : i.natAbs < (2 ^ 54 - 1) * 2 ^ 970) :
    (I.prog .cpython ops).sends b sel [.int i] w (toSrc r) w' ↔ r = .exc (.err .value) ∧ w' = w := by
  have e := intSqrt_eq i
  rw [C77_negative hi hl] at e
  exact intSqrt_error (fo := ops) hI e

/-- C77: large integers have no `sqrt`: an error (RPython; the operations of Doubles do not matter here). -/
theorem C77_large_message {sel : String} {a : Nat} {i : Int} (hI : I.Has I.intCls sel .intSqrt) (ha : w.sh.objs[a]? = some (.data I.intCls (.big i))) :
    (I.prog .rpython ops).sends b sel [.obj a] w (toSrc r) w' ↔ r = .exc (.err .assertion) ∧ w' = w := by
  rw [sends_prim (c := I.intCls) (by simp only [Image.classOf, ha]) hI]
  exact raises_iff (s := w.sh) rfl

/-- C77: `sqrt`, sent to a positive Double, answers a new Double, the one nearest to the root. -/
theorem C77_double_message {sel : String} {a n : Nat} (ha : w.sh.objs[a]? = some (.data I.dblCls (.dbl (.fin false n)))) (hI : I.Has I.dblCls sel .dblSqrt) (hn : n ≠ 0) :
    ∃ m x, Result false m x ∧ NearestRoot (n * one) m ∧
      ∀ (r : Res Esc) w', ((I.prog .cpython ops).sends b sel [.obj a] w (toSrc r) w' ↔ r = .val (.obj w.sh.objs.length) ∧ w' = w.plus (.data I.dblCls (.dbl x))) := by
  obtain ⟨m, x, e, h1, h2⟩ := C77_double hn
  exact ⟨m, x, h1, h2, fun r w' => dblSqrt_iff (fo := ops) ha hI e⟩

/-- C75: `PositiveInfinity` answers a new Double, infinity. -/
theorem C75_infinity_message {sel : String} {l : Val} {c : Nat} (hc : I.classOf w.sh l = some c) (hI : I.Has c sel .infinity) :
    (I.prog .cpython ops).sends b sel [l] w (toSrc r) w' ↔ r = .val (.obj w.sh.objs.length) ∧ w' = w.plus (.data I.dblCls (.dbl (.inf false))) := by
  have e : positiveInfinity = .inf false := by decide +kernel
  exact infinity_iff (fo := ops) hc hI e

end

/-! ## Examples -/

/-- Classes with these messages: integers are class 3, doubles class 7, the class of the classes 20 and 22 is 21; 22 is the superclass of 20. -/
def numbersImage : Image Unit :=
  { tinyImage with
    chain := fun c => if c = 20 then [20, 22] else [c]
    table := fun c sel =>
      if c = 3 then [("to:".toList, .inr .to), ("asString".toList, .inr .numString), ("asDouble".toList, .inr .asDouble), ("sqrt".toList, .inr .intSqrt)].lookup sel
      else if c = 7 then [("round".toList, .inr .round), ("asInteger".toList, .inr .asInteger), ("sqrt".toList, .inr .dblSqrt)].lookup sel
      else if c = 21 then [("superclass".toList, .inr .superclass), ("fromString:".toList, .inr .fromString)].lookup sel
      else none
    clsObj := fun c => if c = 22 then 1 else 0 }

/-- Two classes, a text, a Double. -/
def numbersStart (n : Nat) : St (Data F64.Float) Printed := ⟨⟨[.data 21 (.cls 20), .data 21 (.cls 22), .data 8 (.str "-12".toList), .data 7 (.dbl (.fin false n))], fun _ => none, ⟨[], []⟩⟩, [], 0⟩

/-- `2 to: 4`, `A superclass`, `B superclass`, `Integer fromString: '-12'`, `144 sqrt`, `asInteger` and `sqrt` of a Double. -/
example (b : Behaviour Unit (St (Data F64.Float) Printed) Esc) (n : Nat) (hn : n ≠ 0) :
    (numbersImage.prog .cpython F64.ops).sends b "to:" [.int 2, .int 4] (numbersStart n) (.val (.obj 4)) ((numbersStart n).plus (.data 6 (.arr [.int 2, .int 3, .int 4]))) ∧
    (numbersImage.prog .cpython F64.ops).sends b "superclass" [.obj 0] (numbersStart n) (.val (.obj 1)) (numbersStart n) ∧
    (numbersImage.prog .cpython F64.ops).sends b "superclass" [.obj 1] (numbersStart n) (.val .nil) (numbersStart n) ∧
    (numbersImage.prog .cpython F64.ops).sends b "fromString:" [.obj 0, .obj 2] (numbersStart n) (.val (.int (-12))) (numbersStart n) ∧
    (numbersImage.prog .cpython F64.ops).sends b "fromString:" [.obj 0, .int 2] (numbersStart n) (.val .nil) (numbersStart n) ∧
    (numbersImage.prog .cpython F64.ops).sends b "sqrt" [.int 144] (numbersStart n) (.val (.int 12)) (numbersStart n) ∧
    (∃ i, (numbersImage.prog .cpython F64.ops).sends b "asInteger" [.obj 3] (numbersStart n) (.val (.int i)) (numbersStart n)) ∧
    ∃ f, (numbersImage.prog .cpython F64.ops).sends b "sqrt" [.obj 3] (numbersStart n) (.val (.obj 4)) ((numbersStart n).plus (.data 7 (.dbl f))) := by
  refine ⟨(sends_prim (r := .val (.obj 4)) (c := 3) rfl ⟨3, rfl⟩).2 ((ends_iff rfl).2 ⟨rfl, rfl⟩), (C80_superclass (r := .val (.obj 1)) (k := 20) (m := 21) rfl ⟨21, rfl⟩ rfl).2 ⟨rfl, rfl⟩,
    (C80_no_superclass (r := .val .nil) (k := 22) (m := 21) rfl ⟨21, rfl⟩ rfl).2 ⟨rfl, rfl⟩, (sends_prim (r := .val (.int (-12))) (c := 21) rfl ⟨21, rfl⟩).2 ((ends_iff rfl).2 ⟨rfl, rfl⟩),
    (C80_fromString_nil (r := .val .nil) (c := 21) rfl ⟨21, rfl⟩ ?_).2 ⟨rfl, rfl⟩, (C77_root_message_partial (r := .val (.int 12)) (j := 12) ⟨3, rfl⟩ (by decide)).2 ⟨rfl, rfl⟩, ?_, ?_⟩
  · rintro ⟨s, h | ⟨_, _, h, _⟩⟩ <;> cases h
  · obtain ⟨i, _, _, h⟩ := C75_asInteger_message (I := numbersImage) (w := (numbersStart n)) (sel := "asInteger") (a := 3) rfl ⟨7, rfl⟩
    exact ⟨_, (h (.val _) _).2 ⟨rfl, rfl⟩⟩
  · obtain ⟨_, x, _, _, h⟩ := C77_double_message (I := numbersImage) (w := (numbersStart n)) (sel := "sqrt") (a := 3) rfl ⟨7, rfl⟩ hn
    exact ⟨x, (h (.val (.obj 4)) _).2 ⟨rfl, rfl⟩⟩

end PySOM.Mach

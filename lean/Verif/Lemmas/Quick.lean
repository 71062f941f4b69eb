import Verif.Spec.Quick
import Verif.Props.Compile
/-!
# Lemmas for rewriting bytecodes
-/
set_option autoImplicit false
namespace PySOM.Quick
open PySOM PySOM.BC

section Decode
variable {M : Type}

theorem decode_at (lits : List (Lit M)) (bs : List Nat) (p : Nat) :
    decode lits (bs.drop p) = match bs[p]? with | none => none | some op => decodeOp lits op bs[p + 1]? bs[p + 2]? := by
  have h1 := List.getElem?_drop (xs := bs) (i := p) (j := 0)
  have h2 := List.getElem?_drop (xs := bs) (i := p) (j := 1)
  have h3 := List.getElem?_drop (xs := bs) (i := p) (j := 2)
  rw [Nat.add_zero] at h1
  rw [← h1, ← h2, ← h3]
  cases bs.drop p with
  | nil => rfl
  | cons op rest => rfl

/-- The opcodes with a name in their operands. -/
def named : List Nat := [Op.superSend, Op.pushLocal, Op.pushArgument, Op.popLocal, Op.popArgument]

/-- The opcodes that only appear at run time. -/
def quickOps : List Nat :=
  [Op.pushFrame, Op.pushFrame0, Op.pushFrame1, Op.pushFrame2, Op.pushInner, Op.pushInner0, Op.pushInner1, Op.pushInner2,
   Op.popFrame, Op.popFrame0, Op.popFrame1, Op.popFrame2, Op.popInner, Op.popInner0, Op.popInner1, Op.popInner2,
   Op.qSuperSend1, Op.qSuperSend2, Op.qSuperSend3, Op.qSuperSendN]

/-- Instructions without a name in their operands. -/
def Nameless : Dec M → Prop
  | .ins (.pushVar _ _ _) _ => False
  | .ins (.popVar _ _ _) _ => False
  | .ins (.superSend _ _) _ => False
  | _ => True

theorem decodeOp_quick (lits : List (Lit M)) (op : Nat) (a b : Option Nat) (h : op ∈ quickOps) : decodeOp lits op a b = none := by
  simp only [quickOps, List.mem_cons, List.not_mem_nil, or_false] at h
  rcases h with rfl | rfl | rfl | rfl | rfl | rfl | rfl | rfl | rfl | rfl | rfl | rfl | rfl | rfl | rfl | rfl | rfl | rfl | rfl | rfl <;> rfl

theorem decodeOp_lt {lits : List (Lit M)} {op : Nat} {a b : Option Nat} {d : Dec M} (h : decodeOp lits op a b = some d) : op < 78 := by
  apply Classical.byContradiction
  intro hn
  have : decodeOp lits op a b = none := by
    simp only [decodeOp]
    repeat (rw [if_neg (by intro h; rw [h] at hn; exact hn (by decide))])
  rw [this] at h
  cases h

macro "opcases" n:ident hn:ident : tactic => `(tactic|
  (have $hn : $n = 0 ∨ $n = 1 ∨ $n = 2 ∨ $n = 3 ∨ $n = 4 ∨ $n = 5 ∨ $n = 6 ∨ $n = 7 ∨ $n = 8 ∨ $n = 9 ∨ $n = 10 ∨ $n = 11 ∨ $n = 12 ∨ $n = 13 ∨ $n = 14 ∨ $n = 15 ∨ $n = 16 ∨ $n = 17 ∨ $n = 18 ∨ $n = 19 ∨ $n = 20 ∨ $n = 21 ∨ $n = 22 ∨ $n = 23 ∨ $n = 24 ∨ $n = 25 ∨ $n = 26 ∨ $n = 27 ∨ $n = 28 ∨ $n = 29 ∨ $n = 30 ∨ $n = 31 ∨ $n = 32 ∨ $n = 33 ∨ $n = 34 ∨ $n = 35 ∨ $n = 36 ∨ $n = 37 ∨ $n = 38 ∨ $n = 39 ∨ $n = 40 ∨ $n = 41 ∨ $n = 42 ∨ $n = 43 ∨ $n = 44 ∨ $n = 45 ∨ $n = 46 ∨ $n = 47 ∨ $n = 48 ∨ $n = 49 ∨ $n = 50 ∨ $n = 51 ∨ $n = 52 ∨ $n = 53 ∨ $n = 54 ∨ $n = 55 ∨ $n = 56 ∨ $n = 57 ∨ $n = 58 ∨ $n = 59 ∨ $n = 60 ∨ $n = 61 ∨ $n = 62 ∨ $n = 63 ∨ $n = 64 ∨ $n = 65 ∨ $n = 66 ∨ $n = 67 ∨ $n = 68 ∨ $n = 69 ∨ $n = 70 ∨ $n = 71 ∨ $n = 72 ∨ $n = 73 ∨ $n = 74 ∨ $n = 75 ∨ $n = 76 ∨ $n = 77 := by omega
   rcases $hn:ident with $hn:ident | $hn:ident | $hn:ident | $hn:ident | $hn:ident | $hn:ident | $hn:ident | $hn:ident | $hn:ident | $hn:ident | $hn:ident | $hn:ident | $hn:ident | $hn:ident | $hn:ident | $hn:ident | $hn:ident | $hn:ident | $hn:ident | $hn:ident | $hn:ident | $hn:ident | $hn:ident | $hn:ident | $hn:ident | $hn:ident | $hn:ident | $hn:ident | $hn:ident | $hn:ident | $hn:ident | $hn:ident | $hn:ident | $hn:ident | $hn:ident | $hn:ident | $hn:ident | $hn:ident | $hn:ident | $hn:ident | $hn:ident | $hn:ident | $hn:ident | $hn:ident | $hn:ident | $hn:ident | $hn:ident | $hn:ident | $hn:ident | $hn:ident | $hn:ident | $hn:ident | $hn:ident | $hn:ident | $hn:ident | $hn:ident | $hn:ident | $hn:ident | $hn:ident | $hn:ident | $hn:ident | $hn:ident | $hn:ident | $hn:ident | $hn:ident | $hn:ident | $hn:ident | $hn:ident | $hn:ident | $hn:ident | $hn:ident | $hn:ident | $hn:ident | $hn:ident | $hn:ident | $hn:ident | $hn:ident | $hn:ident <;> subst $hn))

/-- Only the operand bytes of the instruction matter. -/
theorem decodeOp_operands {lits : List (Lit M)} {op : Nat} {a b a' b' : Option Nat} {d : Dec M} (h : decodeOp lits op a b = some d)
    (ha : 2 ≤ d.len → a' = a) (hb : 3 ≤ d.len → b' = b) : decodeOp lits op a' b' = some d := by
  have hlt := decodeOp_lt h
  opcases op hn <;>
  (unfold decodeOp at h ⊢
   repeat rw [if_neg (by decide)] at h
   repeat rw [if_neg (by decide)]
   first
   | (cases h; done)
   | (rw [if_pos rfl] at h ⊢
      first
      | exact h
      | (simp only [Option.bind_eq_bind, Option.bind_eq_some_iff, Option.some.injEq] at h
         first
         | (obtain ⟨x, hx, y, hy, z, hz, h⟩ := h; subst h; rw [ha (by simp [Dec.len]), hx]; simp only [Option.bind_eq_bind, Option.bind_some, hy, hz]; done)
         | (obtain ⟨x, hx, y, hy, h⟩ := h; subst h; rw [ha (by simp [Dec.len]), hx]; simp only [Option.bind_eq_bind, Option.bind_some, hy]; done)
         | (obtain ⟨x, hx, y, hy, h⟩ := h; subst h; rw [ha (by simp [Dec.len]), hx, hb (by simp [Dec.len]), hy]; rfl)
         | (obtain ⟨x, hx, h⟩ := h; subst h; rw [ha (by simp [Dec.len]), hx]; rfl))))

theorem decodeOp_nameless {lits : List (Lit M)} {op : Nat} {a b : Option Nat} {d : Dec M} (h : decodeOp lits op a b = some d)
    (hn : op ∉ named) : Nameless d := by
  have hlt := decodeOp_lt h
  opcases op hx <;>
  (first
   | (exfalso; exact hn (by decide))
   | (unfold decodeOp at h
      repeat rw [if_neg (by decide)] at h
      first
      | (cases h; done)
      | (rw [if_pos rfl] at h
         simp only [Option.bind_eq_bind, Option.bind_eq_some_iff, Option.some.injEq] at h
         first
         | (subst h; trivial)
         | (obtain ⟨_, _, h⟩ := h; subst h; trivial)
         | (obtain ⟨_, _, _, _, h⟩ := h; subst h; trivial))))

/-- Decoded jumps are jumps in the sense of the specification of well-formed code. -/
theorem target_jumpsTo {lits : List (Lit M)} {bs : List Nat} {p : Nat} {d : Dec M} {t : Int} (h : decode lits (bs.drop p) = some d)
    (ht : d.target p = some t) (hl : p + d.len ≤ bs.length) : BC.Spec.JumpsTo bs p t := by
  rw [decode_at] at h
  cases ho : bs[p]? with
  | none => rw [ho] at h; cases h
  | some op =>
    rw [ho] at h
    dsimp only at h
    have h3 : d.len = 3 := by cases d <;> first | rfl | cases ht
    rw [h3] at hl
    have ha : bs[p + 1]? = some bs[p + 1] := List.getElem?_eq_getElem (by omega)
    have hb : bs[p + 2]? = some bs[p + 2] := List.getElem?_eq_getElem (by omega)
    refine ⟨op, _, _, ho, ha, hb, ?_⟩
    rw [ha, hb] at h
    generalize bs[p + 1] = a at h ⊢
    generalize bs[p + 2] = b at h ⊢
    have sh : a + b <<< 8 = a + 256 * b := by rw [Nat.shiftLeft_eq]; omega
    have hlt := decodeOp_lt h
    opcases op hx <;>
    (unfold decodeOp at h
     repeat rw [if_neg (by decide)] at h
     first
     | (cases h; done)
     | (rw [if_pos rfl] at h
        first
        | (simp only [Option.bind_eq_bind, Option.bind_eq_some_iff, Option.some.injEq] at h
           first
           | (subst h; cases ht; done)
           | (obtain ⟨_, _, h⟩ := h; subst h; cases ht; done)
           | (obtain ⟨_, _, _, _, h⟩ := h; subst h; cases ht; done)
           | (obtain ⟨_, hx, h⟩ := h; cases hx; subst h; cases ht; exact .inl ⟨by decide, rfl⟩)
           | (obtain ⟨_, hx, h⟩ := h; cases hx; subst h; cases ht; exact .inr (.inr (.inl ⟨by decide, rfl⟩)))
           | (obtain ⟨_, hx, _, hy, h⟩ := h; cases hx; cases hy; subst h; cases ht
              refine .inr (.inl ⟨by decide, ?_⟩); rw [sh]; omega)
           | (obtain ⟨_, hx, _, hy, h⟩ := h; cases hx; cases hy; subst h; cases ht
              refine .inr (.inr (.inr ⟨by decide, ?_⟩)); rw [sh]; omega))))
end Decode

/-! ## The code of a method under rewriting -/
section Rewritten
variable {M I : Type}

/-- Two boundaries are at least the length of the first one's instruction apart. -/
theorem boundary_apart {bs : List Nat} {q : Nat} (hq : BC.Spec.Boundary bs q) : ∀ {p : Nat}, BC.Spec.Boundary bs p → p < q →
    ∀ op n : Nat, bs[p]? = some op → bytecodeLength op = some n → p + n ≤ q := by
  induction hq with
  | zero => intro p _ h; omega
  | next q oq nq hq ho hn ih =>
    intro p hp hlt op n hop hn'
    by_cases h1 : p < q
    · have := ih hp h1 op n hop hn'
      omega
    · by_cases h2 : p = q
      · subst h2
        rw [ho] at hop
        cases hop
        rw [hn] at hn'
        cases hn'
        omega
      · exfalso
        have key : ∀ {r : Nat}, BC.Spec.Boundary bs r → q < r → r < q + nq → False := by
          intro r hr
          induction hr with
          | zero => intro h; omega
          | next r or nr hr' hor hnr ihr =>
            intro h3 h4
            by_cases h5 : r < q
            · have := ih hr' h5 or nr hor hnr
              omega
            · by_cases h6 : r = q
              · subst h6
                rw [ho] at hor
                cases hor
                rw [hn] at hnr
                cases hnr
                omega
              · exact ihr (by omega) (by have := bytecodeLength_pos hnr; omega)
        exact key hp (by omega) hlt

/-- The symbolic opcode of a variable access. -/
def symOp (isArg isPush : Bool) : Nat :=
  if isPush then (if isArg then Op.pushArgument else Op.pushLocal) else (if isArg then Op.popArgument else Op.popLocal)

/-- The instruction at `p`: as compiled, or rewritten. -/
inductive Inst (nargs : I → Nat) (me : Meth M I) (d : Dyn I) (p : Nat) : Prop where
  | same (op n : Nat) (ho : me.code.bytes[p]? = some op) (hn : bytecodeLength op = some n)
      (h : ∀ k, k < n → d.bytes[p + k]? = me.code.bytes[p + k]?) : Inst nargs me d p
  | var (isArg isPush : Bool) (idx lvl : Nat) (v : Var) (ho : me.code.bytes[p]? = some (symOp isArg isPush))
      (h1 : me.code.bytes[p + 1]? = some idx) (h2 : me.code.bytes[p + 2]? = some lvl) (hv : getVar me.scopes isArg idx lvl = .ok v)
      (q0 : d.bytes[p]? = some (if isPush then pushOp v lvl else popOp v lvl)) (q1 : d.bytes[p + 1]? = some v.idx)
      (q2 : d.bytes[p + 2]? = some lvl) : Inst nargs me d p
  | super (a : Nat) (sel : Sel) (inv : I) (ho : me.code.bytes[p]? = some Op.superSend) (h1 : me.code.bytes[p + 1]? = some a)
      (hs : constSym me.code.lits a = some sel) (hl : me.look sel = some inv) (q0 : d.bytes[p]? = some (superOp (nargs inv)))
      (hc : d.cache p = some inv) : Inst nargs me d p

theorem Inst.mono {nargs : I → Nat} {me : Meth M I} {d d' : Dyn I} {p op n : Nat} (h : Inst nargs me d p) (ho : me.code.bytes[p]? = some op)
    (hn : bytecodeLength op = some n) (hk : ∀ k, k < n → d'.bytes[p + k]? = d.bytes[p + k]?) (hc : d'.cache p = d.cache p) : Inst nargs me d' p := by
  cases h with
  | same op' n' ho' hn' h =>
    rw [ho] at ho'
    cases ho'
    rw [hn] at hn'
    cases hn'
    exact .same op n ho hn fun k hlt => (hk k hlt).trans (h k hlt)
  | var isArg isPush idx lvl v ho' h1 h2 hv q0 q1 q2 =>
    have h3 : n = 3 := by
      rw [ho] at ho'
      cases ho'
      revert hn
      cases isArg <;> cases isPush <;> (intro hn; cases hn; rfl)
    subst h3
    exact .var isArg isPush idx lvl v ho' h1 h2 hv ((hk 0 (by omega)).trans q0) ((hk 1 (by omega)).trans q1) ((hk 2 (by omega)).trans q2)
  | super a sel inv ho' h1 hs hl q0 hc' =>
    have h3 : n = 2 := by
      rw [ho] at ho'
      cases ho'
      cases hn
      rfl
    subst h3
    exact .super a sel inv ho' h1 hs hl ((hk 0 (by omega)).trans q0) (hc.trans hc')

/-- The bytes and caches of a method after any history of rewriting. -/
structure Rw (nargs : I → Nat) (me : Meth M I) (d : Dyn I) : Prop where
  len : d.bytes.length = me.code.bytes.length
  ins : ∀ p, BC.Spec.Boundary me.code.bytes p → p < me.code.bytes.length → Inst nargs me d p

/-- A change of the bytes of one instruction. -/
theorem Rw.change {nargs : I → Nat} {me : Meth M I} {d d' : Dyn I} {pc op n : Nat} (h : Rw nargs me d)
    (hwf : BC.Spec.WellFormed me.code.lits me.code.bytes) (hb : BC.Spec.Boundary me.code.bytes pc) (ho : me.code.bytes[pc]? = some op)
    (hn : bytecodeLength op = some n) (hlen : d'.bytes.length = d.bytes.length) (hout : ∀ i, i < pc ∨ pc + n ≤ i → d'.bytes[i]? = d.bytes[i]?)
    (hc : ∀ p, p ≠ pc → d'.cache p = d.cache p) (hpc : Inst nargs me d' pc) : Rw nargs me d' := by
  refine ⟨hlen.trans h.len, fun p hp hlt => ?_⟩
  by_cases e : p = pc
  · subst e; exact hpc
  · rcases hwf.whole p hp with h0 | ⟨op', n', _, ho', hn', hle, _⟩
    · omega
    · refine (h.ins p hp hlt).mono ho' hn' (fun k hk => hout _ ?_) (hc p e)
      by_cases h1 : p < pc
      · have := boundary_apart hb hp h1 op' n' ho' hn'
        omega
      · have := boundary_apart hp hb (by omega) op n ho hn
        omega

theorem Rw.fresh (nargs : I → Nat) (me : Meth M I) (hwf : BC.Spec.WellFormed me.code.lits me.code.bytes) : Rw nargs me me.fresh := by
  refine ⟨rfl, fun p hp hlt => ?_⟩
  rcases hwf.whole p hp with h0 | ⟨op', n', _, ho', hn', hle, _⟩
  · omega
  · exact .same op' n' ho' hn' fun _ _ => rfl

/-! ## One iteration -/

/-- What the theorem asks of a method: well-formed code, variable accesses that resolve to a slot that fits into a byte, variables of
outer scopes in contexts, and that a method found under a selector takes the selector's number of arguments. -/
structure OK (nargs : I → Nat) (me : Meth M I) : Prop where
  wf : BC.Spec.WellFormed me.code.lits me.code.bytes
  vars : ∀ (p : Nat) (isArg isPush : Bool) (idx lvl : Nat), BC.Spec.Boundary me.code.bytes p → me.code.bytes[p]? = some (symOp isArg isPush) →
    me.code.bytes[p + 1]? = some idx → me.code.bytes[p + 2]? = some lvl →
    ∃ v, getVar me.scopes isArg idx lvl = .ok v ∧ 1 ≤ v.idx ∧ v.idx ≤ 255 ∧ (0 < lvl → v.captured = true)
  arity : ∀ sel inv, me.look sel = some inv → nargs inv = Sym.numberOfSignatureArguments sel

theorem plain_var (me : Meth M I) (p : Nat) (s : List Val) (isArg isPush : Bool) (idx lvl : Nat) (ho : me.code.bytes[p]? = some (symOp isArg isPush))
    (h1 : me.code.bytes[p + 1]? = some idx) (h2 : me.code.bytes[p + 2]? = some lvl) :
    Spec.plain me p s = outOf (Spec.meaning me) me.code.max p s (.ins (if isPush then .pushVar isArg idx lvl else .popVar isArg idx lvl) 3) := by
  have : decode me.code.lits (me.code.bytes.drop p) = some (.ins (if isPush then .pushVar isArg idx lvl else .popVar isArg idx lvl) 3) := by
    rw [decode_at, ho, h1, h2]
    cases isArg <;> cases isPush <;> rfl
  simp only [Spec.plain, this]
  cases isPush <;> rfl

theorem qlocal_var {nargs : I → Nat} {me : Meth M I} {d : Dyn I} {p : Nat} (s : List Val) {isArg isPush : Bool} {idx lvl : Nat} {v : Var}
    (ho : me.code.bytes[p]? = some (symOp isArg isPush)) (h1 : me.code.bytes[p + 1]? = some idx) (h2 : me.code.bytes[p + 2]? = some lvl)
    (hv : getVar me.scopes isArg idx lvl = .ok v) (hc : 0 < lvl → v.captured = true)
    (q0 : d.bytes[p]? = some (if isPush then pushOp v lvl else popOp v lvl)) (q1 : d.bytes[p + 1]? = some v.idx) (q2 : d.bytes[p + 2]? = some lvl) :
    qlocal nargs me d p s = (d, Spec.plain me p s) := by
  rw [plain_var me p s isArg isPush idx lvl ho h1 h2]
  obtain ⟨cap, i⟩ := v
  have h4 : (lvl = 0 ∧ i = 1) ∨ (lvl = 0 ∧ i = 2) ∨ (lvl = 0 ∧ i = 3) ∨ (¬ (lvl = 0 ∧ i = 1) ∧ ¬ (lvl = 0 ∧ i = 2) ∧ ¬ (lvl = 0 ∧ i = 3)) := by omega
  unfold qlocal
  cases isPush <;> cases cap <;> simp only [pushOp, popOp, if_true, if_false, Bool.false_eq_true, ↓reduceIte] at q0 <;>
    rcases h4 with ⟨rfl, rfl⟩ | ⟨rfl, rfl⟩ | ⟨rfl, rfl⟩ | ⟨n1, n2, n3⟩
  all_goals first | rw [if_neg n1, if_neg n2, if_neg n3] at q0 | skip
  all_goals
    simp only [q0, q1, q2, outOf, Ins.eff, Spec.meaning, Spec.slot, hv, Bool.false_eq_true, if_false, if_true, ↓reduceIte]
  all_goals
    first
    | rfl
    | (cases s <;> simp only [Spec.meaning, Spec.slot, hv] <;> rfl)
    | (have hl : lvl = 0 := by
         apply Classical.byContradiction
         intro hn
         have := hc (by omega)
         cases this
       subst hl
       first
       | rfl
       | (cases s <;> simp only [Spec.meaning, Spec.slot, hv] <;> rfl))

theorem plain_super (me : Meth M I) (p : Nat) (s : List Val) (a : Nat) (sel : Sel) (ho : me.code.bytes[p]? = some Op.superSend)
    (h1 : me.code.bytes[p + 1]? = some a) (hs : constSym me.code.lits a = some sel) :
    Spec.plain me p s = match me.look sel with
      | some inv => invokeOut p s inv (Sym.numberOfSignatureArguments sel)
      | none => .fail .attribute := by
  have : decode me.code.lits (me.code.bytes.drop p) = some (.ins (.superSend sel (Sym.numberOfSignatureArguments sel)) 2) := by
    rw [decode_at, ho, h1]
    show (do let s ← constSym me.code.lits (← some a); some (Dec.ins (.superSend s (Sym.numberOfSignatureArguments s)) 2)) = _
    simp only [Option.bind_eq_bind, Option.bind_some, hs]
  simp only [Spec.plain, this]
  cases me.look sel <;> rfl

theorem plain_super_found (me : Meth M I) (p : Nat) (s : List Val) (a : Nat) (sel : Sel) (inv : I) (ho : me.code.bytes[p]? = some Op.superSend)
    (h1 : me.code.bytes[p + 1]? = some a) (hs : constSym me.code.lits a = some sel) (hl : me.look sel = some inv) :
    Spec.plain me p s = invokeOut p s inv (Sym.numberOfSignatureArguments sel) := by
  rw [plain_super me p s a sel ho h1 hs, hl]

theorem qlocal_super {nargs : I → Nat} {me : Meth M I} {d : Dyn I} {p : Nat} (s : List Val) {a : Nat} {sel : Sel} {inv : I}
    (ho : me.code.bytes[p]? = some Op.superSend) (h1 : me.code.bytes[p + 1]? = some a) (hs : constSym me.code.lits a = some sel)
    (hl : me.look sel = some inv) (ha : nargs inv = Sym.numberOfSignatureArguments sel) (q0 : d.bytes[p]? = some (superOp (nargs inv)))
    (hc : d.cache p = some inv) : qlocal nargs me d p s = (d, Spec.plain me p s) := by
  rw [plain_super_found me p s a sel inv ho h1 hs hl, ← ha]
  have h4 : nargs inv = 1 ∨ nargs inv = 2 ∨ nargs inv = 3 ∨ (nargs inv ≠ 1 ∧ nargs inv ≠ 2 ∧ nargs inv ≠ 3) := by omega
  unfold qlocal
  rcases h4 with h | h | h | ⟨n1, n2, n3⟩
  · rw [h] at q0
    simp only [q0, h, superOp, superQuick, hc]
    rfl
  · rw [h] at q0
    simp only [q0, h, superOp, superQuick, hc]
    rfl
  · rw [h] at q0
    simp only [q0, h, superOp, superQuick, hc]
    rfl
  · rw [superOp, if_neg n1, if_neg n2, if_neg n3] at q0
    simp only [q0, superQuick, hc]
    rfl

/-- Instructions without names do the same for the interpreter and for the specification. -/
theorem outOf_nameless (me : Meth M I) (max pc : Nat) (s : List Val) (i : Dec M) (h : Nameless i) :
    outOf (fun a => .ok (.other a)) max pc s i = outOf (Spec.meaning me) max pc s i := by
  cases i with
  | ins i len =>
    cases i with
    | pushVar | popVar | superSend => exact h.elim
    | send sel n =>
      simp only [outOf, Ins.eff]
      by_cases hle : n ≤ s.length
      · simp only [if_pos hle, Spec.meaning]
      · simp only [if_neg hle]
    | _ => first | rfl | (cases s <;> rfl)
  | _ => rfl

theorem qlocal_other {nargs : I → Nat} {me : Meth M I} {d : Dyn I} {p : Nat} (s : List Val) {op : Nat} (ho : d.bytes[p]? = some op)
    (h1 : op ∉ quickOps) (h2 : op ∉ named) :
    qlocal nargs me d p s = match decodeOp me.code.lits op d.bytes[p + 1]? d.bytes[p + 2]? with
      | none => (d, .crash .badCode)
      | some i => (d, outOf (fun a => .ok (.other a)) me.code.max p s i) := by
  simp only [quickOps, named, List.mem_cons, List.not_mem_nil, or_false, not_or] at h1 h2
  obtain ⟨a1, a2, a3, a4, a5, a6, a7, a8, a9, a10, a11, a12, a13, a14, a15, a16, a17, a18, a19, a20⟩ := h1
  obtain ⟨b1, b2, b3, b4, b5⟩ := h2
  unfold qlocal
  simp only [ho, if_neg a1, if_neg a2, if_neg a3, if_neg a4, if_neg a5, if_neg a6, if_neg a7, if_neg a8, if_neg a9, if_neg a10, if_neg a11,
    if_neg a12, if_neg a13, if_neg a14, if_neg a15, if_neg a16, if_neg a17, if_neg a18, if_neg a19, if_neg a20, if_neg b1, if_neg b2,
    if_neg b3, if_neg b4, if_neg b5]
  cases decodeOp me.code.lits op d.bytes[p + 1]? d.bytes[p + 2]? <;> rfl

theorem qlocal_patch {nargs : I → Nat} {me : Meth M I} {d : Dyn I} {p : Nat} (s : List Val) {isArg isPush : Bool}
    (ho : d.bytes[p]? = some (symOp isArg isPush)) : qlocal nargs me d p s = patchVar me d p s isArg isPush := by
  unfold qlocal
  cases isArg <;> cases isPush <;> simp only [ho, symOp] <;> rfl

/-- One iteration of the interpreter, whatever was rewritten before, does what the specification says, either at once or, after
rewriting the instruction, in the next iteration. -/
theorem local_ok {nargs : I → Nat} {me : Meth M I} (ok : OK nargs me) {d : Dyn I} (h : Rw nargs me d) {pc : Nat}
    (hb : BC.Spec.Boundary me.code.bytes pc) (s : List Val) :
    ∃ d', Rw nargs me d' ∧ (qlocal nargs me d pc s = (d', Spec.plain me pc s) ∨
      ∃ d1, Rw nargs me d1 ∧ qlocal nargs me d pc s = (d1, .goto pc s) ∧ qlocal nargs me d1 pc s = (d', Spec.plain me pc s)) := by
  rcases ok.wf.whole pc hb with h0 | ⟨op, n, i, ho, hn, hle, hd⟩
  · have hc : me.code.bytes[pc]? = none := List.getElem?_eq_none_iff.mpr (by omega)
    have hd : d.bytes[pc]? = none := List.getElem?_eq_none_iff.mpr (by rw [h.len]; omega)
    refine ⟨d, h, .inl ?_⟩
    have e : decode me.code.lits (me.code.bytes.drop pc) = none := by rw [decode_at, hc]
    simp only [qlocal, hd, Spec.plain, e]
  · have hpos := bytecodeLength_pos hn
    cases h.ins pc hb (by omega) with
    | var isArg isPush idx lvl v ho' h1 h2 hv q0 q1 q2 =>
      obtain ⟨v', hv', _, _, hcap⟩ := ok.vars pc isArg isPush idx lvl hb ho' h1 h2
      rw [hv] at hv'
      cases hv'
      exact ⟨d, h, .inl (qlocal_var s ho' h1 h2 hv hcap q0 q1 q2)⟩
    | super a sel inv ho' h1 hs hl q0 hc => exact ⟨d, h, .inl (qlocal_super s ho' h1 hs hl (ok.arity sel inv hl) q0 hc)⟩
    | same op' n' ho' hn' hk =>
      rw [ho] at ho'
      cases ho'
      rw [hn] at hn'
      cases hn'
      rw [decode_at, ho] at hd
      dsimp only at hd
      have hlen : i.len = n := by
        have := C44_lengths_agree me.code.lits op ((me.code.bytes.drop pc).drop 1) i (by
          show decodeOp _ _ _ _ = _
          rw [List.getElem?_drop, List.getElem?_drop, List.getElem?_drop, List.getElem?_drop]
          simpa only [← Nat.add_assoc] using hd)
        rw [hn] at this
        cases this
        rfl
      have q0 : d.bytes[pc]? = some op := (hk 0 (by omega)).trans ho
      by_cases hnm : op ∈ named
      · simp only [named, List.mem_cons, List.not_mem_nil, or_false] at hnm
        by_cases hsup : op = Op.superSend
        · subst hsup
          cases hn
          have ha : me.code.bytes[pc + 1]? = some me.code.bytes[pc + 1] := List.getElem?_eq_getElem (by omega)
          generalize me.code.bytes[pc + 1] = a at ha
          have q1 : d.bytes[pc + 1]? = some a := (hk 1 (by omega)).trans ha
          have eq : qlocal nargs me d pc s = superSlow nargs me d pc s := by
            unfold qlocal
            simp only [q0]
            rfl
          cases hs : constSym me.code.lits a with
          | none =>
            exfalso
            rw [ha] at hd
            change (do let s ← constSym me.code.lits (← some a); some (Dec.ins (.superSend s (Sym.numberOfSignatureArguments s)) 2)) = _ at hd
            simp only [Option.bind_eq_bind, Option.bind_some, hs, Option.bind_none] at hd
            cases hd
          | some sel =>
            cases hl : me.look sel with
            | none =>
              refine ⟨d, h, .inl ?_⟩
              rw [eq, plain_super me pc s a sel ho ha hs, hl]
              simp only [superSlow, q1, Option.bind_some, hs, hl]
            | some inv =>
              have e : superSlow nargs me d pc s = ({ bytes := d.bytes.set pc (superOp (nargs inv)), cache := fun p => if p = pc then some inv else d.cache p },
                  invokeOut pc s inv (nargs inv)) := by simp only [superSlow, q1, Option.bind_some, hs, hl]
              refine ⟨{ bytes := d.bytes.set pc (superOp (nargs inv)), cache := fun p => if p = pc then some inv else d.cache p }, ?_, .inl (by rw [eq, e, plain_super_found me pc s a sel inv ho ha hs hl, ok.arity sel inv hl])⟩
              refine h.change ok.wf hb ho (n := 2) rfl (by simp only [List.length_set]) (fun i hi => ?_) (fun p hp => if_neg hp) ?_
              · exact List.getElem?_set_ne (by omega)
              · have hl' : d.bytes.length = me.code.bytes.length := h.len
                have hp : pc < d.bytes.length := by omega
                exact .super a sel inv ho ha hs hl (List.getElem?_set_self hp) (if_pos rfl)
        · obtain ⟨isArg, isPush, rfl⟩ : ∃ isArg isPush, op = symOp isArg isPush := by
            rcases hnm with h | h | h | h | h
            · exact absurd h hsup
            · exact ⟨false, true, h⟩
            · exact ⟨true, true, h⟩
            · exact ⟨false, false, h⟩
            · exact ⟨true, false, h⟩
          have h3 : n = 3 := by
            revert hn
            cases isArg <;> cases isPush <;> (intro hn; cases hn; rfl)
          subst h3
          have ha : me.code.bytes[pc + 1]? = some me.code.bytes[pc + 1] := List.getElem?_eq_getElem (by omega)
          have hb' : me.code.bytes[pc + 2]? = some me.code.bytes[pc + 2] := List.getElem?_eq_getElem (by omega)
          generalize me.code.bytes[pc + 1] = idx at ha
          generalize me.code.bytes[pc + 2] = lvl at hb'
          have q1 : d.bytes[pc + 1]? = some idx := (hk 1 (by omega)).trans ha
          have q2 : d.bytes[pc + 2]? = some lvl := (hk 2 (by omega)).trans hb'
          obtain ⟨v, hv, hlo, hhi, hcap⟩ := ok.vars pc isArg isPush idx lvl hb ho ha hb'
          have e : patchVar me d pc s isArg isPush = ({ d with bytes := (d.bytes.set pc (if isPush then pushOp v lvl else popOp v lvl)).set (pc + 1) v.idx },
              .goto pc s) := by
            simp only [patchVar, q1, q2, hv, if_pos (And.intro hlo hhi)]
          have hl : d.bytes.length = me.code.bytes.length := h.len
          have r0 : ((d.bytes.set pc (if isPush then pushOp v lvl else popOp v lvl)).set (pc + 1) v.idx)[pc]? = some (if isPush then pushOp v lvl else popOp v lvl) := by
            rw [List.getElem?_set_ne (by omega), List.getElem?_set_self (by omega)]
          have r1 : ((d.bytes.set pc (if isPush then pushOp v lvl else popOp v lvl)).set (pc + 1) v.idx)[pc + 1]? = some v.idx := by
            rw [List.getElem?_set_self (by rw [List.length_set]; omega)]
          have r2 : ((d.bytes.set pc (if isPush then pushOp v lvl else popOp v lvl)).set (pc + 1) v.idx)[pc + 2]? = some lvl := by
            rw [List.getElem?_set_ne (by omega), List.getElem?_set_ne (by omega), q2]
          have hrw : Rw nargs me { d with bytes := (d.bytes.set pc (if isPush then pushOp v lvl else popOp v lvl)).set (pc + 1) v.idx } := by
            refine h.change ok.wf hb ho (n := 3) hn (by simp only [List.length_set]) (fun i hi => ?_) (fun p hp => rfl) ?_
            · show ((d.bytes.set pc _).set (pc + 1) v.idx)[i]? = _
              rw [List.getElem?_set_ne (by omega), List.getElem?_set_ne (by omega)]
            · exact .var isArg isPush idx lvl v ho ha hb' hv r0 r1 r2
          exact ⟨_, hrw, .inr ⟨_, hrw, (qlocal_patch s q0).trans e, qlocal_var s ho ha hb' hv hcap r0 r1 r2⟩⟩
      · have hq : op ∉ quickOps := by
          intro hm
          rw [decodeOp_quick _ _ _ _ hm] at hd
          cases hd
        refine ⟨d, h, .inl ?_⟩
        rw [qlocal_other s q0 hq hnm]
        have e1 : decode me.code.lits (me.code.bytes.drop pc) = some i := by rw [decode_at, ho]; exact hd
        rw [decodeOp_operands hd (fun h2 => hk 1 (by omega)) (fun h2 => hk 2 (by omega))]
        have hnl := decodeOp_nameless hd hnm
        have e2 : Spec.plain me pc s = outOf (Spec.meaning me) me.code.max pc s i := by
          simp only [Spec.plain, e1]
          cases i with
          | ins i len => cases i <;> first | rfl | exact hnl.elim
          | _ => rfl
        rw [e2]
        dsimp only
        rw [outOf_nameless me _ _ _ _ (decodeOp_nameless hd hnm)]
end Rewritten
end PySOM.Quick

import Verif.Model.Gen
import Verif.Spec.GenCode
/-!
# What source expressions mean

The meaning of an expression is a relation between the state before, the outcome and the state after: composed from the actions
(reading and writing variables, sending messages, …) in the order in which the language evaluates.  There is no stack, there are
no instructions and no jumps.
-/
set_option autoImplicit false
namespace PySOM.BC
namespace Src
open PySOM

section
variable {M X W E : Type}

/-- Outcome of an expression: a value, the surrounding method answers (a return inside an inlined block), or an exception. -/
inductive Res (E : Type) where
  | val (v : Val)
  | ret (v : Val)
  | exc (e : E)

/-- The evaluation ends here. -/
def Res.stops : Res E → Prop
  | .val _ => False
  | _ => True

/-- Meaning: state before, outcome, state after. -/
abbrev Rel (W E : Type) := W → Res E → W → Prop

/-- A value, without any effect. -/
def pure (v : Val) : Rel W E := fun w r w' => r = .val v ∧ w' = w

/-- An action. -/
def act (A : World M W E) (a : Act M) : Rel W E := fun w r w' =>
  (∃ v, r = .val v ∧ A a w (.val v) w') ∨ (∃ e, r = .exc e ∧ A a w (.exc e) w')

/-- First `p`; if it gives a value `v`, then `k v`. -/
def bind (p : Rel W E) (k : Val → Rel W E) : Rel W E := fun w r w' =>
  (∃ v w1, p w (.val v) w1 ∧ k v w1 r w') ∨ (p w r w' ∧ r.stops)

/-- The method answers `v`. -/
def answer (v : Val) : Rel W E := fun w r w' => r = .ret v ∧ w' = w

/-- Repeat `body` until `cond` gives a value for which `stop` holds; the value is nil. -/
inductive While (stop : Val → Bool) (cond body : Rel W E) : Rel W E where
  | exit (w w1 : W) (v : Val) (hc : cond w (.val v) w1) (hs : stop v = true) : While stop cond body w (.val .nil) w1
  | condStop (w w1 : W) (r : Res E) (hc : cond w r w1) (hr : r.stops) : While stop cond body w r w1
  | bodyStop (w w1 w2 : W) (v : Val) (r : Res E) (hc : cond w (.val v) w1) (hs : stop v = false) (hb : body w1 r w2) (hr : r.stops) :
      While stop cond body w r w2
  | next (w w1 w2 w3 : W) (v u : Val) (r : Res E) (hc : cond w (.val v) w1) (hs : stop v = false) (hb : body w1 (.val u) w2)
      (hn : While stop cond body w2 r w3) : While stop cond body w r w3

/-- What `e + 1` and `e - 1` mean, given the value of `e`. -/
structure Arith (W E : Type) where
  plus : Val → Rel W E
  minus : Val → Rel W E

/-- They are messages like all others: the language. -/
def messages (A : World M W E) : Arith W E where
  plus v := act A (.send "+".toList [v, .int 1])
  minus v := act A (.send "-".toList [v, .int 1])

/-- They are the instructions of the machine. -/
def machine (A : World M W E) : Arith W E where
  plus v := act A (.inc v)
  minus v := act A (.dec v)

/-- `f := f + 1` -/
def incField (A : World M W E) (P : Arith W E) (i l : Nat) : Rel W E :=
  bind (act A (.rdFld i l)) fun v => bind (P.plus v) fun u => bind (act A (.wrFld i l u)) fun _ => pure u

/-- The increment and decrement instructions do what `+ 1` and `- 1` mean. -/
def IncIsPlus (A : World M W E) (P : Arith W E) : Prop :=
  (∀ v w r w', act A (.inc v) w r w' ↔ P.plus v w r w') ∧ (∀ v w r w', act A (.dec v) w r w' ↔ P.minus v w r w')

/-- The instruction that increments a field does what `f := f + 1` means. -/
def IncFieldIsPlus (A : World M W E) (P : Arith W E) : Prop :=
  ∀ i l w r w', act A (.incFld i l) w r w' ↔ incField A P i l w r w'

mutual
/-- A literal.  A literal array is a new array that is filled element by element. -/
def lit (A : World M W E) : LitT → Rel W E
  | .val v => pure v
  | .arr es => bind (act A (.glob symArray)) fun c => bind (act A (.send symNew [c, .int es.length])) fun a => fill A es 1 a
def fill (A : World M W E) : LitTs → Nat → Val → Rel W E
  | .nil, _, a => pure a
  | .cons e es, i, a => bind (lit A e) fun v => bind (act A (.send symAtPut [a, .int i, v])) fun a' => fill A es (i + 1) a'
end

/-- Reading a global. -/
def glob (A : World M W E) (n : Sel) : Rel W E :=
  if n = "nil".toList then pure .nil
  else if n = "true".toList then pure .tru
  else if n = "false".toList then pure .fls
  else act A (.glob n)

/-- Store a value into a variable. -/
def store (A : World M W E) (lvl : Nat) (v : Val) : Tgt → Rel W E
  | .var _ a i l => act A (.wrVar a i l v)
  | .fld _ i => act A (.wrFld i lvl v)

/-- Store into all variables from left to right; the value of the assignment is the stored value. -/
def stores (A : World M W E) (lvl : Nat) (v : Val) : List Tgt → Rel W E
  | [] => pure v
  | t :: ts => bind (store A lvl v t) fun _ => stores A lvl v ts

/-- The meaning of the bodies of inlined blocks, which depends on where their variables are.  How the variables change is `env`. -/
structure Blocks (M X W E : Type) where
  body : M → X → Rel W E
  env : M → X → X

/-- The value of a receiver decides which block is evaluated. -/
def inlined (B : Blocks M X W E) (r : Rel W E) (x : X) : Inlined M → Rel W E
  | .thenBranch c m => bind r fun v => if c.holds v then pure (c.top v) else B.body m x
  | .thenElse c m1 m2 => bind r fun v => if c.holds v then B.body m2 (B.env m1 x) else B.body m1 x
  | .while b m1 m2 => While (fun v => decide (v = if b then .fls else .tru)) (B.body m1 x) (B.body m2 (B.env m1 x))
  | .andOr b m => bind r fun v => if v = (if b then .tru else .fls) then pure (if b then .tru else .fls) else B.body m x

/-- Where variables are after an inlined send. -/
def inlinedEnv (B : Blocks M X W E) (x : X) : Inlined M → X
  | .thenBranch _ m => B.env m x
  | .thenElse _ m1 m2 => B.env m2 (B.env m1 x)
  | .while _ m1 m2 => B.env m2 (B.env m1 x)
  | .andOr _ m => B.env m x

mutual
/-- Where variables are after an expression. -/
def envEx (B : Blocks M X W E) : Ex M → X → X
  | .asg _ _ e, x => envEx B e x
  | .inc e, x => envEx B e x
  | .dec e, x => envEx B e x
  | .send sel r as, x =>
    match inlined? sel r as with
    | some i => inlinedEnv B (envEx B r x) i
    | none => envExs B as (envEx B r x)
  | .superSend _ r as, x => envExs B as (envEx B r x)
  | _, x => x
def envExs (B : Blocks M X W E) : Exs M → X → X
  | .nil, x => x
  | .cons e es, x => envExs B es (envEx B e x)
end

mutual
/-- If there is an `e + 1` or `e - 1`, then `inc`; if there is an `f := f + 1`, then `fuse`. -/
def needsEx (inc fuse : Prop) : Ex M → Prop
  | .asg t ts e => (fusable t ts e = none ∨ fuse) ∧ needsEx inc fuse e
  | .inc e => inc ∧ needsEx inc fuse e
  | .dec e => inc ∧ needsEx inc fuse e
  | .send _ r as => needsEx inc fuse r ∧ needsExs inc fuse as
  | .superSend _ r as => needsEx inc fuse r ∧ needsExs inc fuse as
  | _ => True
def needsExs (inc fuse : Prop) : Exs M → Prop
  | .nil => True
  | .cons e es => needsEx inc fuse e ∧ needsExs inc fuse es
end

def needsBody (inc fuse : Prop) : Body M → Prop
  | .done => True
  | .last e => needsEx inc fuse e
  | .stmt e rest => needsEx inc fuse e ∧ needsBody inc fuse rest
  | .exit e => needsEx inc fuse e
  | .exitSelf => True

mutual
/-- The meaning of an expression at a context level. -/
def ex (A : World M W E) (P : Arith W E) (B : Blocks M X W E) (lvl : Nat) : Ex M → X → Rel W E
  | .lit l, _ => lit A l
  | .glob n, _ => glob A n
  | .var a i l, _ => act A (.rdVar a i l)
  | .fld _ i, _ => act A (.rdFld i lvl)
  | .blk c m, _ => act A (.mkBlock c m)
  | .asg t ts e, x => bind (ex A P B lvl e x) fun v => stores A lvl v (t :: ts)
  | .inc e, x => bind (ex A P B lvl e x) fun v => P.plus v
  | .dec e, x => bind (ex A P B lvl e x) fun v => P.minus v
  | .send sel r as, x =>
    match inlined? sel r as with
    | some i => inlined B (ex A P B lvl r x) (envEx B r x) i
    | none => bind (ex A P B lvl r x) fun v => exs A P B lvl as (envEx B r x) fun vs => act A (.send sel (v :: vs))
  | .superSend sel r as, x => bind (ex A P B lvl r x) fun v => exs A P B lvl as (envEx B r x) fun vs => act A (.superSend sel (v :: vs))
/-- Arguments from left to right, then `k`. -/
def exs (A : World M W E) (P : Arith W E) (B : Blocks M X W E) (lvl : Nat) : Exs M → X → (List Val → Rel W E) → Rel W E
  | .nil, _, k => k []
  | .cons e es, x, k => bind (ex A P B lvl e x) fun v => exs A P B lvl es (envEx B e x) fun vs => k (v :: vs)
end

/-- The meaning of a body: statements one after the other.  A block answers the value of its last expression (nil if there is none), a
method answers self; `^ e` answers `e` in a method and is a non-local return in a block. -/
def body (A : World M W E) (P : Arith W E) (B : Blocks M X W E) (isBlock : Bool) (lvl : Nat) : Body M → X → Rel W E
  | .done, _ => if isBlock then answer .nil else bind (act A .self) answer
  | .last e, x => bind (ex A P B lvl e x) fun v => if isBlock then answer v else bind (act A .self) answer
  | .stmt e .done, x => bind (ex A P B lvl e x) fun v => if isBlock then answer v else bind (act A .self) answer
  | .stmt e rest, x => bind (ex A P B lvl e x) fun _ => body A P B isBlock lvl rest (envEx B e x)
  | .exit e, x => bind (ex A P B lvl e x) fun v => if isBlock then bind (act A (.nlr lvl v)) answer else answer v
  | .exitSelf, _ => bind (act A .self) answer

/-- The state in which an activation of a method is, given the outcome; `s` is the operand stack below the value. -/
def Res.out (s : List Val) (w : W) : Res E → Out W E
  | .val v => .ok (v :: s) w
  | .ret v => .ret v w
  | .exc e => .exc e w

end
end Src

section
variable {M X W E : Type}

/-- Code means `R` when `pre` is on the operand stack: it takes `pre` from the stack, pushes the value of `R` and does what `R` does, for
all contents of the stack below. -/
def Sem (A : World M W E) (c : SC M) (pre : List Val) (R : Src.Rel W E) : Prop :=
  ∀ s w o, SEval A c (pre ++ s) w o ↔ ∃ r w', R w r w' ∧ o = r.out s w'

/-- `B` says what the code of the inlined blocks does. -/
structure Means (A : World M W E) (I : Inliner M X) (lvl : Nat) (B : Src.Blocks M X W E) : Prop where
  body : ∀ m x, I.good lvl m → Sem A (I.code m lvl x) [] (B.body m x)
  env : ∀ m x, B.env m x = I.env m lvl x
end
end PySOM.BC

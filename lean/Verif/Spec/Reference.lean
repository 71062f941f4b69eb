import Verif.Spec.Whole
/-!
# An interpreter of the source

What the source of a program means, without compiling it: expressions are evaluated as they stand, from left to right.

Blocks are of two kinds.  A literal block that is an argument of a control structure (`ifTrue:`, `and:`, `whileTrue:` and so on, see `controls` and `loop`) is evaluated in place, as often as the
structure says, in the activation of the method or block around it.  Every other block is created, and evaluated in an activation of its own when it is sent `value`.

A variable is found by counting scopes outwards, as it is written.  The frame that keeps it is that of the innermost method or block around the declaration that has its own activation, and the place in
this frame is the place of the declaration in the list of all declarations kept there.
-/
set_option autoImplicit false
namespace PySOM.BC
open PySOM

/-! ## Control structures -/

/-- What a control structure does with the value of its receiver: it evaluates one of its blocks, gives a value, or complains. -/
inductive Choice where
  | run (i : Nat)
  | give (v : Val)
  | fail (e : Err)

/-- A control structure with this many blocks. -/
structure Control where
  blocks : Nat
  pick : Val → Choice

/-- For receivers that must be booleans. -/
def byBool (t f : Choice) (e : Err) : Val → Choice
  | .tru => t
  | .fls => f
  | _ => .fail e

def byNil (n : Choice) (other : Val → Choice) : Val → Choice
  | .nil => n
  | v => other v

def controls : List (Sel × Control) :=
  [("ifTrue:".toList, ⟨1, byBool (.run 0) (.give .nil) .notImplemented⟩),
   ("ifFalse:".toList, ⟨1, byBool (.give .nil) (.run 0) .notImplemented⟩),
   ("ifTrue:ifFalse:".toList, ⟨2, byBool (.run 0) (.run 1) .notImplemented⟩),
   ("ifFalse:ifTrue:".toList, ⟨2, byBool (.run 1) (.run 0) .notImplemented⟩),
   ("ifNil:".toList, ⟨1, byNil (.run 0) .give⟩),
   ("ifNotNil:".toList, ⟨1, byNil (.give .nil) fun _ => .run 0⟩),
   ("ifNil:ifNotNil:".toList, ⟨2, byNil (.run 0) fun _ => .run 1⟩),
   ("ifNotNil:ifNil:".toList, ⟨2, byNil (.run 1) fun _ => .run 0⟩),
   ("and:".toList, ⟨1, byBool (.run 0) (.give .fls) .assertion⟩),
   ("&&".toList, ⟨1, byBool (.run 0) (.give .fls) .assertion⟩),
   ("or:".toList, ⟨1, byBool (.give .tru) (.run 0) .assertion⟩),
   ("||".toList, ⟨1, byBool (.give .tru) (.run 0) .assertion⟩)]

/-- Loops, and the value of the condition for which they go on. -/
def loops : List (Sel × Bool) := [("whileTrue:".toList, true), ("whileFalse:".toList, false)]

def Ex.isBlk : Ex SBlock → Bool
  | .blk _ _ => true
  | _ => false

def Exs.allBlk : Exs SBlock → Bool
  | .nil => true
  | .cons e es => e.isBlk && es.allBlk

inductive Shape where
  | choice (c : Control)
  | loop (b : Bool)

/-- A message with these arguments is a control structure. -/
def shape (sel : Sel) (r : Ex SBlock) (as : Exs SBlock) : Option Shape :=
  match loops.lookup sel with
  | some b => if r.isBlk && as.allBlk && as.length == 1 then some (.loop b) else none
  | none =>
    match controls.lookup sel with
    | some c => if as.allBlk && as.length == c.blocks then some (.choice c) else none
    | none => none

/-! ## Areas -/

/-- A block that only gives a literal, a global or a field, or nothing. -/
def Body.plain : Body SBlock → Bool
  | .done => true
  | .last (.lit _) => true
  | .last (.glob _) => true
  | .last (.fld _ _) => true
  | .stmt (.lit _) .done => true
  | .stmt (.glob _) .done => true
  | .stmt (.fld _ _) .done => true
  | _ => false

mutual
/-- The variables of the blocks in an expression that are evaluated in place. -/
def Ex.hoist : Ex SBlock → List Nat
  | .lit _ => []
  | .glob _ => []
  | .var _ _ _ => []
  | .fld _ _ => []
  | .blk _ _ => []
  | .asg _ _ e => e.hoist
  | .inc e => e.hoist
  | .dec e => e.hoist
  | .send sel r as =>
    match shape sel r as with
    | some (.choice _) => r.hoist ++ as.inVars
    | some (.loop _) => r.inVars ++ as.inVars
    | none => r.hoist ++ as.hoist
  | .superSend _ r as => r.hoist ++ as.hoist
/-- The same for a block evaluated in place. -/
def Ex.inVars : Ex SBlock → List Nat
  | .blk _ s => s.inVars
  | _ => []
def Exs.hoist : Exs SBlock → List Nat
  | .nil => []
  | .cons e es => e.hoist ++ es.hoist
def Exs.inVars : Exs SBlock → List Nat
  | .nil => []
  | .cons e es => e.inVars ++ es.inVars
def Body.hoist : Body SBlock → List Nat
  | .done => []
  | .last e => e.hoist
  | .stmt e rest => e.hoist ++ rest.hoist
  | .exit e => e.hoist
  | .exitSelf => []
/-- Its own variables and those of the blocks in it.  A simple block uses no variables. -/
def SBlock.inVars : SBlock → List Nat
  | .mk _ _ env b => if b.plain then [] else env ++ b.hoist
end

/-- A scope: whether it has an activation of its own, the variables declared in it, and, if it has an activation, the variables kept in its frame. -/
structure Area where
  frame : Bool
  vars : List Nat
  slots : List Nat

/-- From the inside out. -/
abbrev Areas := List Area

/-- How many frames out is the frame that keeps the variables of the scope that is `l` scopes out? -/
def hops : Areas → Nat → Nat
  | [], l => l
  | s :: σ, 0 => if s.frame then 0 else hops σ 0
  | s :: σ, l + 1 => if s.frame then hops σ l + 1 else hops σ l

/-- The variables kept in this frame. -/
def kept : Areas → Nat → List Nat
  | [], _ => []
  | s :: σ, 0 => if s.frame then s.slots else kept σ 0
  | _ :: σ, l + 1 => kept σ l

/-- The declaration of the variable number `i` of the scope `l` scopes out. -/
def declared (σ : Areas) (i l : Nat) : Option Nat := (σ[l]?).bind fun s => s.vars[i]?

/-- Its place in the frame. -/
def whereIs (σ : Areas) (i l : Nat) : Option Nat := (declared σ i l).bind fun d => (kept σ l).idxOf? d

/-- How many frames out is the frame of the method? -/
def depth (σ : Areas) : Nat := σ.countP (·.frame) - 1

def SBlock.id : SBlock → Nat
  | .mk id _ _ _ => id

/-- The scope of a block, evaluated in place or in an activation of its own. -/
def SBlock.scope (frame : Bool) : SBlock → Area
  | .mk _ _ env b => ⟨frame, env, env ++ b.hoist⟩

def SMethod.scope (s : SMethod) : Area := ⟨true, s.env, s.env ++ s.body.hoist⟩

/-! ## Accesses -/

/-- There is such a variable. -/
def Tgt.bound (chain : List (List Nat)) : Tgt → Prop
  | .var _ true _ _ => True
  | .var _ false i l => ∃ vs, chain[l]? = some vs ∧ i < vs.length
  | .fld _ _ => True

mutual
/-- The local variables that are accessed have been declared; `chain` are the variables of the scopes around, from the inside out. -/
def Ex.bound (chain : List (List Nat)) : Ex SBlock → Prop
  | .var false i l => ∃ vs, chain[l]? = some vs ∧ i < vs.length
  | .blk _ s => s.bound chain
  | .asg t ts e => e.bound chain ∧ ∀ u ∈ t :: ts, u.bound chain
  | .inc e => e.bound chain
  | .dec e => e.bound chain
  | .send _ r as => r.bound chain ∧ as.bound chain
  | .superSend _ r as => r.bound chain ∧ as.bound chain
  | _ => True
def Exs.bound (chain : List (List Nat)) : Exs SBlock → Prop
  | .nil => True
  | .cons e es => e.bound chain ∧ es.bound chain
def Body.bound (chain : List (List Nat)) : Body SBlock → Prop
  | .done => True
  | .last e => e.bound chain
  | .stmt e rest => e.bound chain ∧ rest.bound chain
  | .exit e => e.bound chain
  | .exitSelf => True
def SBlock.bound (chain : List (List Nat)) : SBlock → Prop
  | .mk _ _ env b => b.bound (env :: chain)
end

/-! ## Evaluation -/

section
variable {W E : Type}

/-- There is nothing. -/
def never : Src.Rel W E := fun _ _ _ => False

/-- A message that is a control structure, given the meaning of the receiver and of the blocks. -/
def Control.eval (c : Control) (err : Err → E) (r : Src.Rel W E) (bs : List (Src.Rel W E)) : Src.Rel W E :=
  Src.bind r fun v =>
    match c.pick v with
    | .run i => bs[i]?.getD never
    | .give u => Src.pure u
    | .fail e => Cond.raises err e

/-- A loop goes on as long as the condition is `b`; the condition must be a boolean. -/
def loopEval (b : Bool) (err : Err → E) (c : Src.Rel W E) (bs : List (Src.Rel W E)) : Src.Rel W E :=
  Src.While (fun v => decide (v = if b then .fls else .tru)) (Src.bind c fun v => if v = .tru ∨ v = .fls then Src.pure v else Cond.raises err .notImplemented) (bs[0]?.getD never)

/-- `^`: the method answers; in a block that has an activation of its own, it is returned to the method. -/
def returns (A : World Nat W E) (σ : Areas) (v : Val) : Src.Rel W E :=
  if depth σ = 0 then Src.answer v else Src.bind (Src.act A (.nlr (depth σ) v)) Src.answer

/-- Writing a variable. -/
def assign (A : World Nat W E) (σ : Areas) (v : Val) : Tgt → Src.Rel W E
  | .var _ true i l => Src.act A (.wrVar true i (hops σ l) v)
  | .var _ false i l => match whereIs σ i l with
    | some j => Src.act A (.wrVar false j (hops σ l) v)
    | none => never
  | .fld _ i => Src.act A (.wrFld i (depth σ) v)

/-- `a := b := e` writes `b` first. -/
def assigns (A : World Nat W E) (σ : Areas) (v : Val) : List Tgt → Src.Rel W E
  | [] => Src.pure v
  | t :: ts => Src.bind (assigns A σ v ts) fun _ => Src.bind (assign A σ v t) fun _ => Src.pure v

mutual
/-- The meaning of an expression. -/
def Ex.eval (known : Sel → Bool) (A : World Nat W E) (err : Err → E) (σ : Areas) : Ex SBlock → Src.Rel W E
  | .lit l => Src.lit A l
  | .glob n => Src.glob A n
  | .var true i l => Src.act A (.rdVar true i (hops σ l))
  | .var false i l => match whereIs σ i l with
    | some j => Src.act A (.rdVar false j (hops σ l))
    | none => never
  | .fld _ i => Src.act A (.rdFld i (depth σ))
  | .blk _ s => Src.act A (.mkBlock (s.requiresContext known) s.id)
  | .asg t ts e => Src.bind (e.eval known A err σ) fun v => assigns A σ v (t :: ts)
  | .inc e => Src.bind (e.eval known A err σ) fun v => Src.act A (.send "+".toList [v, .int 1])
  | .dec e => Src.bind (e.eval known A err σ) fun v => Src.act A (.send "-".toList [v, .int 1])
  | .send sel r as =>
    match shape sel r as with
    | some (.choice c) => c.eval err (r.eval known A err σ) (as.inPlace known A err σ)
    | some (.loop b) => loopEval b err (r.inPlace known A err σ) (as.inPlace known A err σ)
    | none => Src.bind (r.eval known A err σ) fun v => as.eval known A err σ fun vs => Src.act A (.send sel (v :: vs))
  | .superSend sel r as => Src.bind (r.eval known A err σ) fun v => as.eval known A err σ fun vs => Src.act A (.superSend sel (v :: vs))
/-- The meaning of a block that is evaluated in place. -/
def Ex.inPlace (known : Sel → Bool) (A : World Nat W E) (err : Err → E) (σ : Areas) : Ex SBlock → Src.Rel W E
  | .blk _ s => s.inPlace known A err σ
  | _ => never
def Exs.inPlace (known : Sel → Bool) (A : World Nat W E) (err : Err → E) (σ : Areas) : Exs SBlock → List (Src.Rel W E)
  | .nil => []
  | .cons e es => e.inPlace known A err σ :: es.inPlace known A err σ
/-- Arguments from left to right, then `k`. -/
def Exs.eval (known : Sel → Bool) (A : World Nat W E) (err : Err → E) (σ : Areas) : Exs SBlock → (List Val → Src.Rel W E) → Src.Rel W E
  | .nil, k => k []
  | .cons e es, k => Src.bind (e.eval known A err σ) fun v => es.eval known A err σ fun vs => k (v :: vs)
/-- Statements one after the other.  A block gives the value of the last one, or nil; a method answers `self` if there is no `^`. -/
def Body.eval (known : Sel → Bool) (A : World Nat W E) (err : Err → E) (isBlock : Bool) (σ : Areas) : Body SBlock → Src.Rel W E
  | .done => if isBlock then Src.pure .nil else Src.act A (.rdVar true 0 0)
  | .last e => if isBlock then e.eval known A err σ else Src.bind (e.eval known A err σ) fun _ => Src.act A (.rdVar true 0 0)
  | .stmt e rest =>
    match rest with
    | .done => if isBlock then e.eval known A err σ else Src.bind (e.eval known A err σ) fun _ => Src.act A (.rdVar true 0 0)
    | rest => Src.bind (e.eval known A err σ) fun _ => rest.eval known A err isBlock σ
  | .exit e => Src.bind (e.eval known A err σ) (returns A σ)
  | .exitSelf => Src.bind (Src.act A (.rdVar true 0 (depth σ))) (returns A σ)
def SBlock.inPlace (known : Sel → Bool) (A : World Nat W E) (err : Err → E) (σ : Areas) : SBlock → Src.Rel W E
  | .mk _ _ env b => b.eval known A err true (⟨false, env, env ++ b.hoist⟩ :: σ)
end

/-- The value of the body, or what it returned with `^`, is the answer. -/
def answered (R : Src.Rel W E) : Src.Rel W E := fun w r w' =>
  match r with
  | .val _ => False
  | .ret v => R w (.val v) w' ∨ R w (.ret v) w'
  | .exc e => R w (.exc e) w'

/-- An activation of a method. -/
def SMethod.eval (known : Sel → Bool) (A : World Nat W E) (err : Err → E) (s : SMethod) : Src.Rel W E := answered (s.body.eval known A err false [s.scope])

/-- An activation of a block that was created in the scopes `σ`. -/
def SBlock.eval (known : Sel → Bool) (A : World Nat W E) (err : Err → E) (σ : Areas) : SBlock → Src.Rel W E
  | .mk id args env b => answered (b.eval known A err true ((SBlock.mk id args env b).scope true :: σ))

/-! ## Programs -/

mutual
/-- The blocks that an expression creates, with the scopes around them. -/
def Ex.made (σ : Areas) : Ex SBlock → List (Areas × SBlock)
  | .lit _ => []
  | .glob _ => []
  | .var _ _ _ => []
  | .fld _ _ => []
  | .blk _ s => [(σ, s)]
  | .asg _ _ e => e.made σ
  | .inc e => e.made σ
  | .dec e => e.made σ
  | .send sel r as =>
    match shape sel r as with
    | some (.choice _) => r.made σ ++ as.madeIn σ
    | some (.loop _) => r.madeIn σ ++ as.madeIn σ
    | none => r.made σ ++ as.made σ
  | .superSend _ r as => r.made σ ++ as.made σ
/-- The blocks that a block creates when it is evaluated in place. -/
def Ex.madeIn (σ : Areas) : Ex SBlock → List (Areas × SBlock)
  | .blk _ s => s.madeIn false σ
  | _ => []
def Exs.made (σ : Areas) : Exs SBlock → List (Areas × SBlock)
  | .nil => []
  | .cons e es => e.made σ ++ es.made σ
def Exs.madeIn (σ : Areas) : Exs SBlock → List (Areas × SBlock)
  | .nil => []
  | .cons e es => e.madeIn σ ++ es.madeIn σ
def Body.made (σ : Areas) : Body SBlock → List (Areas × SBlock)
  | .done => []
  | .last e => e.made σ
  | .stmt e rest => e.made σ ++ rest.made σ
  | .exit e => e.made σ
  | .exitSelf => []
def SBlock.madeIn (frame : Bool) (σ : Areas) : SBlock → List (Areas × SBlock)
  | .mk _ _ env b => b.made (⟨frame, env, env ++ b.hoist⟩ :: σ)
end

/-- The blocks of a method, at any depth, with the scopes around them. -/
inductive SMethod.Has (m : SMethod) : Areas → SBlock → Prop where
  | here (σ : Areas) (s : SBlock) (h : (σ, s) ∈ m.body.made [m.scope]) : m.Has σ s
  | deeper (σ : Areas) (s : SBlock) (σ' : Areas) (s' : SBlock) (h : m.Has σ s) (h' : (σ', s') ∈ s.madeIn true σ) : m.Has σ' s'

/-- Interpreting the source of a program, with calls nested less than `k` deep. -/
def srcBehaviour {ι : Type} (known : Sel → Bool) (src : ι → SMethod) (Φ : System ι W E) (err : Err → E) : Nat → Behaviour ι W E
  | 0 => ⟨fun _ _ _ _ => False, fun _ _ _ _ => False⟩
  | k + 1 =>
    let A := (Φ (srcBehaviour known src Φ err k)).1
    ⟨fun i => (src i).eval known A err, fun id w r w' => ∃ i σ s, (src i).Has σ s ∧ s.id = id ∧ s.eval known A err σ w r w'⟩

end
end PySOM.BC

import Verif.Model.Gen
/-!
# Model of trivial methods

`assemble_trivial_method` (`src/som/compiler/bc/method_generation_context.py:106-131` and 473-585), which looks at the last bytecodes
and the length of the code to recognise methods that only answer a literal, a global or a field, or store an argument into a field;
and `src/som/vmobjects/method_trivial.py`, the objects that stand for such methods.
-/
set_option autoImplicit false
namespace PySOM.BC
open PySOM

/-- `LiteralReturn`, `GlobalRead`, `FieldRead` and `FieldWrite` (`method_trivial.py:42, 84, 139, 184`).  The association that `GlobalRead`
remembers is left out: it holds the value of the global (`Model/Globals.lean`). -/
inductive Triv (M : Type) where
  | lit (l : Lit M)
  | glob (n : Sel) (ctx : Nat)
  | fldRead (idx ctx : Nat)
  | fldWrite (idx arg : Nat)

section
variable {M X : Type}

/-- `self._bytecode[-k]`. -/
def byteFromEnd (g : G M X) (k : Nat) : Except Err Nat :=
  if k ≤ g.bytes.length then
    match g.bytes[g.bytes.length - k]? with
    | some b => .ok b
    | none => .error .index
  else .error .index

/-- `_assemble_literal_return` (473-495). -/
def assembleLiteralReturn (g : G M X) (push : Nat) : Except Err (Option (Triv M)) := do
  if g.bytes.length ≠ (← lenOf push) + 1 then .ok none
  else match g.lits with
    | [l] => .ok (some (.lit l))
    | _ =>
      if g.bytes[0]? = some Op.push0 then .ok (some (.lit (.val (.int 0))))
      else if g.bytes[0]? = some Op.push1 then .ok (some (.lit (.val (.int 1))))
      else if g.bytes[0]? = some Op.pushNil then .ok (some (.lit (.val .nil)))
      else .error .notImplemented

/-- `_assemble_global_return` (497-527). -/
def assembleGlobalReturn (g : G M X) (push : Nat) : Except Err (Option (Triv M)) := do
  if g.bytes.length ≠ (← lenOf push) + 1 then .ok none
  else match g.lits with
    | [.val (.sym n)] =>
      if n = symTrue then .ok (some (.lit (.val .tru)))
      else if n = symFalse then .ok (some (.lit (.val .fls)))
      else if n = symNil then .ok (some (.lit (.val .nil)))
      else .ok (some (.glob n g.lvl))
    | [_] => .error .assertion
    | _ => .error .notImplemented

/-- `_assemble_field_getter` (529-545). -/
def assembleFieldGetter (g : G M X) (push : Nat) : Except Err (Option (Triv M)) := do
  if g.bytes.length ≠ (← lenOf push) + 1 then .ok none
  else if push = Op.pushField0 then .ok (some (.fldRead 0 0))
  else if push = Op.pushField1 then .ok (some (.fldRead 1 0))
  else do
    let idx ← byteFromEnd g 3
    let ctx ← byteFromEnd g 2
    .ok (some (.fldRead idx ctx))

/-- `_assemble_field_getter_from_return` (547-556). -/
def assembleFieldGetterFromReturn (g : G M X) (ret : Nat) : Except Err (Option (Triv M)) := do
  if g.bytes.length ≠ (← lenOf ret) then .ok none
  else if ret = Op.returnField0 then .ok (some (.fldRead 0 0))
  else if ret = Op.returnField1 then .ok (some (.fldRead 1 0))
  else if ret = Op.returnField2 then .ok (some (.fldRead 2 0))
  else .error .assertion

/-- `_assemble_field_setter` (558-585). -/
def assembleFieldSetter (g : G M X) : Except Err (Option (Triv M)) :=
  if popFieldBytecodes.contains g.l2 = false then .ok none
  else if g.l1 ≠ Op.pushArgument then .ok none
  else do
    let popLen ← lenOf g.l2
    if g.bytes.length ≠ 1 + popLen + (← lenOf g.l1) then .ok none
    else do
      let idx ← if g.l2 = Op.popField0 then .ok 0
        else if g.l2 = Op.popField1 then .ok 1
        else do
          let idx ← byteFromEnd g 3
          if (← byteFromEnd g 2) = 0 then .ok idx else .error .assertion
      let arg ← byteFromEnd g (popLen + 1 + 2)
      .ok (some (.fldWrite idx arg))

/-- `assemble_trivial_method` (106-131). -/
def assembleTrivial (isBlock : Bool) (g : G M X) : Except Err (Option (Triv M)) :=
  if g.l3 = Op.returnLocal ∧ pushConstBytecodes.contains g.l2 then assembleLiteralReturn g g.l2
  else if g.l3 = Op.returnLocal ∧ g.l2 = Op.pushGlobal then assembleGlobalReturn g g.l2
  else if g.l3 = Op.returnLocal ∧ pushFieldBytecodes.contains g.l2 then assembleFieldGetter g g.l2
  else if g.l3 = Op.returnSelf then if isBlock then .error .assertion else assembleFieldSetter g
  else if returnFieldBytecodes.contains g.l3 then assembleFieldGetterFromReturn g g.l3
  else .ok none

end

/-! ## Running them -/

/-- What trivial methods and the interpreter do with objects.  `bad` stands for a Python error (`AttributeError`, `AssertionError`,
`NotImplementedError`). -/
structure Core (W E : Type) where
  bad : E
  /-- `isinstance(v, BcBlock)` -/
  isBlk : W → Val → Bool
  /-- `v.get_from_outer(FRAME_AND_INNER_RCVR_IDX)`; `none` if it fails -/
  outer : W → Val → Option Val
  /-- `o.get_field(i)` -/
  getFld : Val → Nat → W → Res E → W → Prop
  /-- `o.set_field(i, v)`; what it returns is not used -/
  setFld : Val → Nat → Val → W → Res E → W → Prop
  /-- `universe.get_global(n)` -/
  global : W → Sel → Option Val
  /-- `lookup_and_send_2(o, n, "unknownGlobal:")` -/
  unknown : Val → Sel → W → Res E → W → Prop

section
variable {M W E : Type}

/-- `determine_outer_self` (`method_trivial.py:15-20`). -/
def Core.selfAt (K : Core W E) (w : W) (v : Val) : Nat → Option Val
  | 0 => some v
  | n + 1 => match K.outer w v with
    | some u => K.selfAt w u n
    | none => none

/-- The loop of `get_block_at` (`bc/frame.py:178-184`) after `n` rounds. -/
def Core.blockAt (K : Core W E) (w : W) (v : Val) : Nat → Option Val
  | 0 => some v
  | n + 1 => (K.blockAt w v n).bind (K.outer w)

/-- `get_self` of the interpreter (`interpreter.py:819-823`). -/
def Core.getSelf (K : Core W E) (w : W) (v : Val) (ctxLevel : Nat) : Option Val :=
  if ctxLevel = 0 then some v else (K.blockAt w v (ctxLevel - 1)).bind (K.outer w)

/-- `get_self_dynamically` (`bc/frame.py:188-200`). -/
inductive Core.Dyn (K : Core W E) (w : W) : Val → Option Val → Prop where
  | here (v : Val) (h : K.isBlk w v = false) : Core.Dyn K w v (some v)
  | up (v u : Val) (r : Option Val) (h : K.isBlk w v = true) (ho : K.outer w v = some u) (hr : Core.Dyn K w u r) : Core.Dyn K w v r
  | fail (v : Val) (h : K.isBlk w v = true) (ho : K.outer w v = none) : Core.Dyn K w v none

/-- A Python error. -/
def Core.fails (K : Core W E) : W → Res E → W → Prop := fun w r w' => r = .exc K.bad ∧ w' = w

/-- Do `p` with an object that may be missing. -/
def Core.on (K : Core W E) (o : Option Val) (p : Val → W → Res E → W → Prop) : W → Res E → W → Prop :=
  match o with
  | some v => p v
  | none => K.fails

/-- `rcvr.set_field(idx, v); return rcvr` (`FieldWrite.invoke_2`, `method_trivial.py:197-199`). -/
def Core.setAndAnswer (K : Core W E) (rcvr : Val) (idx : Nat) (v : Val) : W → Res E → W → Prop := fun w r w' =>
  (∃ u, K.setFld rcvr idx v w (.val u) w' ∧ r = .val rcvr) ∨ (∃ e, K.setFld rcvr idx v w (.exc e) w' ∧ r = .exc e)

/-- `invoke_1`, `invoke_2`, `invoke_3` and, from four arguments on, `invoke_n`; `args` are the receiver and the arguments, `below` is what is
below them on the caller's stack.  For literals and reads all of them do the same with the receiver (42-181).  `FieldWrite` (184-224) has its
own argument selection in each; `invoke_n` indexes the stack, whose top is the last argument. -/
def Triv.invoke (K : Core W E) (t : Triv M) (args below : List Val) : W → Res E → W → Prop :=
  match t, args with
  | _, [] => K.fails
  | .lit (.val v), _ => fun w r w' => r = .val v ∧ w' = w
  | .lit (.meth _), _ => K.fails
  | .glob n ctx, rcvr :: _ => fun w r w' =>
    match K.global w n with
    | some v => r = .val v ∧ w' = w
    | none => K.on (K.selfAt w rcvr ctx) (fun o => K.unknown o n) w r w'
  | .fldRead i ctx, rcvr :: _ => fun w r w' => K.on (K.selfAt w rcvr ctx) (fun o => K.getFld o i) w r w'
  | .fldWrite _ _, [_] => K.fails
  | .fldWrite i _, [rcvr, a1] => K.setAndAnswer rcvr i a1
  | .fldWrite i k, [rcvr, a1, a2] => if k = 1 then K.setAndAnswer rcvr i a1 else K.setAndAnswer rcvr i a2
  | .fldWrite i k, rcvr :: as =>
    K.on ((as.reverse ++ rcvr :: below)[as.length + 1 - k]?) (fun v => K.setAndAnswer rcvr i v)

/-- What the instructions of an activation do that are used by such methods (`interpreter.py`: `push_argument`, `push_field` and
`pop_field`, `push_global` (264-275), `return_self`).  `args` are the receiver and the arguments. -/
structure Activation (K : Core W E) (args : List Val) (A : World M W E) : Prop where
  arg : ∀ i v w r w', args[i]? = some v → (A (.rdVar true i 0) w r w' ↔ r = .val v ∧ w' = w)
  rdFld : ∀ i l rcvr w r w', args.head? = some rcvr → (A (.rdFld i l) w r w' ↔ K.on (K.getSelf w rcvr l) (fun o => K.getFld o i) w r w')
  wrFld : ∀ i l rcvr v w r w', args.head? = some rcvr → (A (.wrFld i l v) w r w' ↔ K.on (K.getSelf w rcvr l) (fun o => K.setFld o i v) w r w')
  glob : ∀ n rcvr w r w', args.head? = some rcvr → (A (.glob n) w r w' ↔
    match K.global w n with
    | some v => r = .val v ∧ w' = w
    | none => ∃ o, K.Dyn w rcvr o ∧ K.on o (fun o => K.unknown o n) w r w')
  self : ∀ rcvr w r w', args.head? = some rcvr → (A .self w r w' ↔ r = .val rcvr ∧ w' = w)
end
end PySOM.BC

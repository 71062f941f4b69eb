import Verif.Spec.Whole
/-!
# The machine around methods and blocks

`Spec/Whole.lean` leaves open what the actions of methods do.  Here they are the ones of the VM: frames with their contexts, objects with fields, blocks, classes with methods and primitives,
the lookup of messages, `doesNotUnderstand:arguments:`, `unknownGlobal:`, `escapedBlock:` and non-local returns, `super`, and primitives that send messages and evaluate blocks.

Left open (parameters): what the primitives compute, and the contents of objects that only primitives look at (arrays, strings, doubles, classes).  A primitive is any automaton that looks at and
changes the objects, the globals and the outside world, and asks for messages to be sent and blocks to be evaluated; exceptions of these end it, since no primitive catches exceptions.

Simplifications: all classes that will be loaded are there from the beginning; memoised lookups and inline caches are left out (they do not change what is found, C17 and C37); variables are where
the compiler says, which the frames of the VM implement (C26–C28, C47); entry points fit the number of arguments (C57); the receiver of `escapedBlock:` is the receiver of the home
method in both interpreters (they differ if it is a block, C36); the two interpreters raise different exceptions if `super` finds nothing (C45), here it is one.
-/
set_option autoImplicit false
namespace PySOM.Mach
open PySOM BC

/-- The frame of a method or block: the receiver (for a block the block itself) and arguments, the local variables, the frame in which the block was created, the class in which
the method was found, whether the activation is still running, and whether it is that of a method that catches returns from blocks (`interpreter/ast/frame.py:76-92, 204-212`, `interpreter/bc/frame.py`; `vmobjects/block_bc.py:12-50`). -/
structure Frame where
  args : List Val
  locs : Nat → Val
  ctx : Option Nat
  holder : Nat
  on : Bool
  home : Bool

/-- Objects: instances with fields (`vmobjects/object_with_layout.py`), blocks (`block_bc.py:12-50`, `block_ast.py:15-50`), and all others with their class. -/
inductive Obj (X : Type) where
  | inst (cls : Nat) (flds : List Val)
  | block (id : Nat) (ctx : Option Nat) (holder : Nat)
  | data (cls : Nat) (x : X)

/-- What primitives can see: objects, globals, and the rest of the world. -/
structure Shared (X Y : Type) where
  objs : List (Obj X)
  globals : Sel → Option Val
  ext : Y

/-- The state: shared things, all frames that were made, and the current one. -/
structure St (X Y : Type) where
  sh : Shared X Y
  frames : List Frame
  cur : Nat

/-- Exceptions: Python exceptions, `ReturnException` (`interpreter/control_flow.py:1-11`) on its way to a frame, and whatever would happen if a frame or a receiver that the code
needs were not there (C67 shows that they are). -/
inductive Esc where
  | err (e : Err)
  | away (fr : Nat) (v : Val)
  | lost

/-- An entry of the method table of a class: a method of the program or a primitive. -/
inductive Entry (ι : Type) where
  | meth (i : ι)
  | prim (n : Nat)

/-- A message, a message that the interpreter itself or a primitive sends (`interpreter/send.py`), a method that is looked up in given classes, or the evaluation of a block.
The first value is the receiver. -/
inductive Call where
  | send (sel : Sel) (vs : List Val)
  | own (sel : Sel) (vs : List Val)
  | from (chain : List Nat) (sel : Sel) (vs : List Val)
  | value (vs : List Val)

/-- What a primitive does next. -/
inductive Move (P : Type) where
  | done (v : Val)
  | raise (e : Err)
  | next (p : P)
  | call (c : Call) (k : Val → P)

/-- A program: for every class, the class with its superclasses, nearest first, and its table; the classes of values; the number of arguments of blocks; how an array is made;
which methods catch returns from blocks (`needs_to_catch_non_local_returns`, `compiler/bc/method_generation_context.py:155-160`, `compiler/ast/method_generation_context.py:26-31`); and the
primitives. -/
structure Prog (ι X Y P : Type) where
  chain : Nat → List Nat
  table : Nat → Sel → Option (Entry ι)
  nilCls : Nat
  truCls : Nat
  flsCls : Nat
  intCls : Nat
  symCls : Nat
  blkCls : Nat → Nat
  blkArgs : Nat → Nat
  arrCls : Nat
  array : List Val → X
  catches : ι → Bool
  start : Nat → List Val → P
  step : P → Shared X Y → Shared X Y × Move P

/-- What an interpreter does for `+ 1`, `- 1` and `f := f + 1` instead of sending messages: `prim_inc` and `prim_dec` (`interpreter.py:491-523`, `int_inc_node.py:12-14`; C03, C07) and
`inc_field` (`object_with_layout.py:176-178`; C30).  They look at the class of the value and at the field `i` of the object `a`. -/
structure Incs (X Y : Type) where
  inc : Val → Shared X Y → Shared X Y × Except Err Val
  dec : Val → Shared X Y → Shared X Y × Except Err Val
  incFld : Nat → Nat → Shared X Y → Shared X Y × Except Err Val

section
variable {ι X Y P : Type}

/-- `get_class` of the kinds of objects. -/
def Prog.classOf (G : Prog ι X Y P) (sh : Shared X Y) : Val → Option Nat
  | .nil => some G.nilCls
  | .tru => some G.truCls
  | .fls => some G.flsCls
  | .int _ => some G.intCls
  | .sym _ => some G.symCls
  | .obj a => match sh.objs[a]? with
    | some (.inst c _) => some c
    | some (.block id _ _) => some (G.blkCls (G.blkArgs id))
    | some (.data c _) => some c
    | none => none

/-- `lookup_invokable` (`clazz.py:56-72`) without its memory (C17): the class that has the method, and the method. -/
def Prog.look (G : Prog ι X Y P) (chain : List Nat) (sel : Sel) : Option (Nat × Entry ι) := chain.findSome? fun h => (G.table h sel).map fun e => (h, e)

/-- What a call leads to: a method found in a class, a primitive, a block, or an exception. -/
inductive Target (ι P : Type) where
  | meth (holder : Nat) (i : ι) (vs : List Val)
  | prim (p : P)
  | blk (id : Nat) (ctx : Option Nat) (holder : Nat) (vs : List Val)
  | fail (e : Err)

def dnu : Sel := "doesNotUnderstand:arguments:".toList
def unknownGlobal : Sel := "unknownGlobal:".toList
def escapedBlock : Sel := "escapedBlock:".toList

/-- Invoking what was found; `None` has no `invoke` methods. -/
def Prog.enter (G : Prog ι X Y P) (vs : List Val) : Option (Nat × Entry ι) → Target ι P
  | some (h, .meth i) => .meth h i vs
  | some (_, .prim n) => .prim (G.start n vs)
  | none => .fail .attribute

/-- Sends (`interpreter.py:386-464`, `ast/nodes/message/generic_node.py`), the sends of `lookup_and_send_2` and `lookup_and_send_3` (`send.py:4-18`), lookups in a given class
(`super`: `interpreter.py:39-69`, `super_node.py`), and evaluating a block (`block_bc.py:65-76`).  If nothing is found by a send of a program, `doesNotUnderstand:arguments:` is sent with an array of the
arguments (`dispatch.py:39-46, 117-132`, `interpreter.py:867-887`).  Simplified: if `super` finds nothing, both interpreters raise a Python error, the bytecode interpreter an `AttributeError`
(`interpreter.py:45`), the AST interpreter an `Exception`, and that before it evaluates the arguments (`super_node.py:20-24`); here it is an `AttributeError` after the arguments for both. -/
def Prog.resolve (G : Prog ι X Y P) (w : St X Y) : Call → Target ι P × St X Y
  | .send sel vs =>
    match vs with
    | [] => (.fail .index, w)
    | r :: as =>
      match G.classOf w.sh r with
      | none => (.fail .attribute, w)
      | some c =>
        match G.look (G.chain c) sel with
        | some x => (G.enter vs (some x), w)
        | none =>
          let a := w.sh.objs.length
          (G.enter [r, .sym sel, .obj a] (G.look (G.chain c) dnu), { w with sh := { w.sh with objs := w.sh.objs ++ [.data G.arrCls (G.array as)] } })
  | .own sel vs =>
    match vs with
    | [] => (.fail .index, w)
    | r :: _ =>
      match G.classOf w.sh r with
      | none => (.fail .attribute, w)
      | some c => (G.enter vs (G.look (G.chain c) sel), w)
  | .from chain sel vs =>
    match vs with
    | [] => (.fail .index, w)
    | _ :: _ => (G.enter vs (G.look chain sel), w)
  | .value vs =>
    match vs with
    | .obj a :: _ => match w.sh.objs[a]? with
      | some (.block id ctx h) => (.blk id ctx h vs, w)
      | _ => (.fail .attribute, w)
    | _ => (.fail .attribute, w)

/-- A new frame. -/
def St.push (w : St X Y) (vs : List Val) (ctx : Option Nat) (holder : Nat) (home : Bool) : St X Y :=
  { w with frames := w.frames ++ [⟨vs, fun _ => .nil, ctx, holder, true, home⟩], cur := w.frames.length }

/-- Leaving the frame `f`: it is marked as no longer on the stack (`mark_as_no_longer_on_stack`), and the caller goes on. -/
def St.pop (w' : St X Y) (f cur : Nat) : St X Y := { w' with frames := w'.frames.modify f fun x => { x with on := false }, cur := cur }

/-- How the body of a method or a block ends, seen from outside: a return that was on its way to this frame has arrived, if it is the frame of a method
that catches them (`_interp_with_nlr`, `method_bc.py:200-211`, `CatchNonLocalReturnNode`, `return_non_local_node.py:68-87`). -/
def left (home : Bool) (f cur : Nat) : Src.Res Esc → St X Y → Res Esc × St X Y
  | .val v, w' => (.val v, w'.pop f cur)
  | .ret v, w' => (.val v, w'.pop f cur)
  | .exc (.away fr v), w' => if home = true ∧ fr = f then (.val v, w'.pop f cur) else (.exc (.away fr v), w'.pop f cur)
  | .exc e, w' => (.exc e, w'.pop f cur)

/-- Carrying out calls, given what methods and blocks do. -/
inductive Do (G : Prog ι X Y P) (b : Behaviour ι (St X Y) Esc) : Target ι P → St X Y → Res Esc → St X Y → Prop where
  | meth (h : Nat) (i : ι) (vs : List Val) (w : St X Y) (r0 : Src.Res Esc) (w0 : St X Y) (hb : b.meth i (w.push vs none h (G.catches i)) r0 w0) :
      Do G b (.meth h i vs) w (left (G.catches i) w.frames.length w.cur r0 w0).1 (left (G.catches i) w.frames.length w.cur r0 w0).2
  | blk (id : Nat) (ctx : Option Nat) (h : Nat) (vs : List Val) (w : St X Y) (r0 : Src.Res Esc) (w0 : St X Y) (hb : b.blk id (w.push vs ctx h false) r0 w0) :
      Do G b (.blk id ctx h vs) w (left false w.frames.length w.cur r0 w0).1 (left false w.frames.length w.cur r0 w0).2
  | fail (e : Err) (w : St X Y) : Do G b (.fail e) w (.exc (.err e)) w
  | done (p : P) (w : St X Y) (s : Shared X Y) (v : Val) (hs : G.step p w.sh = (s, .done v)) : Do G b (.prim p) w (.val v) { w with sh := s }
  | raise (p : P) (w : St X Y) (s : Shared X Y) (e : Err) (hs : G.step p w.sh = (s, .raise e)) : Do G b (.prim p) w (.exc (.err e)) { w with sh := s }
  | next (p : P) (w : St X Y) (s : Shared X Y) (q : P) (r : Res Esc) (w' : St X Y) (hs : G.step p w.sh = (s, .next q)) (hq : Do G b (.prim q) { w with sh := s } r w') :
      Do G b (.prim p) w r w'
  | callVal (p : P) (w : St X Y) (s : Shared X Y) (c : Call) (k : Val → P) (v : Val) (w1 : St X Y) (r : Res Esc) (w' : St X Y) (hs : G.step p w.sh = (s, .call c k))
      (hc : Do G b (G.resolve { w with sh := s } c).1 (G.resolve { w with sh := s } c).2 (.val v) w1) (hk : Do G b (.prim (k v)) w1 r w') : Do G b (.prim p) w r w'
  | callExc (p : P) (w : St X Y) (s : Shared X Y) (c : Call) (k : Val → P) (e : Esc) (w1 : St X Y) (hs : G.step p w.sh = (s, .call c k))
      (hc : Do G b (G.resolve { w with sh := s } c).1 (G.resolve { w with sh := s } c).2 (.exc e) w1) : Do G b (.prim p) w (.exc e) w1

/-- The frame `l` levels out: `get_block_at` and `get_from_outer` follow the contexts (`bc/frame.py:177-184`, `contextual_node.py:22-36`). -/
def St.level (w : St X Y) : Nat → Option Nat
  | 0 => if w.cur < w.frames.length then some w.cur else none
  | l + 1 => (w.level l).bind fun f => (w.frames[f]?).bind Frame.ctx

/-- The frame with its number. -/
def St.frameAt (w : St X Y) (l : Nat) : Option (Nat × Frame) := (w.level l).bind fun f => (w.frames[f]?).map fun x => (f, x)

/-- `self` for code at level `l`. -/
def St.selfAt (w : St X Y) (l : Nat) : Option Val := (w.frameAt l).bind fun x => x.2.args[0]?

/-- The outcome of an action that needs no call. -/
abbrev Now (X Y : Type) := Res Esc × St X Y

def raised (w : St X Y) (e : Err) : Now X Y := (.exc (.err e), w)

/-- Something that the code needs is not there. -/
def gone (w : St X Y) : Now X Y := (.exc .lost, w)

/-- Reading a variable (`push_argument`, `push_local`, `read_frame`, `read_inner`, `interpreter/ast/nodes/variable_node.py`). -/
def St.rdVar (w : St X Y) (a : Bool) (i l : Nat) : Now X Y :=
  match w.frameAt l with
  | none => gone w
  | some (_, f) => if a then match f.args[i]? with | some v => (.val v, w) | none => raised w .index else (.val (f.locs i), w)

/-- Writing a variable. -/
def St.wrVar (w : St X Y) (a : Bool) (i l : Nat) (v : Val) : Now X Y :=
  match w.frameAt l with
  | none => gone w
  | some (n, _) => (.val v, { w with frames := w.frames.modify n fun f =>
      if a then { f with args := f.args.set i v } else { f with locs := fun j => if j = i then v else f.locs j } })

/-- Reading a field of `self` (`get_field`; C15 and C16 are about layouts). -/
def St.rdFld (w : St X Y) (i l : Nat) : Now X Y :=
  match w.selfAt l with
  | some (.obj a) => match w.sh.objs[a]? with
    | some (.inst _ fs) => match fs[i]? with
      | some v => (.val v, w)
      | none => raised w .index
    | _ => raised w .attribute
  | some _ => raised w .attribute
  | none => gone w

/-- Writing a field of `self`. -/
def St.wrFld (w : St X Y) (i l : Nat) (v : Val) : Now X Y :=
  match w.selfAt l with
  | some (.obj a) => match w.sh.objs[a]? with
    | some (.inst c fs) => if i < fs.length then (.val v, { w with sh := { w.sh with objs := w.sh.objs.set a (.inst c (fs.set i v)) } }) else raised w .index
    | _ => raised w .attribute
  | some _ => raised w .attribute
  | none => gone w

/-- With the result of an operation on shared things. -/
def St.shared (w : St X Y) (x : Shared X Y × Except Err Val) : Now X Y :=
  match x.2 with
  | .ok v => (.val v, { w with sh := x.1 })
  | .error e => (.exc (.err e), { w with sh := x.1 })

/-- The receiver of the outermost frame around the current one: `get_self_dynamically` (`bc/frame.py:187-200`).  The first number bounds the contexts that are followed. -/
def St.outerSelf (w : St X Y) : Nat → Nat → Option Val
  | 0, _ => none
  | n + 1, f => match w.frames[f]? with
    | none => none
    | some x => match x.ctx with
      | none => x.args[0]?
      | some f' => w.outerSelf n f'

/-- What an action does: at once, or by a call. -/
def Prog.plan (G : Prog ι X Y P) (K : Incs X Y) (w : St X Y) : Act Nat → Now X Y ⊕ Call × St X Y
  | .rdVar a i l => .inl (w.rdVar a i l)
  | .wrVar a i l v => .inl (w.wrVar a i l v)
  | .rdFld i l => .inl (w.rdFld i l)
  | .wrFld i l v => .inl (w.wrFld i l v)
  | .incFld i l => match w.selfAt l with
    | some (.obj a) => .inl (w.shared (K.incFld a i w.sh))
    | some _ => .inl (raised w .attribute)
    | none => .inl (gone w)
  | .glob g => match w.sh.globals g with -- `push_global`, `global_read_node.py`
    | some v => .inl (.val v, w)
    | none => match w.outerSelf w.frames.length w.cur with
      | some s => .inr (.own unknownGlobal [s, .sym g], w)
      | none => .inl (gone w)
  | .mkBlock c id => -- `push_block`, `push_block_no_ctx`, `block_node.py:20-60`
    match w.frames[w.cur]? with
    | some f => .inl (.val (.obj w.sh.objs.length), { w with sh := { w.sh with objs := w.sh.objs ++ [.block id (if c then some w.cur else none) f.holder] } })
    | none => .inl (gone w)
  | .send sel vs => .inr (.send sel vs, w)
  | .superSend sel vs => match w.frames[w.cur]? with
    | some f => .inr (.from (G.chain f.holder).tail sel vs, w)
    | none => .inl (gone w)
  | .inc v => .inl (w.shared (K.inc v w.sh))
  | .dec v => .inl (w.shared (K.dec v w.sh))
  | .self => .inl (w.rdVar true 0 0)
  | .nlr l v => -- `_do_return_non_local` (`interpreter.py:73-85`), `return_non_local_node.py:41-49`
    match w.frameAt l, w.frameAt 0 with
    | some (n, f), some (_, x) =>
      if f.on then .inl (.exc (.away n v), w)
      else match f.args[0]?, x.args[0]? with
        | some s, some blk => .inr (.own escapedBlock [s, blk], w)
        | _, _ => .inl (gone w)
    | _, _ => .inl (gone w)

/-- Carrying out an action. -/
def Prog.world (G : Prog ι X Y P) (K : Incs X Y) (b : Behaviour ι (St X Y) Esc) : World Nat (St X Y) Esc := fun a w r w' =>
  match G.plan K w a with
  | .inl x => r = x.1 ∧ w' = x.2
  | .inr x => Do G b (G.resolve x.2 x.1).1 (G.resolve x.2 x.1).2 r w'

/-- The machine as a system: globals that were not known when the code was compiled are read in the same way (`global_read_node.py`). -/
def Prog.system (G : Prog ι X Y P) (K : Incs X Y) : System ι (St X Y) Esc := fun b => (G.world K b, fun n _ => Src.act (G.world K b) (.glob n))

end
end PySOM.Mach

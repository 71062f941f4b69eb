import Verif.Lemmas.AstWhole
import Verif.Spec.Whole
/-!
# The two interpreters on whole programs (C34)

Full statement of C34: a program gives the same result and the same effects in the AST interpreter and in the bytecode interpreter.

`Props/Ast` compares the code of one method or block in one world.  Here a program is a set of methods, and what sending a message or evaluating a block does is in turn given by
running the code of the program in the same interpreter.  Proved: whatever the rest of the system does with the outcomes of methods and blocks (`System`), all methods and blocks of
the two forms of the program have the same outcomes, at every depth of calls, except that the AST interpreter may complain about a condition that is not a boolean.  This includes
blocks that are changed because a block around them was inlined.  Missing: programs with literal arrays; and where `Std`, `Ex.fair` and `Body.setter` do not hold the interpreters
in fact differ (`C34_violated_…`).
-/
set_option autoImplicit false
namespace PySOM.BC
open PySOM

section
variable {ι W E : Type} {I D F C N : Prop} {known : Sel → Bool} {alloc : LitTs → Val}

/-- The two forms of the methods of a program are what the two compilers make of their source. -/
structure Compiled2.Ok (I D F C N : Prop) (known : Sel → Bool) (alloc : LitTs → Val) (n : Nat) (p : Compiled2 ι) : Prop where
  wf : ∀ i, (p.src i).Wf
  env : ∀ i, (p.src i).env.Nodup
  fair : ∀ i, (p.src i).body.fair I D F C N false
  setter : ∀ i, (p.src i).body.setter
  code : ∀ i, ∃ g, (p.src i).compile known n = .ok g ∧ assemble g = .ok (p.code i)
  tree : ∀ i, (p.src i).ast known alloc = .ok (p.tree i)

/-- C34 for whole programs: at every depth of calls, all methods and all blocks do the same in both interpreters. -/
theorem C34_program_partial {n : Nat} {p : Compiled2 ι} (hp : p.Ok I D F C N known alloc n) (Φ : System ι W E) (err : Err → E) (hΦ : Φ.passes (NoBoolean err))
    (hS : ∀ b l, Std I D F C N (Φ b).1 (Φ b).2 l) (hself : ∀ b, Src.act (Φ b).1 .self = Src.act (Φ b).1 (.rdVar true 0 0)) (k : Nat) :
    (∀ i, Approx (NoBoolean err) ((astBehaviour p Φ err k).meth i) ((bcBehaviour p Φ k).meth i)) ∧
    ∀ id, Approx (NoBoolean err) ((astBehaviour p Φ err k).blk id) ((bcBehaviour p Φ k).blk id) := by
  induction k with
  | zero => exact ⟨fun i => .refl _, fun id => .refl _⟩
  | succ k ih =>
    obtain ⟨hA, hU⟩ := hΦ _ _ ih.1 ih.2
    refine ⟨fun i => ?_, fun id => ?_⟩
    · obtain ⟨g, hg, hC⟩ := hp.code i
      exact ((p.tree i).run_approx hA hU).trans (C34_method_partial (hp.wf i) (hp.env i) (hp.fair i) (hp.setter i) hg hC (hp.tree i) (hS _ 0) (hself _) err)
    · have key : ∀ i, (∀ am, Comes AMeth.makes (p.tree i).makes am → ∃ m, Comes Meth.makes (p.code i).makes m ∧ ∃ ch, Twin I D F C N known alloc n ch m am) ∧
          ∀ m, Comes Meth.makes (p.code i).makes m → ∃ am, Comes AMeth.makes (p.tree i).makes am ∧ ∃ ch, Twin I D F C N known alloc n ch m am := fun i => by
        obtain ⟨g, hg, hC⟩ := hp.code i
        exact comes_twin (method_makes (hp.wf i) (hp.env i) (hp.fair i) hg hC (hp.tree i))
      have sem : ∀ {ch m am}, Twin I D F C N known alloc n ch m am →
          Approx (NoBoolean err) (am.run (Φ (astBehaviour p Φ err k)).1 (Φ (astBehaviour p Φ err k)).2 err) (m.run (onMeth (Φ (bcBehaviour p Φ k)).1)) :=
        fun h => (AMeth.run_approx hA hU _).trans (h.sem (fun l => hS _ l) err)
      refine ⟨?_, ?_⟩
      · rintro w r w' ⟨i, am, hc, hid, h⟩
        obtain ⟨m, hm, ch, ht⟩ := (key i).1 am hc
        exact ((sem ht).1 _ _ _ h).imp (fun h => ⟨i, m, hm, ht.ok.id.trans hid, h⟩) fun h => h
      · rintro w r w' ⟨i, m, hc, hid, h⟩
        obtain ⟨am, ha, ch, ht⟩ := (key i).2 m hc
        exact ((sem ht).2 _ _ _ h).imp (fun h => ⟨i, am, ha, ht.ok.id.symm.trans hid, h⟩) fun ⟨e, w2, he, h⟩ => ⟨e, w2, he, i, am, ha, ht.ok.id.symm.trans hid, h⟩

/-- C34 for whole programs whose conditions are booleans: a method answers or raises in one interpreter if and only if it does in the other, and leaves the same state. -/
theorem C34_program_boolean_partial {n : Nat} {p : Compiled2 ι} (hp : p.Ok I D F C N known alloc n) (Φ : System ι W E) (err : Err → E) (hΦ : Φ.passes (NoBoolean err))
    (hS : ∀ b l, Std I D F C N (Φ b).1 (Φ b).2 l) (hself : ∀ b, Src.act (Φ b).1 .self = Src.act (Φ b).1 (.rdVar true 0 0)) (i : ι) (w : W)
    (hb : ∀ k e w', NoBoolean err e → ¬ (astBehaviour p Φ err k).meth i w (.exc e) w') (r : Src.Res E) (w' : W) :
    (∃ k, (astBehaviour p Φ err k).meth i w r w') ↔ ∃ k, (bcBehaviour p Φ k).meth i w r w' :=
  ⟨fun ⟨k, h⟩ => ⟨k, (((C34_program_partial hp Φ err hΦ hS hself k).1 i).iff (hb k) r w').mp h⟩,
   fun ⟨k, h⟩ => ⟨k, (((C34_program_partial hp Φ err hΦ hS hself k).1 i).iff (hb k) r w').mpr h⟩⟩

/-- If the bytecode answers, the tree answers the same or complains about a condition. -/
theorem C34_program_answers_partial {n : Nat} {p : Compiled2 ι} (hp : p.Ok I D F C N known alloc n) (Φ : System ι W E) (err : Err → E) (hΦ : Φ.passes (NoBoolean err))
    (hS : ∀ b l, Std I D F C N (Φ b).1 (Φ b).2 l) (hself : ∀ b, Src.act (Φ b).1 .self = Src.act (Φ b).1 (.rdVar true 0 0)) (i : ι) (w : W) (k : Nat) (v : Val) (w' : W) :
    ((astBehaviour p Φ err k).meth i w (.ret v) w' → (bcBehaviour p Φ k).meth i w (.ret v) w') ∧
    ((bcBehaviour p Φ k).meth i w (.ret v) w' → (astBehaviour p Φ err k).meth i w (.ret v) w' ∨ ∃ e w2, NoBoolean err e ∧ (astBehaviour p Φ err k).meth i w (.exc e) w2) := by
  have h := (C34_program_partial hp Φ err hΦ hS hself k).1 i
  refine ⟨fun h2 => ?_, fun h1 => h.2 _ _ _ h1⟩
  rcases h.1 _ _ _ h2 with h1 | ⟨e, he, _⟩
  · exact h1
  · cases he
end

/-! ## An example -/

/-- The activation of a method or block: its arguments and variables, and, for blocks, which activation is the context. -/
structure Fr where
  args : List Val
  locs : Nat → Val
  ctx : Nat

/-- The stack of activations, the one at the bottom first; and the blocks that were created. -/
structure Room where
  stack : List Fr
  blocks : List (Nat × Nat)

/-- Errors, and `^` on its way to an activation. -/
inductive Esc where
  | err (e : Err)
  | away (fr : Nat) (v : Val)

namespace Room
/-- The index of the activation `l` levels out. -/
def at_ (w : Room) : Nat → Nat
  | 0 => w.stack.length - 1
  | l + 1 => (w.stack[at_ w l]?.map Fr.ctx).getD 0

def get (w : Room) (a : Bool) (i l : Nat) : Val :=
  match w.stack[w.at_ l]? with
  | some f => if a then f.args.getD i .nil else f.locs i
  | none => .nil

def set (w : Room) (a : Bool) (i l : Nat) (v : Val) : Room :=
  { w with stack := w.stack.modify (w.at_ l) fun f => if a then { f with args := f.args.set i v } else { f with locs := fun j => if j = i then v else f.locs j } }

def push (args : List Val) (ctx : Nat) (w : Room) : Room := { w with stack := w.stack ++ [⟨args, fun _ => .nil, ctx⟩] }
def pop (w : Room) : Room := { w with stack := w.stack.dropLast }
end Room

/-- Run `R` in another state and change the outcome. -/
def around {W E : Type} (before : W → W) (after : W → Src.Res E → W → Src.Res E × W) (R : Src.Rel W E) : Src.Rel W E := fun w r w' =>
  ∃ r0 w0, R (before w) r0 w0 ∧ after w r0 w0 = (r, w')

theorem Approx.around {W E : Type} {bad : E → Prop} {before : W → W} {after : W → Src.Res E → W → Src.Res E × W} {R2 R1 : Src.Rel W E} (h : Approx bad R2 R1)
    (ha : ∀ w e w', bad e → (after w (.exc e) w').1 = .exc e) : Approx bad (around before after R2) (around before after R1) := by
  refine ⟨?_, ?_⟩
  · rintro w r w' ⟨r0, w0, h0, h1⟩
    rcases h.1 _ _ _ h0 with h2 | ⟨e, rfl, hb⟩
    · exact .inl ⟨r0, w0, h2, h1⟩
    · have := ha w e w0 hb
      rw [h1] at this
      exact .inr ⟨e, this, hb⟩
  · rintro w r w' ⟨r0, w0, h0, h1⟩
    rcases h.2 _ _ _ h0 with h2 | ⟨e, w2, hb, h2⟩
    · exact .inl ⟨r0, w0, h2, h1⟩
    · exact .inr ⟨e, (after w (.exc e) w2).2, hb, _, w2, h2, Prod.ext (ha w e w2 hb) rfl⟩

/-- The outcome of a method: the activation is removed; `^` that was on the way to it has arrived. -/
def left (home : Bool) (w : Room) : Src.Res Esc → Room → Src.Res Esc × Room
  | .val v, w' => (.val v, w'.pop)
  | .ret v, w' => (.val v, w'.pop)
  | .exc (.away fr v), w' => if home = true ∧ fr = w.stack.length then (.val v, w'.pop) else (.exc (.away fr v), w'.pop)
  | .exc (.err e), w' => (.exc (.err e), w'.pop)

/-- A send: `value` to a block evaluates it; all other messages activate the method of the program that has this selector. -/
def Room.send {ι : Type} (find : Sel → Option ι) (b : Behaviour ι Room Esc) (sel : Sel) (vs : List Val) : Src.Rel Room Esc := fun w =>
  match (match vs with | [.obj k] => if sel = "value".toList then w.blocks[k]? else none | _ => none) with
  | some (id, fr) => around (Room.push vs fr) (left false) (b.blk id) w
  | none =>
    match find sel with
    | some i => around (Room.push vs 0) (left true) (b.meth i) w
    | none => fun r w' => r = .exc (.err .other) ∧ w' = w

/-- The actions. -/
def Room.acts {ι : Type} (find : Sel → Option ι) (b : Behaviour ι Room Esc) : Act Nat → Src.Rel Room Esc
  | .rdVar a i l => fun w r w' => r = .val (w.get a i l) ∧ w' = w
  | .wrVar a i l v => fun w r w' => r = .val v ∧ w' = w.set a i l v
  | .self => fun w r w' => r = .val (w.get true 0 0) ∧ w' = w
  | .mkBlock _ m => fun w r w' => r = .val (.obj w.blocks.length) ∧ w' = { w with blocks := w.blocks ++ [(m, w.stack.length - 1)] }
  | .send sel vs => Room.send find b sel vs
  | .nlr l v => fun w r w' => r = .exc (.away (w.at_ l) v) ∧ w' = w
  | .inc (.int i) => fun w r w' => r = .val (.int (i + 1)) ∧ w' = w
  | _ => fun w r w' => r = .exc (.err .other) ∧ w' = w

def Room.world {ι : Type} (find : Sel → Option ι) (b : Behaviour ι Room Esc) : World Nat Room Esc := fun a w r w' =>
  match r with
  | .val v => Room.acts find b a w (.val v) w'
  | .exc e => Room.acts find b a w (.exc e) w'

def Room.system {ι : Type} (find : Sel → Option ι) : System ι Room Esc := fun b => (Room.world find b, fun n _ => Src.act (Room.world find b) (.glob n))

theorem Room.passes {ι : Type} (find : Sel → Option ι) : (Room.system find).passes (NoBoolean Esc.err) := by
  intro b2 b1 hm hb
  have hleft : ∀ home w e w', NoBoolean Esc.err e → (left home w (.exc e) w').1 = .exc e := by
    rintro home w e w' (rfl | rfl) <;> rfl
  have hsend : ∀ sel vs, Approx (NoBoolean Esc.err) (Room.send find b2 sel vs) (Room.send find b1 sel vs) := by
    intro sel vs
    have : ∀ w, Approx (NoBoolean Esc.err) (fun (_ : Room) => Room.send find b2 sel vs w) (fun (_ : Room) => Room.send find b1 sel vs w) := by
      intro w
      unfold Room.send
      split
      · exact ⟨fun _ r w' h => ((hb _).around (hleft false)).1 w r w' h, fun _ r w' h => ((hb _).around (hleft false)).2 w r w' h⟩
      · split
        · exact ⟨fun _ r w' h => ((hm _).around (hleft true)).1 w r w' h, fun _ r w' h => ((hm _).around (hleft true)).2 w r w' h⟩
        · exact .refl _
    exact ⟨fun w r w' h => (this w).1 w r w' h, fun w r w' h => (this w).2 w r w' h⟩
  have hact : ∀ a, Approx (NoBoolean Esc.err) (Src.act (Room.world find b2) a) (Src.act (Room.world find b1) a) := by
    intro a
    have same : Room.acts find b2 a = Room.acts find b1 a → Approx (NoBoolean Esc.err) (Src.act (Room.world find b2) a) (Src.act (Room.world find b1) a) := by
      intro h
      have : Src.act (Room.world find b2) a = Src.act (Room.world find b1) a := by funext w r w'; simp only [Src.act, Room.world, h]
      rw [this]; exact .refl _
    cases a with
    | send sel vs =>
      refine ⟨?_, ?_⟩
      · rintro w r w' (⟨v, rfl, h⟩ | ⟨e, rfl, h⟩)
        · rcases (hsend sel vs).1 _ _ _ h with h | ⟨e, he, _⟩
          · exact .inl (.inl ⟨v, rfl, h⟩)
          · cases he
        · exact ((hsend sel vs).1 _ _ _ h).imp (fun h => .inr ⟨e, rfl, h⟩) fun h => h
      · rintro w r w' (⟨v, rfl, h⟩ | ⟨e, rfl, h⟩)
        · exact ((hsend sel vs).2 _ _ _ h).imp (fun h => .inl ⟨v, rfl, h⟩) fun ⟨e, w2, he, h⟩ => ⟨e, w2, he, .inr ⟨e, rfl, h⟩⟩
        · exact ((hsend sel vs).2 _ _ _ h).imp (fun h => .inr ⟨e, rfl, h⟩) fun ⟨e, w2, he, h⟩ => ⟨e, w2, he, .inr ⟨e, rfl, h⟩⟩
    | inc v => cases v <;> exact same rfl
    | _ => exact same rfl
  exact ⟨hact, fun n _ => hact _⟩

theorem Room.std {ι : Type} (find : Sel → Option ι) (b : Behaviour ι Room Esc) (l : Nat) : Std False False False False True (Room.system find b).1 (Room.system find b).2 l where
  glob := fun _ _ => rfl
  inc := fun h => h.elim
  dec := fun h => h.elim
  fuse := fun h => h.elim
  comm := fun h => h.elim
  nlr := fun _ => .inr fun v w u w' h => by cases h.1

/-- `down: n = ( | x | x := n. n ifTrue: [ | y | y := x. ^ [ y. ^ x ] value ]. ^ self down: true )`: the block in the block is changed, because the block around it is inlined. -/
def downMethod : SMethod :=
  ⟨[some 1, some 2], [11], .stmt (.asg (.var "x".toList false 0 0) [] (.var true 1 0))
    (.stmt (.send "ifTrue:".toList (.var true 1 0) (.cons (.blk true (.mk 1 [21] [12] (.stmt (.asg (.var "y".toList false 0 0) [] (.var false 0 1))
      (.exit (.send "value".toList (.blk true (.mk 2 [22] [] (.stmt (.var false 0 1) (.exit (.var false 0 2))))) .nil))))) .nil))
    (.exit (.send "down:".toList (.var true 0 0) (.cons (.glob "true".toList) .nil))))⟩

theorem downMethod_wf : downMethod.Wf := by
  refine ⟨?_, ?_, by decide⟩
  · simp only [downMethod, Body.Wf, Ex.Wf, Exs.Wf, SBlock.Wf, Exs.length, Body.fits]
    decide
  · simp only [downMethod, Body.fits]

theorem downMethod_fair : downMethod.body.fair False False False False True false := by
  simp [downMethod, Body.fair, Ex.fair, Exs.fair, SBlock.fair, Body.tidy, fuses]

/-- The program with this method. -/
def downFind (sel : Sel) : Option Unit := if sel = "down:".toList then some () else none

theorem downMethod_compiles : (match downMethod.compile (fun _ => false) 5 with
    | .ok g => (match assemble g with | .ok C => some C.bytes | .error _ => none)
    | .error _ => none) = some [75, 1, 0, 76, 0, 0, 75, 1, 0, 52, 14, 0, 74, 0, 0, 76, 1, 0, 13, 2, 35, 3, 40, 23, 75, 0, 0, 15, 4, 36, 5, 40] := by
  decide +kernel

/-- The inner block is at level 1 now, and `y` is a variable of the method. -/
def downTree : AMethod :=
  .ast [11, 12] true (.seq (.cons (.writeLoc 0 11 0 (.readArg 1 0)) (.cons
    (.inl1 (.ifBool true) (.readArg 1 0) (.seq (.cons (.writeLoc 1 12 0 (.readLoc 0 11 0)) (.cons
      (.retL (.send "value".toList (.blk true (.ast 2 [22] [] (.seq (.cons (.readLoc 1 12 1) (.cons (.retNL 1 (.readLoc 0 11 1)) .nil))))) .nil)) .nil))))
    (.cons (.send "down:".toList (.self 0) (.cons (.lit .tru) .nil)) .nil))))

theorem downTree_ok : downMethod.ast (fun _ => false) (fun _ => .nil) = .ok downTree := rfl

theorem Room.act_val {ι : Type} {find : Sel → Option ι} {b : Behaviour ι Room Esc} {a : Act Nat} {w w' : Room} {v : Val} (h : Room.acts find b a w (.val v) w') :
    Src.act (Room.world find b) a w (.val v) w' := .inl ⟨v, rfl, h⟩

theorem Room.act_exc {ι : Type} {find : Sel → Option ι} {b : Behaviour ι Room Esc} {a : Act Nat} {w w' : Room} {e : Esc} (h : Room.acts find b a w (.exc e) w') :
    Src.act (Room.world find b) a w (.exc e) w' := .inr ⟨e, rfl, h⟩

theorem rel_bind_val {W E : Type} {p : Src.Rel W E} {k : Val → Src.Rel W E} {w : W} {v : Val} {w1 : W} {r : Src.Res E} {w' : W} (h1 : p w (.val v) w1) (h2 : k v w1 r w') : Src.bind p k w r w' :=
  .inl ⟨v, w1, h1, h2⟩

theorem rel_bind_exc {W E : Type} {p : Src.Rel W E} {k : Val → Src.Rel W E} {w : W} {e : E} {w' : W} (h1 : p w (.exc e) w') : Src.bind p k w (.exc e) w' :=
  .inr ⟨h1, trivial⟩

/-- All hypotheses are met by this program in this system, and a run of it: `down: false` answers true, in both interpreters. -/
example : ∃ p : Compiled2 Unit, p.src = (fun _ => downMethod) ∧ p.Ok False False False False True (fun _ => false) (fun _ => .nil) 5 ∧
    (∀ k, (∀ i, Approx (NoBoolean Esc.err) ((astBehaviour p (Room.system downFind) Esc.err k).meth i) ((bcBehaviour p (Room.system downFind) k).meth i)) ∧
      ∀ id, Approx (NoBoolean Esc.err) ((astBehaviour p (Room.system downFind) Esc.err k).blk id) ((bcBehaviour p (Room.system downFind) k).blk id)) ∧
    ∃ w', (bcBehaviour p (Room.system downFind) 3).meth () ⟨[⟨[.obj 9, .fls], fun _ => .nil, 0⟩], []⟩ (.ret .tru) w' ∧ w'.blocks = [(2, 1)] := by
  have hc := downMethod_compiles
  generalize hg : downMethod.compile (fun _ => false) 5 = r at hc
  cases r with
  | error e => cases hc
  | ok g =>
    generalize hC : assemble g = r at hc
    dsimp only at hc
    rw [hC] at hc
    cases r with
    | error e => cases hc
    | ok C =>
      let p : Compiled2 Unit := ⟨fun _ => downMethod, fun _ => C, fun _ => downTree⟩
      have hp : p.Ok False False False False True (fun _ => false) (fun _ => .nil) 5 :=
        ⟨fun _ => downMethod_wf, fun _ => (by decide : [11].Nodup), fun _ => downMethod_fair, fun _ => trivial, fun _ => ⟨g, hg, hC⟩, fun _ => downTree_ok⟩
      have all := C34_program_partial hp (Room.system downFind) Esc.err (Room.passes _) (Room.std _) fun b => rfl
      refine ⟨p, rfl, hp, all, ?_⟩
      let f0 : Fr := ⟨[.obj 9, .fls], fun j => if j = 0 then .fls else .nil, 0⟩
      let f1 : Fr := ⟨[.obj 9, .tru], fun j => if j = 1 then .tru else if j = 0 then .tru else .nil, 0⟩
      have hblk : (astBehaviour p (Room.system downFind) Esc.err 1).blk 2 ⟨[f0, f1, ⟨[.obj 0], fun _ => .nil, 1⟩], [(2, 1)]⟩ (.exc (.away 1 .tru)) ⟨[f0, f1, ⟨[.obj 0], fun _ => .nil, 1⟩], [(2, 1)]⟩ :=
        ⟨(), .ast 2 [22] [] (.seq (.cons (.readLoc 1 12 1) (.cons (.retNL 1 (.readLoc 0 11 1)) .nil))), .here true _ (.head _), rfl,
          .inl (rel_bind_val (Room.act_val ⟨rfl, rfl⟩) (rel_bind_val (Room.act_val ⟨rfl, rfl⟩) (Room.act_exc ⟨rfl, rfl⟩)))⟩
      have hmeth : (astBehaviour p (Room.system downFind) Esc.err 2).meth () ⟨[f0, ⟨[.obj 9, .tru], fun _ => .nil, 0⟩], []⟩ (.exc (.away 1 .tru)) ⟨[f0, f1], [(2, 1)]⟩ := by
        refine .inl (rel_bind_val (rel_bind_val (Room.act_val ⟨rfl, rfl⟩) (rel_bind_val (Room.act_val ⟨rfl, rfl⟩) ⟨rfl, rfl⟩)) (rel_bind_exc (rel_bind_val (Room.act_val ⟨rfl, rfl⟩)
          (rel_bind_val (rel_bind_val (Room.act_val ⟨rfl, rfl⟩) (rel_bind_val (Room.act_val ⟨rfl, rfl⟩) ⟨rfl, rfl⟩)) (rel_bind_exc (rel_bind_val (Room.act_val ⟨rfl, rfl⟩) ?_))))))
        exact Room.act_exc (find := downFind) (a := .send "value".toList [.obj 0]) (w := ⟨[f0, f1], [(2, 1)]⟩) ⟨_, _, hblk, rfl⟩
      have htop : (astBehaviour p (Room.system downFind) Esc.err 3).meth () ⟨[⟨[.obj 9, .fls], fun _ => .nil, 0⟩], []⟩ (.ret .tru) ⟨[f0], [(2, 1)]⟩ := by
        refine .inl (rel_bind_val (rel_bind_val (Room.act_val ⟨rfl, rfl⟩) (rel_bind_val (Room.act_val ⟨rfl, rfl⟩) ⟨rfl, rfl⟩)) (rel_bind_val (rel_bind_val (Room.act_val ⟨rfl, rfl⟩) ⟨rfl, rfl⟩)
          (rel_bind_val (Room.act_val ⟨rfl, rfl⟩) (rel_bind_val ⟨rfl, rfl⟩ ?_))))
        exact Room.act_val (find := downFind) (a := .send "down:".toList [.obj 9, .tru]) (w := ⟨[f0], []⟩) ⟨_, _, hmeth, rfl⟩
      rcases ((all 3).1 ()).1 _ _ _ htop with h | ⟨e, he, _⟩
      · exact ⟨_, h, rfl⟩
      · cases he

end PySOM.BC

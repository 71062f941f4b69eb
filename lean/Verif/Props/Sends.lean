import Verif.Spec.Sends
import Verif.Props.Returns
/-!
# C68: what messages do while a program runs

A message runs the method of the nearest class that has one of its name, with the receiver and the arguments; if there is none, `doesNotUnderstand:arguments:` is sent with the selector and an array of
the arguments.  A message to `super` starts at the class above the one of the method.  Evaluating a block runs its code in the context in which it was made.  Globals that do not exist and returns from
methods that have ended are told to the receiver of the method.

Full property: also for `super` and for these messages of the VM itself, `doesNotUnderstand:arguments:` is sent if there is no method.  This does not hold: a Python error is raised instead.
-/
set_option autoImplicit false
namespace PySOM.Mach
open PySOM BC

section
variable {ι X Y P : Type} {G : Prog ι X Y P} {K : Incs X Y} {b : Behaviour ι (St X Y) Esc}

theorem look_nearest {cs : List Nat} {sel : Sel} {h : Nat} {e : Entry ι} (hn : Nearest G cs sel h e) : G.look cs sel = some (h, e) := by
  obtain ⟨before, after, rfl, h1, h2⟩ := hn
  unfold Prog.look
  rw [List.findSome?_append]
  have : before.findSome? (fun h => (G.table h sel).map fun e => (h, e)) = none := by
    rw [List.findSome?_eq_none_iff]
    intro x hx
    rw [h1 x hx]
    rfl
  rw [this]
  simp only [List.findSome?, h2, Option.map, Option.none_or]

theorem look_nowhere {cs : List Nat} {sel : Sel} (hn : Nowhere G cs sel) : G.look cs sel = none := by
  unfold Prog.look
  rw [List.findSome?_eq_none_iff]
  intro x hx
  rw [hn x hx]
  rfl

theorem left_ends (waits : Bool) (f cur : Nat) (r0 : Src.Res Esc) (w0 : St X Y) : Ends f waits r0 (left waits f cur r0 w0).1 ∧ (left waits f cur r0 w0).2 = w0.pop f cur := by
  cases r0 with
  | val v => exact ⟨.val v, rfl⟩
  | ret v => exact ⟨.ret v, rfl⟩
  | exc e =>
    cases e with
    | err e => exact ⟨.pass _ (fun v h => by cases h), rfl⟩
    | lost => exact ⟨.pass _ (fun v h => by cases h), rfl⟩
    | away fr v =>
      by_cases h : waits = true ∧ fr = f
      · simp only [left, if_pos h]
        obtain ⟨h1, rfl⟩ := h
        exact ⟨.arrived v h1, trivial⟩
      · simp only [left, if_neg h]
        refine ⟨.pass _ fun u hu => ?_, trivial⟩
        cases hu
        cases waits with
        | false => rfl
        | true => exact absurd ⟨rfl, rfl⟩ h

theorem ends_det {f : Nat} {waits : Bool} {r0 : Src.Res Esc} {r r' : Res Esc} (h : Ends f waits r0 r) (h' : Ends f waits r0 r') : r = r' := by
  cases h with
  | val v => cases h'; rfl
  | ret v => cases h'; rfl
  | arrived v hw => cases h' with
    | arrived _ _ => rfl
    | pass e hp => rw [hp v rfl] at hw; cases hw
  | pass e hp => cases h' with
    | arrived v hw => rw [hp v rfl] at hw; cases hw
    | pass _ _ => rfl

theorem pop_frames (w0 : St X Y) (f cur i : Nat) : (w0.pop f cur).frames[i]? = (w0.frames[i]?).map fun x => if i = f then { x with on := false } else x := by
  simp only [St.pop, List.getElem?_modify, Option.map_eq_map]
  congr 1
  funext x
  by_cases h : f = i
  · rw [if_pos h, if_pos h.symm]
  · rw [if_neg h, if_neg (fun e => h e.symm)]

/-- Running code and leaving the frame is what the specification says. -/
theorem left_runs (code : Src.Rel (St X Y) Esc) (vs : List Val) (ctx : Option Nat) (h : Nat) (waits : Bool) (w : St X Y) (r : Res Esc) (w' : St X Y) :
    (∃ r0 w0, code (w.push vs ctx h waits) r0 w0 ∧ r = (left waits w.frames.length w.cur r0 w0).1 ∧ w' = (left waits w.frames.length w.cur r0 w0).2) ↔ Runs code vs ctx h waits w r w' := by
  constructor
  · rintro ⟨r0, w0, hc, rfl, rfl⟩
    have hl := left_ends waits w.frames.length w.cur r0 w0
    refine ⟨r0, w0, hc, hl.1, ?_⟩
    rw [hl.2]
    refine ⟨rfl, rfl, by simp only [St.pop, List.length_modify], fun i x hx => ?_⟩
    rw [pop_frames, hx]
    rfl
  · rintro ⟨r0, w0, hc, he, h1, h2, h3, h4⟩
    have hl := left_ends waits w.frames.length w.cur r0 w0
    refine ⟨r0, w0, hc, ends_det he hl.1, ?_⟩
    rw [hl.2]
    obtain ⟨sh', fs', cur'⟩ := w'
    dsimp only at h1 h2 h3 h4
    subst h1 h2
    have : fs' = (w0.pop w.frames.length w.cur).frames := by
      apply List.ext_getElem?
      intro i
      rw [pop_frames]
      cases hx : w0.frames[i]? with
      | some x => rw [h4 i x hx]; rfl
      | none =>
        rw [List.getElem?_eq_none_iff] at hx
        rw [Option.map_none, List.getElem?_eq_none_iff]
        omega
    rw [this]
    rfl

theorem do_meth {h : Nat} {i : ι} {vs : List Val} {w : St X Y} {r : Res Esc} {w' : St X Y} : Do G b (.meth h i vs) w r w' ↔ Runs (b.meth i) vs none h (G.catches i) w r w' := by
  rw [← left_runs]
  constructor
  · intro hd
    cases hd with
    | meth _ _ _ _ r0 w0 hb => exact ⟨r0, w0, hb, rfl, rfl⟩
  · rintro ⟨r0, w0, hb, rfl, rfl⟩
    exact .meth h i vs w r0 w0 hb

theorem do_blk {id : Nat} {ctx : Option Nat} {h : Nat} {vs : List Val} {w : St X Y} {r : Res Esc} {w' : St X Y} : Do G b (.blk id ctx h vs) w r w' ↔ Runs (b.blk id) vs ctx h false w r w' := by
  rw [← left_runs]
  constructor
  · intro hd
    cases hd with
    | blk _ _ _ _ _ r0 w0 hb => exact ⟨r0, w0, hb, rfl, rfl⟩
  · rintro ⟨r0, w0, hb, rfl, rfl⟩
    exact .blk id ctx h vs w r0 w0 hb

/-- C68: a message runs the method of the nearest class. -/
theorem C68_send (w : St X Y) (rcvr : Val) (args : List Val) (sel : Sel) (c h : Nat) (i : ι) (hc : G.classOf w.sh rcvr = some c) (hn : Nearest G (G.chain c) sel h (.meth i)) (r : Res Esc)
    (w' : St X Y) : G.world K b (.send sel (rcvr :: args)) w r w' ↔ Runs (b.meth i) (rcvr :: args) none h (G.catches i) w r w' := by
  show Do G b (G.resolve w (.send sel (rcvr :: args))).1 (G.resolve w (.send sel (rcvr :: args))).2 r w' ↔ _
  simp only [Prog.resolve, hc, look_nearest hn, Prog.enter]
  exact do_meth

/-- C68: if the nearest class has a primitive, it is run with these values. -/
theorem C68_primitive (w : St X Y) (rcvr : Val) (args : List Val) (sel : Sel) (c h n : Nat) (hc : G.classOf w.sh rcvr = some c) (hn : Nearest G (G.chain c) sel h (.prim n)) (r : Res Esc)
    (w' : St X Y) : G.world K b (.send sel (rcvr :: args)) w r w' ↔ Do G b (.prim (G.start n (rcvr :: args))) w r w' := by
  show Do G b (G.resolve w (.send sel (rcvr :: args))).1 (G.resolve w (.send sel (rcvr :: args))).2 r w' ↔ _
  simp only [Prog.resolve, hc, look_nearest hn, Prog.enter]

/-- C68: if no class has it, `doesNotUnderstand:arguments:` is sent to the same receiver, with the selector and a new array of the arguments. -/
theorem C68_not_understood (w : St X Y) (rcvr : Val) (args : List Val) (sel : Sel) (c h : Nat) (i : ι) (hc : G.classOf w.sh rcvr = some c) (hn : Nowhere G (G.chain c) sel)
    (hd : Nearest G (G.chain c) "doesNotUnderstand:arguments:".toList h (.meth i)) (r : Res Esc) (w' : St X Y) :
    G.world K b (.send sel (rcvr :: args)) w r w' ↔ ∃ a w1, w1.frames = w.frames ∧ w1.cur = w.cur ∧ w1.sh.globals = w.sh.globals ∧ w1.sh.ext = w.sh.ext ∧ w.sh.objs[a]? = none ∧
      w1.sh.objs[a]? = some (.data G.arrCls (G.array args)) ∧ (∀ a', a' ≠ a → w1.sh.objs[a']? = w.sh.objs[a']?) ∧ a = w.sh.objs.length ∧
      Runs (b.meth i) [rcvr, .sym sel, .obj a] none h (G.catches i) w1 r w' := by
  show Do G b (G.resolve w (.send sel (rcvr :: args))).1 (G.resolve w (.send sel (rcvr :: args))).2 r w' ↔ _
  have hd' : G.look (G.chain c) dnu = some (h, .meth i) := look_nearest hd
  simp only [Prog.resolve, hc, look_nowhere hn, hd', Prog.enter]
  rw [do_meth]
  constructor
  · intro hr
    refine ⟨w.sh.objs.length, { w with sh := { w.sh with objs := w.sh.objs ++ [.data G.arrCls (G.array args)] } }, rfl, rfl, rfl, rfl, by simp, by simp, fun a' ha => ?_, rfl, hr⟩
    show (w.sh.objs ++ [_])[a']? = _
    rw [List.getElem?_append]
    split
    · rfl
    · rename_i hl
      obtain ⟨k, hk⟩ : ∃ k, a' - w.sh.objs.length = k + 1 := ⟨a' - w.sh.objs.length - 1, by omega⟩
      rw [hk, List.getElem?_eq_none_iff.mpr (by omega : w.sh.objs.length ≤ a')]
      rfl
  · rintro ⟨a, w1, h1, h2, h3, h4, h5, h6, h7, rfl, hr⟩
    obtain ⟨⟨os, gl, rs⟩, fs, cu⟩ := w1
    dsimp only at h1 h2 h3 h4 h6 h7
    subst h1 h2 h3 h4
    have : os = w.sh.objs ++ [.data G.arrCls (G.array args)] := by
      apply List.ext_getElem?
      intro a'
      by_cases ha : a' = w.sh.objs.length
      · subst ha; rw [h6]; simp
      · rw [h7 a' ha, List.getElem?_append]
        split
        · rfl
        · rename_i hl
          obtain ⟨k, hk⟩ : ∃ k, a' - w.sh.objs.length = k + 1 := ⟨a' - w.sh.objs.length - 1, by omega⟩
          rw [hk, List.getElem?_eq_none_iff.mpr (by omega : w.sh.objs.length ≤ a')]
          rfl
    subst this
    exact hr

/-- C68: a message to `super` in a method of the class `k` starts at the class above `k`, whatever the class of the receiver is. -/
theorem C68_super (w : St X Y) (f : Frame) (k : Nat) (above : List Nat) (rcvr : Val) (args : List Val) (sel : Sel) (h : Nat) (i : ι) (hf : w.frames[w.cur]? = some f) (hk : f.holder = k)
    (hc : G.chain k = k :: above) (hn : Nearest G above sel h (.meth i)) (r : Res Esc) (w' : St X Y) :
    G.world K b (.superSend sel (rcvr :: args)) w r w' ↔ Runs (b.meth i) (rcvr :: args) none h (G.catches i) w r w' := by
  simp only [Prog.world, Prog.plan, hf, hk, hc, List.tail_cons, Prog.resolve, look_nearest hn, Prog.enter]
  exact do_meth

/-- C68: evaluating a block runs its code with the block and the arguments, in the context in which it was made. -/
theorem C68_value (w : St X Y) (a id : Nat) (ctx : Option Nat) (h : Nat) (args : List Val) (ho : w.sh.objs[a]? = some (.block id ctx h)) (r : Res Esc) (w' : St X Y) :
    G.calls b (.value (.obj a :: args)) w r w' ↔ Runs (b.blk id) (.obj a :: args) ctx h false w r w' := by
  show Do G b (G.resolve w (.value (.obj a :: args))).1 (G.resolve w (.value (.obj a :: args))).2 r w' ↔ _
  simp only [Prog.resolve, ho]
  exact do_blk

/-- C68: making a block adds an object that has the current frame as its context, or none, and the class of the method that is running; nothing else changes. -/
theorem C68_block (w : St X Y) (f : Frame) (hf : w.frames[w.cur]? = some f) (ctx : Bool) (id : Nat) (r : Res Esc) (w' : St X Y) :
    G.world K b (.mkBlock ctx id) w r w' ↔ r = .val (.obj w.sh.objs.length) ∧ w' = ⟨⟨w.sh.objs ++ [.block id (if ctx then some w.cur else none) f.holder], w.sh.globals, w.sh.ext⟩, w.frames, w.cur⟩ := by
  simp only [Prog.world, Prog.plan, hf]

/-- The frames around `f`, from inside out: `f` itself is the last one if it has no context. -/
inductive Outermost (frames : List Frame) : Nat → Nat → Prop where
  | here (f : Nat) (x : Frame) (h : frames[f]? = some x) (hc : x.ctx = none) : Outermost frames f f
  | out (f g o : Nat) (x : Frame) (h : frames[f]? = some x) (hc : x.ctx = some g) (ho : Outermost frames g o) : Outermost frames f o

theorem outermost_self {p : Compiled2 ι} {w : St X Y} (hw : Wf p w) {f o : Nat} (h : Outermost w.frames f o) : ∀ n, f < n → w.outerSelf n f = (w.frames[o]?).bind fun x => x.args[0]? := by
  induction h with
  | here f x hx hc =>
    intro n hn
    cases n with
    | zero => exact absurd hn (Nat.not_lt_zero _)
    | succ n => simp only [St.outerSelf, hx, hc, Option.bind_some]
  | out f g o x hx hc _ ih =>
    intro n hn
    cases n with
    | zero => exact absurd hn (Nat.not_lt_zero _)
    | succ n =>
      have := (hw.frames f x hx).2 g hc
      simp only [St.outerSelf, hx, hc]
      exact ih n (by omega)

/-- C68: a global that exists has its value. -/
theorem C68_global (w : St X Y) (g : Sel) (v : Val) (hg : w.sh.globals g = some v) (r : Res Esc) (w' : St X Y) : G.world K b (.glob g) w r w' ↔ r = .val v ∧ w' = w := by
  simp only [Prog.world, Prog.plan, hg]

/-- C68: for a global that does not exist, `unknownGlobal:` is sent to the receiver of the method around, with its name, also from nested blocks. -/
theorem C68_unknown_global {p : Compiled2 ι} (w : St X Y) (hw : Wf p w) (g : Sel) (hg : w.sh.globals g = none) (o : Nat) (x : Frame) (self : Val) (rest : List Val)
    (ho : Outermost w.frames w.cur o) (hx : w.frames[o]? = some x) (hs : x.args = self :: rest) (c h : Nat) (i : ι) (hc : G.classOf w.sh self = some c)
    (hn : Nearest G (G.chain c) "unknownGlobal:".toList h (.meth i)) (r : Res Esc) (w' : St X Y) :
    G.world K b (.glob g) w r w' ↔ Runs (b.meth i) [self, .sym g] none h (G.catches i) w r w' := by
  have hcur : w.cur < w.frames.length := by
    cases ho with
    | here _ _ h _ => exact (List.getElem?_eq_some_iff.mp h).1
    | out _ _ _ _ h _ _ => exact (List.getElem?_eq_some_iff.mp h).1
  have h1 : w.outerSelf w.frames.length w.cur = some self := by
    rw [outermost_self hw ho _ hcur, hx]
    simp only [Option.bind_some, hs, List.getElem?_cons_zero]
  have h2 : G.look (G.chain c) unknownGlobal = some (h, .meth i) := look_nearest hn
  simp only [Prog.world, Prog.plan, hg, h1, Prog.resolve, hc, h2, Prog.enter]
  exact do_meth

/-- The frame `l` contexts out. -/
inductive Out (frames : List Frame) : Nat → Nat → Nat → Prop where
  | here (f : Nat) (h : f < frames.length) : Out frames 0 f f
  | out (l f g o : Nat) (x : Frame) (ho : Out frames l f g) (h : frames[g]? = some x) (hc : x.ctx = some o) : Out frames (l + 1) f o

theorem out_level {w : St X Y} {l f o : Nat} (h : Out w.frames l f o) (hf : f = w.cur) : w.level l = some o := by
  induction h with
  | here f h => subst hf; simp only [St.level, if_pos h]
  | out l f g o x _ hx hc ih => simp only [St.level, ih hf, Option.bind_some, hx, hc]

/-- C68: a return from a block goes to the frame of its method, if that is still running. -/
theorem C68_return (w : St X Y) (l o : Nat) (x : Frame) (v : Val) (ho : Out w.frames l w.cur o) (hx : w.frames[o]? = some x) (hon : x.on = true) (hcur : w.cur < w.frames.length) (r : Res Esc)
    (w' : St X Y) : G.world K b (.nlr l v) w r w' ↔ r = .exc (.away o v) ∧ w' = w := by
  have h0 : w.frames[w.cur]? = some w.frames[w.cur] := List.getElem?_eq_getElem hcur
  have h1 : w.frameAt l = some (o, x) := frameAt_some (out_level ho rfl) hx
  have h2 : w.frameAt 0 = some (w.cur, w.frames[w.cur]) := frameAt_some (by simp only [St.level, if_pos hcur]) h0
  simp only [Prog.world, Prog.plan, h1, h2, hon, if_true]

/-- C68: if the method has ended, `escapedBlock:` is sent to its receiver, with the block. -/
theorem C68_escaped (w : St X Y) (l o : Nat) (x y : Frame) (v self blk : Val) (rest rest' : List Val) (ho : Out w.frames l w.cur o) (hx : w.frames[o]? = some x) (hon : x.on = false)
    (hy : w.frames[w.cur]? = some y) (hs : x.args = self :: rest) (hb : y.args = blk :: rest') (c h : Nat) (i : ι) (hc : G.classOf w.sh self = some c)
    (hn : Nearest G (G.chain c) "escapedBlock:".toList h (.meth i)) (r : Res Esc) (w' : St X Y) :
    G.world K b (.nlr l v) w r w' ↔ Runs (b.meth i) [self, blk] none h (G.catches i) w r w' := by
  have h1 : w.frameAt l = some (o, x) := frameAt_some (out_level ho rfl) hx
  have h2 : w.frameAt 0 = some (w.cur, y) := frameAt_some (by simp only [St.level, if_pos (List.getElem?_eq_some_iff.mp hy).1]) hy
  have h3 : G.look (G.chain c) escapedBlock = some (h, .meth i) := look_nearest hn
  simp only [Prog.world, Prog.plan, h1, h2, hon, Bool.false_eq_true, if_false, hs, hb, List.getElem?_cons_zero, Prog.resolve, hc, h3, Prog.enter]
  exact do_meth

/-- C68 is violated for `super`: if no class above has a method, a Python error is raised, even if the receiver's classes have `doesNotUnderstand:arguments:`. -/
theorem C68_violated_super (w : St X Y) (f : Frame) (k : Nat) (above : List Nat) (rcvr : Val) (args : List Val) (sel : Sel) (hf : w.frames[w.cur]? = some f) (hk : f.holder = k)
    (hc : G.chain k = k :: above) (hn : Nowhere G above sel) (r : Res Esc) (w' : St X Y) : G.world K b (.superSend sel (rcvr :: args)) w r w' ↔ r = .exc (.err .attribute) ∧ w' = w := by
  simp only [Prog.world, Prog.plan, hf, hk, hc, List.tail_cons, Prog.resolve, look_nowhere hn, Prog.enter]
  constructor
  · intro h
    cases h
    exact ⟨rfl, rfl⟩
  · rintro ⟨rfl, rfl⟩
    exact .fail _ _

/-- C68 is violated for messages of the VM: without `unknownGlobal:` a Python error is raised for an unknown global. -/
theorem C68_violated_unknown_global {p : Compiled2 ι} (w : St X Y) (hw : Wf p w) (g : Sel) (hg : w.sh.globals g = none) (o : Nat) (x : Frame) (self : Val) (rest : List Val)
    (ho : Outermost w.frames w.cur o) (hx : w.frames[o]? = some x) (hs : x.args = self :: rest) (c : Nat) (hc : G.classOf w.sh self = some c)
    (hn : Nowhere G (G.chain c) "unknownGlobal:".toList) (r : Res Esc) (w' : St X Y) : G.world K b (.glob g) w r w' ↔ r = .exc (.err .attribute) ∧ w' = w := by
  have hcur : w.cur < w.frames.length := by
    cases ho with
    | here _ _ h _ => exact (List.getElem?_eq_some_iff.mp h).1
    | out _ _ _ _ h _ _ => exact (List.getElem?_eq_some_iff.mp h).1
  have h1 : w.outerSelf w.frames.length w.cur = some self := by
    rw [outermost_self hw ho _ hcur, hx]
    simp only [Option.bind_some, hs, List.getElem?_cons_zero]
  have h2 : G.look (G.chain c) unknownGlobal = none := look_nowhere hn
  simp only [Prog.world, Prog.plan, hg, h1, Prog.resolve, hc, h2, Prog.enter]
  constructor
  · intro h
    cases h
    exact ⟨rfl, rfl⟩
  · rintro ⟨rfl, rfl⟩
    exact .fail _ _

end

/-! ## Examples -/

/-- Two classes: 1 is the superclass of 2, both have `m`, and only 1 has `n` and `doesNotUnderstand:arguments:`. -/
def twoProg : Prog Nat (List Val) Unit Small where
  chain := fun c => if c = 2 then [2, 1] else [c]
  table := fun c sel =>
    if c = 1 then (if sel = "m".toList then some (.meth 10) else if sel = "n".toList then some (.meth 11) else if sel = "doesNotUnderstand:arguments:".toList then some (.meth 12)
      else if sel = "unknownGlobal:".toList then some (.meth 13) else if sel = "escapedBlock:".toList then some (.meth 14) else none)
    else if c = 2 then (if sel = "m".toList then some (.meth 20) else none)
    else none
  nilCls := 0
  truCls := 3
  flsCls := 4
  intCls := 5
  symCls := 6
  blkCls := fun _ => 7
  blkArgs := fun _ => 1
  arrCls := 8
  array := fun vs => vs
  catches := fun _ => true
  start := fun _ vs => .value vs
  step := fun q sh => (sh, match q with | .answer v => .done v | .value vs => .call (.value vs) .answer | .arith _ _ => .raise .type)

/-- An object of class 2, a block made in a method that has ended, and one made in a method that is running. -/
def twoState : St (List Val) Unit := ⟨⟨[.inst 2 [], .block 0 (some 0) 2, .block 0 (some 1) 2], fun _ => none, ()⟩,
  [⟨[.obj 0], fun _ => .nil, none, 2, false, true⟩, ⟨[.obj 0], fun _ => .nil, none, 2, true, true⟩, ⟨[.obj 1], fun _ => .nil, some 0, 2, true, false⟩], 2⟩

example : Nearest twoProg (twoProg.chain 2) "m".toList 2 (.meth 20) := ⟨[], [1], rfl, fun c h => by simp at h, rfl⟩

example : Nearest twoProg (twoProg.chain 2) "n".toList 1 (.meth 11) := ⟨[2], [], rfl, fun c h => by simp only [List.mem_singleton] at h; subst h; rfl, rfl⟩

example : Nowhere twoProg (twoProg.chain 2) "other:".toList ∧ Nearest twoProg (twoProg.chain 2) "doesNotUnderstand:arguments:".toList 1 (.meth 12) := by
  refine ⟨fun c h => ?_, [2], [], rfl, fun c h => by simp only [List.mem_singleton] at h; subst h; rfl, rfl⟩
  have : c ∈ ([2, 1] : List Nat) := h
  simp only [List.mem_cons, List.not_mem_nil, or_false] at this
  rcases this with rfl | rfl <;> rfl

/-- `super m` in a method of class 2 runs the method of class 1, although the receiver is of class 2 and `m` runs that of class 2. -/
example (K : Incs (List Val) Unit) (b : Behaviour Nat (St (List Val) Unit) Esc) (r : Res Esc) (w' : St (List Val) Unit) :
    (twoProg.world K b (.send "m".toList [.obj 0]) twoState r w' ↔ Runs (b.meth 20) [.obj 0] none 2 true twoState r w') ∧
    (twoProg.world K b (.superSend "m".toList [.obj 0]) twoState r w' ↔ Runs (b.meth 10) [.obj 0] none 1 true twoState r w') ∧
    (twoProg.world K b (.nlr 1 .nil) twoState r w' ↔ Runs (b.meth 14) [.obj 0, .obj 1] none 1 true twoState r w') := by
  refine ⟨C68_send twoState (.obj 0) [] "m".toList 2 2 20 rfl ⟨[], [1], rfl, fun c h => by simp at h, rfl⟩ r w',
    C68_super twoState _ 2 [1] (.obj 0) [] "m".toList 1 10 rfl rfl rfl ⟨[], [], rfl, fun c h => by simp at h, rfl⟩ r w', ?_⟩
  refine C68_escaped twoState 1 0 ⟨[.obj 0], fun _ => .nil, none, 2, false, true⟩ ⟨[.obj 1], fun _ => .nil, some 0, 2, true, false⟩ .nil (.obj 0) (.obj 1) [] [] ?_ rfl rfl rfl rfl rfl 2 1 14 rfl
    ⟨[2], [], rfl, fun c h => by simp only [List.mem_singleton] at h; subst h; rfl, rfl⟩ r w'
  exact .out 0 2 2 0 _ (.here 2 (by decide)) rfl rfl

end PySOM.Mach

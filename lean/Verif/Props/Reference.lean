import Verif.Lemmas.ReferenceBlocks
import Verif.Lemmas.ReferenceText
import Verif.Props.Engines
import Verif.Props.Machine
/-!
# C69: running a program is evaluating its source

`Spec/Reference.lean` says what the source of a program means, expression by expression and without compiling anything.  Both interpreters compile methods to something else: trees and bytecode, in which
blocks of control structures have been inlined, variables renumbered, messages replaced by shortcuts, and small methods replaced by methods of other kinds.

Full property: whatever the program, a call has in each interpreter the outcome that its source says.  This does not hold where the interpreters differ (C34, C66), as at most one of the two can
be right.  What is proved: for programs without these (`Compiled2.Ok`), the trees do exactly what the source says, and the bytecode does, except where a condition is not a boolean; and with the
shortcuts for `+ 1` and `f := f + 1` of an interpreter, the same holds up to the Python errors that these raise.  Missing besides: programs with literal arrays.
-/
set_option autoImplicit false
namespace PySOM.BC
open PySOM

section
variable {ι W E : Type} {D C N : Prop} {known : Sel → Bool} {alloc : LitTs → Val}

theorem Std.plain {A : World Nat W E} {U : Sel → Nat → Src.Rel W E} (h : ∀ l, Std True D True C N A U l) : Plain A U :=
  ⟨fun n l hn => (h l).glob n hn, (h 0).inc trivial, (h 0).fuse trivial⟩

theorem Std.gone {A : World Nat W E} {U : Sel → Nat → Src.Rel W E} (h : ∀ l, Std True D True C N A U l) (hn : N) : Gone A := by
  intro l hl
  rcases (h l).nlr hn with rfl | h
  · exact absurd hl (Nat.lt_irrefl 0)
  · exact h

/-- C69 for one method: its tree does what its source says, in every world. -/
theorem C69_method_partial {A : World Nat W E} {U : Sel → Nat → Src.Rel W E} (hS : ∀ l, Std True D True C N A U l) (hself : Src.act A .self = Src.act A (.rdVar true 0 0)) {s : SMethod} {am : AMethod}
    (he : s.env.Nodup) (hb : s.body.bound [s.env]) (hf : s.body.fair True D True C N false) (hset : s.body.setter) (hm : s.ast known alloc = .ok am) (err : Err → E) :
    am.run A U err = s.eval known A err :=
  method_tr_run (Std.plain hS) (Std.gone hS) hself he hb hf hset hm

/-- C69 for programs: at every depth of calls, all methods and all blocks, as trees, do what the source says. -/
theorem C69_program_partial {p : Compiled2 ι} (he : ∀ i, (p.src i).env.Nodup) (hb : ∀ i, (p.src i).body.bound [(p.src i).env]) (hf : ∀ i, (p.src i).body.fair True D True C N false)
    (hset : ∀ i, (p.src i).body.setter) (hm : ∀ i, (p.src i).ast known alloc = .ok (p.tree i)) (Φ : System ι W E) (err : Err → E)
    (hS : ∀ b l, Std True D True C N (Φ b).1 (Φ b).2 l) (hself : ∀ b, Src.act (Φ b).1 .self = Src.act (Φ b).1 (.rdVar true 0 0)) (k : Nat) :
    astBehaviour p Φ err k = srcBehaviour known p.src Φ err k := by
  induction k with
  | zero => rfl
  | succ k ih =>
    have key : ∀ i, _ := fun i => comes_renders (method_tr_makes (he i) (hb i) (hf i) (hm i))
    unfold astBehaviour srcBehaviour
    rw [ih]
    have sem : ∀ {c m σ s}, Renders known True D True C N (c, m) (σ, s) → m.run (Φ (srcBehaviour known p.src Φ err k)).1 (Φ (srcBehaviour known p.src Φ err k)).2 err =
        s.eval known (Φ (srcBehaviour known p.src Φ err k)).1 err σ := fun h => SBlock.tr_run (Std.plain (hS _)) (Std.gone (hS _)) h.2.2 h.2.1 h.1
    dsimp only
    congr 1
    · funext i
      exact C69_method_partial (hS _) (hself _) (he i) (hb i) (hf i) (hset i) (hm i) err
    · funext id w r w'
      refine propext ⟨?_, ?_⟩
      · rintro ⟨i, m, hc, hid, h⟩
        obtain ⟨c, σ, s, h1, h2⟩ := (key i).1 m hc
        exact ⟨i, σ, s, h1, (tr_block_id h2.1).symm.trans hid, sem h2 ▸ h⟩
      · rintro ⟨i, σ, s, hs, hid, h⟩
        obtain ⟨c, m, h1, h2⟩ := (key i).2 σ s hs
        exact ⟨i, m, h1, (tr_block_id h2.1).trans hid, (sem h2).symm ▸ h⟩

/-- C69 for bytecode: at every depth of calls, all methods and all blocks do what the source says, except that according to the source a condition must be a boolean. -/
theorem C69_code_partial {n : Nat} {p : Compiled2 ι} (hp : p.Ok True D True C N known alloc n) (hb : ∀ i, (p.src i).body.bound [(p.src i).env]) (Φ : System ι W E) (err : Err → E)
    (hΦ : Φ.passes (NoBoolean err)) (hS : ∀ b l, Std True D True C N (Φ b).1 (Φ b).2 l) (hself : ∀ b, Src.act (Φ b).1 .self = Src.act (Φ b).1 (.rdVar true 0 0)) (k : Nat) :
    (∀ i, Approx (NoBoolean err) ((srcBehaviour known p.src Φ err k).meth i) ((bcBehaviour p Φ k).meth i)) ∧
      ∀ id, Approx (NoBoolean err) ((srcBehaviour known p.src Φ err k).blk id) ((bcBehaviour p Φ k).blk id) := by
  rw [← C69_program_partial hp.env hb hp.fair hp.setter hp.tree Φ err hS hself k]
  exact C34_program_partial hp Φ err hΦ hS hself k
end

/-! ## Examples -/

theorem richMethod_bound : richMethod.body.bound [richMethod.env] := by
  simp [richMethod, Body.bound, Ex.bound, Exs.bound, SBlock.bound, Tgt.bound]

/-- A method with assignments to several variables, an incremented field, a loop, a conditional and blocks of both kinds, in a world that meets the hypotheses. -/
example : ∃ am, richMethod.ast (fun _ => false) (fun _ => .nil) = .ok am ∧
    ∀ (err : Err → Err), am.run (World.of (desk false none)) (fun n _ => Src.act (World.of (desk false none)) (.glob n)) err = richMethod.eval (fun _ => false) (World.of (desk false none)) err := by
  obtain ⟨am, h3⟩ : ∃ am, richMethod.ast (fun _ => false) (fun _ => .nil) = .ok am := ⟨_, rfl⟩
  exact ⟨am, h3, fun err => C69_method_partial (N := True) (fun l => desk_std none l (.inr rfl)) rfl (by decide) richMethod_bound richMethod_fair (by trivial) h3 err⟩

end PySOM.BC

namespace PySOM.Mach
open PySOM BC

section
variable {ι X Y P : Type} {G : Prog ι X Y P} {K K' : Incs X Y} {D N : Prop} {known : Sel → Bool} {alloc : LitTs → Val} {n : Nat} {p : Compiled2 ι}

/-- A call, with methods and blocks as their source says. -/
def Prog.source (G : Prog ι X Y P) (D : Prop) (K : Incs X Y) (known : Sel → Bool) (src : ι → SMethod) (c : Call) (w : St X Y) (r : Res Esc) (w' : St X Y) : Prop :=
  ∃ k, G.calls (srcBehaviour known src (G.language D K) Esc.err k) c w r w'

theorem source_trees (hp : p.Ok True D True False N known alloc n) (hb : ∀ i, (p.src i).body.bound [(p.src i).env]) (hN : N → ∀ c, G.look (G.chain c) escapedBlock = none) (k : Nat) :
    astBehaviour p (G.language D K) Esc.err k = srcBehaviour known p.src (G.language D K) Esc.err k :=
  C69_program_partial hp.env hb hp.fair hp.setter hp.tree (G.language D K) Esc.err (language_std hN) (fun _ => rfl) k

/-- C69: what a call does in the AST interpreter, its source says, or the interpreter raises one of the three errors. -/
theorem C69_trees_partial (hp : p.Ok True D True False N known alloc n) (hb : ∀ i, (p.src i).body.bound [(p.src i).env]) (hA : K'.Ok G D) (hdec : ¬ D → K'.dec = K.dec)
    (hN : N → ∀ c, G.look (G.chain c) escapedBlock = none) (c : Call) (w : St X Y) (r : Res Esc) (w' : St X Y) :
    (G.trees K' p c w r w' → G.source D K known p.src c w r w' ∨ ∃ e, r = .exc e ∧ Quirk e) ∧
    (G.source D K known p.src c w r w' → G.trees K' p c w r w' ∨ ∃ e w2, Quirk e ∧ G.trees K' p c w (.exc e) w2) := by
  have h := fun k => astBehaviour_approx (system_approx hA hdec) p Esc.err k
  refine ⟨fun ⟨k, hd⟩ => ?_, fun ⟨k, hd⟩ => ?_⟩
  · refine (Do.passes errors_quirk (h k).1 (h k).2 hd).imp_left fun h1 => ⟨k, ?_⟩
    rw [← source_trees hp hb hN k]
    exact h1
  · rw [← source_trees hp hb hN k] at hd
    exact (Do.passes' errors_quirk (h k).1 (h k).2 hd).imp (fun h1 => ⟨k, h1⟩) fun ⟨e, w2, he, h1⟩ => ⟨e, w2, he, k, h1⟩

/-- C69: what a call does in the bytecode interpreter, its source says, or one of the three errors is raised here or there. -/
theorem C69_bytecode_partial (hp : p.Ok True D True False N known alloc n) (hb : ∀ i, (p.src i).body.bound [(p.src i).env]) (hB : K.Ok G D)
    (hN : N → ∀ c, G.look (G.chain c) escapedBlock = none) (c : Call) (w : St X Y) (r : Res Esc) (w' : St X Y) (hr : ∀ e, r = .exc e → ¬ Quirk e) :
    (G.bytecode K p c w r w' → G.source D K known p.src c w r w' ∨ ∃ e w2, Quirk e ∧ G.source D K known p.src c w (.exc e) w2) ∧
    (G.source D K known p.src c w r w' → G.bytecode K p c w r w' ∨ ∃ e w2, Quirk e ∧ G.bytecode K p c w (.exc e) w2) := by
  have h2 := fun k => C69_code_partial hp hb (G.language D K) Esc.err (language_approx errors_noBoolean) (language_std hN) (fun b => rfl) k
  have weak : ∀ e, NoBoolean Esc.err e → Quirk e := fun e h => h.imp (fun h => h) .inl
  have hm := fun k i => ((h2 k).1 i).weaken weak
  have hk := fun k i => ((h2 k).2 i).weaken weak
  refine ⟨fun ⟨k, hd⟩ => ?_, fun ⟨k, hd⟩ => ?_⟩
  · rcases (bytecode_language hB k _ _).1 r w' hd with h1 | ⟨e, he, hq⟩
    · exact (Do.passes' errors_quirk (hm k) (hk k) h1).imp (fun h1 => ⟨k, h1⟩) fun ⟨e, w2, he, h1⟩ => ⟨e, w2, he, k, h1⟩
    · exact absurd hq (hr e he)
  · rcases Do.passes errors_quirk (hm k) (hk k) hd with h1 | ⟨e, he, hq⟩
    · exact ((bytecode_language hB k _ _).2 r w' h1).imp (fun h => ⟨k, h⟩) fun ⟨e, w2, he, h⟩ => ⟨e, w2, he, k, h⟩
    · exact absurd hq (hr e he)

/-- C69: a value that a call gives is the value its source says, or according to the source the call raises one of the three errors. -/
theorem C69_value_partial (hp : p.Ok True D True False N known alloc n) (hb : ∀ i, (p.src i).body.bound [(p.src i).env]) (hB : K.Ok G D)
    (hN : N → ∀ c, G.look (G.chain c) escapedBlock = none) (c : Call) (w : St X Y) (v : Val) (w' : St X Y) :
    (G.trees K p c w (.val v) w' → G.source D K known p.src c w (.val v) w') ∧
    (G.bytecode K p c w (.val v) w' → G.source D K known p.src c w (.val v) w' ∨ ∃ e w2, Quirk e ∧ G.source D K known p.src c w (.exc e) w2) :=
  ⟨fun h => ((C69_trees_partial hp hb hB (fun _ => rfl) hN c w _ w').1 h).resolve_right fun ⟨_, he, _⟩ => (nomatch he),
   fun h => (C69_bytecode_partial hp hb hB hN c w (.val v) w' (fun _ he => nomatch he)).1 h⟩
end

theorem downMethod_bound : downMethod.body.bound [downMethod.env] := by
  simp [downMethod, Body.bound, Ex.bound, Exs.bound, SBlock.bound, Tgt.bound]

/-- All hypotheses are met by the program of `small_run`: `down: false`, from the state with one object, answers true according to the source. -/
example : ∃ (p : Compiled2 Unit) (w' : St (List Val) Unit), p.src = (fun _ => downMethod) ∧ p.Ok True True True False True (fun _ => false) (fun _ => .nil) 5 ∧
    smallProg.trees smallIncs p (.send "down:".toList [.obj 0, .fls]) smallStart (.val .tru) w' ∧
    smallProg.source True smallIncs (fun _ => false) p.src (.send "down:".toList [.obj 0, .fls]) smallStart (.val .tru) w' := by
  obtain ⟨p, hs, hp, _, hK, hN, w', ht, _⟩ := small_run
  have hb : ∀ i, (p.src i).body.bound [(p.src i).env] := fun i => by rw [hs]; exact downMethod_bound
  exact ⟨p, w', hs, hp, ht, (C69_value_partial hp hb hK (fun _ => hN) _ _ _ _).1 ht⟩

end PySOM.Mach

/-! ## Texts -/

namespace PySOM.Elab
open PySOM PySOM.Lex PySOM.Parse PySOM.BC PySOM.Mach PySOM.Elab.Spec

section
variable {K : Classes} (hK : Good K) {M : Numbers} {D C N : Prop} {known : Sel → Bool} {alloc : LitTs → Val} {k : Nat} {ι : Type} {text : ι → List Char} {fields : ι → List Name}
  {m : ι → Parse.Method} {S2 : ι → SMethod} {p : Compiled2 ι}
include hK

/-- The methods of texts meet the conditions. -/
theorem texts_ok (h : ∀ i, Method2 K M True D True C N known alloc k (text i) (fields i) (m i) (p.src i) (S2 i) (p.code i) (p.tree i)) :
    p.Ok True D True C N known alloc k ∧ ∀ i, (p.src i).body.bound [(p.src i).env] := by
  refine ⟨⟨fun i => ((h i).ok hK).2.1, fun i => ((h i).ok hK).2.2.1, fun i => ((h i).ok hK).2.2.2.1, fun i => ((h i).ok hK).2.2.2.2, fun i => (h i).code, fun i => ?_⟩, fun i => ?_⟩
  · rw [((h i).ok hK).1]
    exact (h i).tree
  · obtain ⟨ls, ts, ex, _, _, _, _, _, n, o, bits, s1, s2, h1, _⟩ := (h i).parts
    exact methodAt_bound h1

/-- **C69** (partly) for texts: at every depth of calls, all methods and blocks of the texts do in the AST interpreter what the source says, and in the bytecode interpreter except that according to
the source a condition must be a boolean.  Missing: see above, and C64. -/
theorem C69_text_partial {W E : Type} (h : ∀ i, Method2 K M True D True C N known alloc k (text i) (fields i) (m i) (p.src i) (S2 i) (p.code i) (p.tree i)) (Φ : System ι W E) (err : Err → E)
    (hΦ : Φ.passes (NoBoolean err)) (hS : ∀ b l, Std True D True C N (Φ b).1 (Φ b).2 l) (hself : ∀ b, Src.act (Φ b).1 .self = Src.act (Φ b).1 (.rdVar true 0 0)) (j : Nat) :
    astBehaviour p Φ err j = srcBehaviour known p.src Φ err j ∧ (∀ i, Approx (NoBoolean err) ((srcBehaviour known p.src Φ err j).meth i) ((bcBehaviour p Φ j).meth i)) ∧
      ∀ id, Approx (NoBoolean err) ((srcBehaviour known p.src Φ err j).blk id) ((bcBehaviour p Φ j).blk id) := by
  obtain ⟨hp, hb⟩ := texts_ok hK h
  exact ⟨C69_program_partial hp.env hb hp.fair hp.setter hp.tree Φ err hS hself j, C69_code_partial hp hb Φ err hΦ hS hself j⟩

/-- **C69** (partly): a value that a call gives in a program of texts is the value that the source says, or according to the source the call raises one of the three errors. -/
theorem C69_text_value_partial {X Y P : Type} {G : Prog ι X Y P} {KB : Incs X Y} (h : ∀ i, Method2 K M True D True False N known alloc k (text i) (fields i) (m i) (p.src i) (S2 i) (p.code i) (p.tree i))
    (hB : KB.Ok G D) (hN : N → ∀ c, G.look (G.chain c) escapedBlock = none) (c : Call) (w : Mach.St X Y) (v : Val) (w' : Mach.St X Y) :
    (G.trees KB p c w (.val v) w' → G.source D KB known p.src c w (.val v) w') ∧
    (G.bytecode KB p c w (.val v) w' → G.source D KB known p.src c w (.val v) w' ∨ ∃ e w2, Quirk e ∧ G.source D KB known p.src c w (.exc e) w2) := by
  obtain ⟨hp, hb⟩ := texts_ok hK h
  exact C69_value_partial hp hb hB hN c w v w'
end

/-- The class of C62, as a program of one method, meets the conditions. -/
example : ∃ p : Compiled2 Unit, p.src = (fun _ => sampleS) ∧ ∀ i, Method2 Lex.Spec.ascii digits True False True False False (fun _ => true) (fun _ => .nil) 2 sampleText [['x']] sampleM (p.src i) (p.src i) (p.code i) (p.tree i) := by
  obtain ⟨⟨S, s⟩, h1⟩ := exists_ok (x := methodAt digits [['x']] 0 0 [true, false, true] [['a'], ['b']] [['t']] sampleStmts true) (by decide +kernel)
  have hl : selfName ∉ [['t']] := by decide +kernel
  have hb : selfName ∉ blockLocalsL sampleStmts := by decide +kernel
  have h2 := (C64_names_partial digits [['x']] 0 0 [true, false, true] [['a'], ['b']] [['t']] sampleStmts true hl hb _).2 h1
  have h3 : method digits [['x']] [true, false, true] [['a'], ['b']] [['t']] sampleStmts true = .ok S := by rw [method_at, h1]; rfl
  have e : sampleS = S := by
    have := method_isOk (N := digits) (fields := [['x']]) (bits := [true, false, true]) (ps := [['a'], ['b']]) (ls := [['t']]) (ts := sampleStmts) (ex := true) (by rw [h3])
    rw [h3] at this
    rw [sampleS, h3]
  subst e
  obtain ⟨g, code, hg, hc, _⟩ := sample_compiles
  obtain ⟨tree, ht⟩ := exists_ok (x := sampleS.ast (fun _ => true) (fun _ => .nil)) (by decide +kernel)
  refine ⟨⟨fun _ => sampleS, fun _ => code, fun _ => tree⟩, rfl, fun _ => ⟨⟨_, sample_class, classAst_of (by decide +kernel), by decide +kernel⟩,
    ⟨_, _, _, rfl, hl, hb, ?_, ?_, 0, 0, [true, false, true], s, s, h1, h2⟩, ⟨g, hg, hc⟩, ht⟩⟩
  · simp [sampleStmts, fairT, fairL, v, isOne, escapes, escapesL, one]
  · rintro _ ⟨f, x, h⟩
    simp [sampleStmts] at h

end PySOM.Elab

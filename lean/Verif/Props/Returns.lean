import Verif.Lemmas.Returns
/-!
# C67: returns from blocks arrive, and the frames that code needs are there

In the machine of `Model/Machine.lean`, code follows the contexts of blocks to variables, to `self` and to the frame that a `^` in a block returns from.  If a context were too short, or did not lead
to a method that waits for the return, the VM would fail with an internal error, or the exception `ReturnException` would end the program.  It is shown that this never happens: the levels that the
compiler puts into the code, after inlining, always fit the frames; blocks that are made without a context never need one; and a method whose blocks contain a `^` is one that catches returns.

For the bytecode interpreter this is shown for all programs.  Full property for the AST interpreter: the same.  What is proved there is for the programs for which both interpreters are
shown to agree (C66), and the states after one of the three Python errors of C66 are left out.
-/
set_option autoImplicit false
namespace PySOM.Mach
open PySOM BC

section
variable {ι X Y P : Type} {G : Prog ι X Y P} {K : Incs X Y} {D N : Prop} {known : Sel → Bool} {alloc : LitTs → Val} {n : Nat} {p : Compiled2 ι}

/-- Every method with a `^` in one of its blocks catches returns. -/
def CatchesAll (G : Prog ι X Y P) (p : Compiled2 ι) : Prop := ∀ i, (p.src i).body.throws false = true → G.catches i = true

theorem Fresh.wf {w : St X Y} (h : Fresh w) : Wf p w ∧ Idle w :=
  ⟨⟨fun a id ctx hh hx => absurd hx (h.2 a id ctx hh), fun f x hx => by rw [h.1] at hx; simp at hx⟩, fun f x hx => by rw [h.1] at hx; simp at hx⟩

theorem Idle.keeps {w w' : St X Y} (h : Idle w) (hk : Keeps w w') : Idle w' := by
  intro f x hx
  by_cases hl : w.frames.length ≤ f
  · exact hk.new f x hl hx
  · have h0 : w.frames[f]? = some w.frames[f] := List.getElem?_eq_getElem (by omega)
    obtain ⟨x2, b1, b2, b3, b4⟩ := hk.old f _ h0
    rw [hx] at b1
    cases b1
    rw [b4]
    exact h f _ h0

/-- Calls in which the invariant is preserved. -/
theorem reached_wf {run : Call → St X Y → Res Esc → St X Y → Prop} (hrun : ∀ c w r w', Wf p w → run c w r w' → Post p w (escOf r) w') {w : St X Y} (h : Reached run w) : Wf p w ∧ Idle w := by
  induction h with
  | fresh w h => exact h.wf
  | call w c r w' _ h ih =>
    have := hrun c w r w' ih.1 h
    exact ⟨this.wf, ih.2.keeps this.keeps⟩
  | host w sh _ h ih => exact ⟨ih.1.shared h, ih.2⟩

theorem calls_post {b : Behaviour ι (St X Y) Esc} (hG : Tame G) (hb : BehOk G p b) {c : Call} {w : St X Y} {r : Res Esc} {w' : St X Y} (hw : Wf p w) (h : G.calls b c w r w') :
    Post p w (escOf r) w' := by
  have h2 := resolve_ok (G := G) hw c
  exact h2.1.trans (Do.ok hG hb h h2.1.wf h2.2)

theorem post_home {w : St X Y} {r : Res Esc} {w' : St X Y} (hi : Idle w) (h : Post p w (escOf r) w') : (∃ v, r = .val v) ∨ ∃ e, r = .exc (.err e) := by
  cases r with
  | val v => exact .inl ⟨v, rfl⟩
  | exc e =>
    have := h.esc e rfl
    cases e with
    | err e => exact .inr ⟨e, rfl⟩
    | lost => exact this.elim
    | away f v =>
      obtain ⟨x, hx, hon, _⟩ := this
      rw [hi f x hx] at hon
      cases hon

theorem bytecode_post (hp : p.BcOk known n) (ha : Apart p) (hk : ∀ i, Known (p.src i).accesses) (hc : CatchesAll G p) (hG : Tame G) (hK : K.Tame) (c : Call) (w : St X Y)
    (r : Res Esc) (w' : St X Y) (hw : Wf p w) (h : G.bytecode K p c w r w') : Post p w (escOf r) w' := by
  obtain ⟨k, h⟩ := h
  exact calls_post hG (behaviour_ok hp hk hc (fun b hb => world_ok (bcOk_distinct hp ha) hG hK hb) k) hw h

/-- C67: in the bytecode interpreter, every call in every state that can be reached ends, if it ends, with a value or with a Python error: never with a return that nobody waits for,
and never because a frame was missing.  Afterwards nothing is running, and what was current is current again. -/
theorem C67_bytecode (hp : p.BcOk known n) (ha : Apart p) (hk : ∀ i, Known (p.src i).accesses) (hc : CatchesAll G p) (hG : Tame G) (hK : K.Tame) (w : St X Y)
    (hw : Reached (G.bytecode K p) w) (c : Call) (r : Res Esc) (w' : St X Y) (h : G.bytecode K p c w r w') :
    ((∃ v, r = .val v) ∨ ∃ e, r = .exc (.err e)) ∧ Idle w' ∧ w'.cur = w.cur := by
  have run := bytecode_post hp ha hk hc hG hK
  obtain ⟨h1, h2⟩ := reached_wf run hw
  have h3 := run c w r w' h1 h
  exact ⟨post_home h2 h3, h2.keeps h3.keeps, h3.keeps.cur⟩

/-- C67: while the bytecode interpreter runs, a method or block that is left by a return that is not its own is left for a frame that is running and catches returns, and no frame is ever missing.
`w` is any state in which contexts and blocks are as they should be (`Wf`), and the states between calls are such states. -/
theorem C67_running (hp : p.BcOk known n) (ha : Apart p) (hk : ∀ i, Known (p.src i).accesses) (hc : CatchesAll G p) (hG : Tame G) (hK : K.Tame) :
    (∀ w, Reached (G.bytecode K p) w → Wf p w) ∧
    ∀ (w : St X Y) (c : Call) (e : Esc) (w' : St X Y), Wf p w → G.bytecode K p c w (.exc e) w' → Wf p w' ∧ match e with
      | .err _ => True
      | .lost => False
      | .away f _ => ∃ x, w.frames[f]? = some x ∧ x.on = true ∧ x.home = true := by
  have run := bytecode_post hp ha hk hc hG hK
  refine ⟨fun w hw => (reached_wf run hw).1, fun w c e w' hw h => ?_⟩
  have h3 := run c w _ w' hw h
  refine ⟨h3.wf, ?_⟩
  have := h3.esc e rfl
  cases e <;> exact this

theorem trees_post (hp : p.Ok True D True False N known alloc n) (ha : Apart p) (hk : ∀ i, Known (p.src i).accesses) (hc : CatchesAll G p) (hG : Tame G) (hK : K.Tame) (hA : K.Ok G D)
    (hN : N → ∀ c, G.look (G.chain c) escapedBlock = none) (c : Call) (w : St X Y) (r : Res Esc) (w' : St X Y) (hw : Wf p w) (h : G.trees K p c w r w') :
    Post p w (escOf r) w' ∨ ∃ e, r = .exc e ∧ Quirk e := by
  obtain ⟨k, h⟩ := h
  rcases (trees_language (KB := K) hp hA (fun _ => rfl) hN k _ _).1 r w' h with h1 | h1
  · exact .inl (calls_post hG (behaviour_ok ⟨hp.wf, hp.code⟩ hk hc (fun b hb => ideal_ok (code_distinct hp ha) hG hK D hb) k) hw h1)
  · exact .inr h1

/-- A call in the AST interpreter that raises none of the three errors. -/
def Prog.goodTrees (G : Prog ι X Y P) (K : Incs X Y) (p : Compiled2 ι) (c : Call) (w : St X Y) (r : Res Esc) (w' : St X Y) : Prop := G.trees K p c w r w' ∧ ∀ e, r = .exc e → ¬ Quirk e

/-- C67 for the AST interpreter: the same, for the programs of C66 and states that are reached without the three errors. -/
theorem C67_trees_partial (hp : p.Ok True D True False N known alloc n) (ha : Apart p) (hk : ∀ i, Known (p.src i).accesses) (hc : CatchesAll G p) (hG : Tame G) (hK : K.Tame) (hA : K.Ok G D)
    (hN : N → ∀ c, G.look (G.chain c) escapedBlock = none) (w : St X Y) (hw : Reached (G.goodTrees K p) w) (c : Call) (r : Res Esc) (w' : St X Y) (h : G.trees K p c w r w') :
    ((∃ v, r = .val v) ∨ ∃ e, r = .exc (.err e)) ∧ ((∀ e, r = .exc e → ¬ Quirk e) → Idle w' ∧ w'.cur = w.cur) := by
  have run := trees_post hp ha hk hc hG hK hA hN
  obtain ⟨h1, h2⟩ := reached_wf (fun c w r w' hw h => (run c w r w' hw h.1).resolve_right fun ⟨e, he, hq⟩ => h.2 e he hq) hw
  rcases run c w r w' h1 h with h3 | ⟨e, rfl, hq⟩
  · exact ⟨post_home h2 h3, fun _ => ⟨h2.keeps h3.keeps, h3.keeps.cur⟩⟩
  · refine ⟨?_, fun hn => absurd hq (hn e rfl)⟩
    rcases hq with rfl | rfl | rfl
    · exact .inr ⟨_, rfl⟩
    · exact .inr ⟨_, rfl⟩
    · exact .inr ⟨_, rfl⟩

end

/-! ## An example -/

theorem small_tame : Tame smallProg := fun q _ a id ctx h hx => ⟨a, hx⟩

theorem smallIncs_tame : smallIncs.Tame := by
  refine ⟨fun v sh a id ctx h hx => ⟨a, hx⟩, fun v sh a id ctx h hx => ⟨a, hx⟩, fun a i sh => ?_⟩
  simp only [smallIncs]
  split
  · split
    · exact kept_set fun _ _ _ => by simp
    · exact fun a id ctx h hx => ⟨a, hx⟩
  · exact fun a id ctx h hx => ⟨a, hx⟩

/-- All hypotheses are met by the program of C66, which has a block that returns from its method; its levels are those that are needed, and the state in which `down: false` is sent is fresh. -/
example : ∃ p : Compiled2 Unit, p.src = (fun _ => downMethod) ∧ p.Ok True True True False True (fun _ => false) (fun _ => .nil) 5 ∧ Apart p ∧ (∀ i, Known (p.src i).accesses) ∧
    CatchesAll smallProg p ∧ (p.src ()).body.throws false = true ∧ Tame smallProg ∧ smallIncs.Tame ∧ Fresh smallStart ∧
    (∀ c r w', smallProg.bytecode smallIncs p c smallStart r w' → ((∃ v, r = .val v) ∨ ∃ e, r = .exc (.err e)) ∧ Idle w' ∧ w'.cur = 0) ∧
    ∀ c r w', smallProg.trees smallIncs p c smallStart r w' → (∃ v, r = .val v) ∨ ∃ e, r = .exc (.err e) := by
  have hc := downMethod_compiles
  generalize hg : downMethod.compile (fun _ => false) 5 = r at hc
  cases r with
  | error e => cases hc
  | ok g =>
    generalize hC : assemble g = r at hc
    dsimp only at hc
    rw [hC] at hc
    cases r with
    | error e => cases hc
    | ok C =>
      let p : Compiled2 Unit := ⟨fun _ => downMethod, fun _ => C, fun _ => downTree⟩
      have hp : p.Ok True True True False True (fun _ => false) (fun _ => .nil) 5 :=
        ⟨fun _ => downMethod_wf, fun _ => (by decide : [11].Nodup), fun _ => downMethod_fair', fun _ => trivial, fun _ => ⟨g, hg, hC⟩, fun _ => downTree_ok⟩
      have hap : Apart p := fun _ _ _ _ _ => rfl
      have hk : ∀ i, Known (p.src i).accesses := fun i => by
        show Known downMethod.accesses
        intro a h
        have h' : a ∈ ([.read (some 2), .write (some 11), .read (some 2), .read (some 11), .write (some 12), .read (some 12), .read (some 11), .read (some 1)] : List Access) := h
        simp only [List.mem_cons, List.not_mem_nil, or_false] at h'
        rcases h' with rfl | rfl | rfl | rfl | rfl | rfl | rfl | rfl <;> rfl
      have hfresh : Fresh smallStart := ⟨rfl, fun a id ctx h => by
        cases a with
        | zero => simp [smallStart]
        | succ a => simp [smallStart]⟩
      have hcat : CatchesAll smallProg p := fun _ _ => rfl
      exact ⟨p, rfl, hp, hap, hk, hcat, rfl, small_tame, smallIncs_tame, hfresh,
        fun c r w' h => C67_bytecode ⟨hp.wf, hp.code⟩ hap hk hcat small_tame smallIncs_tame smallStart (.fresh _ hfresh) c r w' h,
        fun c r w' h => (C67_trees_partial hp hap hk hcat small_tame smallIncs_tame smallIncs_ok (fun _ => small_escaped) smallStart (.fresh _ hfresh) c r w' h).1⟩

end PySOM.Mach

import Verif.Lemmas.Fits
import Verif.Props.Machine
import Verif.Spec.Returns
/-!
# Frames and returns in the machine

The invariant of the machine: contexts of frames and blocks lead to frames that are there; the code of a block fits its context.
-/
set_option autoImplicit false
namespace PySOM.BC
open PySOM

theorem run_seval {W E : Type} {A : World Meth W E} {C : Code Meth} {c : SC Meth} (he : Enc C.lits c C.bytes) {d : Nat} (ht : c.ty 0 = some d) (hm : c.maxd 0 ≤ C.max) (hr : c.returns = true)
    {w w' : W} {r : Src.Res E} (h : bcRun A C w r w') : (∃ v, r = .ret v ∧ SEval A c [] w (.ret v w')) ∨ ∃ e, r = .exc e ∧ SEval A c [] w (.exc e w') := by
  cases r with
  | val v => exact h.elim
  | ret v =>
    obtain ⟨o, h1, h2, h3⟩ := (method_run he ht hm hr w (.done v w') trivial).mp h
    cases o <;> cases h3
    exact .inl ⟨v, rfl, h1⟩
  | exc e =>
    obtain ⟨o, h1, h2, h3⟩ := (method_run he ht hm hr w (.raised e w') trivial).mp h
    cases o <;> cases h3
    exact .inr ⟨e, rfl, h1⟩

/-- The code of a method fits the frame of the method. -/
theorem method_fits {known : Sel → Bool} {n : Nat} {s : SMethod} {g : G Meth (List Nat)} {C : Code Meth} (hw : s.Wf) (hc : s.compile known n = .ok g) (hC : assemble g = .ok C)
    (hk : Known s.accesses) : ∃ c : SC Meth, c.fits true 0 ∧ (s.body.throws false = false → c.fits false 0) ∧ C.makes = c.blks ∧
      ∀ (W E : Type) (A : World Meth W E) (w w' : W) (r : Src.Res E), bcRun A C w r w' → (∃ v, r = .ret v ∧ SEval A c [] w (.ret v w')) ∨ ∃ e, r = .exc e ∧ SEval A c [] w (.exc e w') := by
  obtain ⟨b, hb, hs, hg⟩ := SMethod.compile_sourced hw hc
  obtain ⟨_, rfl⟩ := assemble_ok hC
  obtain ⟨he, d, ht, hm⟩ := compile_ok (inliner_ok n) hs.good (by decide) hg
  have hac := s.body.build_acc known n 0 [⟨s.args, s.env⟩] b hw.body hw.ids hb hk
  have hac' : b.acc 0 [⟨s.args, s.env⟩] = s.accesses := hac
  have hgc := compile_acc hs.wf hs.blksOK (by decide) hg (args := s.args) (rest := []) (by rw [hac']; exact hk)
  have hfit : (genBody (inliner n) false 0 b (false, s.env)).fits true 0 := by
    refine SC.fits_of 0 _ [⟨s.args, g.env⟩] (fun q hq i hi => ?_) (by rw [hgc, hac']; exact hk) rfl
    have : q = 0 := by simpa [AtLvl] using hq
    subst this
    exact (genMethod_fine n b (false, s.env) hs.wf hs.blksOK i hi).resolve_left fun e => he.possible (e ▸ hi)
  refine ⟨_, hfit, fun hq => SC.fits_mute 0 _ hfit ?_, Code.makes_enc he, fun W E A w w' r h =>
    run_seval (C := ⟨g.lits, g.bytes, (g.maxDepth + 2 + 2).toNat⟩) he ht (by show _ ≤ (g.maxDepth + 2 + 2).toNat; omega) (genBody_returns (inliner n) false 0 b (false, s.env)) h⟩
  have hmute := s.body.build_mute (known := known) (n := n) false 0 b hw.body hw.ids hq hb
  rw [← mute_iff]
  exact genBody_mute n false 0 b (false, s.env) hmute.1 hmute.2

end PySOM.BC

namespace PySOM.Mach
open PySOM BC

section
variable {ι X Y P : Type}

/-- The bytecode of the methods of a program is what the compiler makes of their source. -/
structure _root_.PySOM.BC.Compiled2.BcOk (known : Sel → Bool) (n : Nat) (p : Compiled2 ι) : Prop where
  wf : ∀ i, (p.src i).Wf
  code : ∀ i, ∃ g, (p.src i).compile known n = .ok g ∧ assemble g = .ok (p.code i)

/-- The frame is there and around it are `d` others; if `t` holds, the outermost is that of a method that catches returns. -/
inductive Rooted (frames : List Frame) : Nat → Bool → Nat → Prop where
  | root (f : Nat) (t : Bool) (x : Frame) (h : frames[f]? = some x) (hc : x.ctx = none) (ht : t = true → x.home = true) : Rooted frames f t 0
  | inner (f g : Nat) (t : Bool) (d : Nat) (x : Frame) (h : frames[f]? = some x) (hc : x.ctx = some g) (hg : Rooted frames g t d) : Rooted frames f t (d + 1)

/-- The block fits its context. -/
def BlockOk (p : Compiled2 ι) (frames : List Frame) (id : Nat) (ctx : Option Nat) : Prop :=
  ∀ i m, Comes Meth.makes (p.code i).makes m → m.id = id →
    match ctx with
    | none => m.fits false 0
    | some g => ∃ t d, Rooted frames g t d ∧ m.fits t (d + 1)

/-- The invariant. -/
structure Wf (p : Compiled2 ι) (w : St X Y) : Prop where
  blocks : ∀ (a id : Nat) (ctx : Option Nat) (h : Nat), w.sh.objs[a]? = some (.block id ctx h) → BlockOk p w.frames id ctx
  frames : ∀ (f : Nat) (x : Frame), w.frames[f]? = some x → x.args ≠ [] ∧ ∀ g, x.ctx = some g → g < f

/-- The frames that were there are the same, apart from their variables; new ones are no longer running. -/
structure Keeps (w w' : St X Y) : Prop where
  cur : w'.cur = w.cur
  old : ∀ (f : Nat) (x : Frame), w.frames[f]? = some x → ∃ x', w'.frames[f]? = some x' ∧ x'.ctx = x.ctx ∧ x'.home = x.home ∧ x'.on = x.on
  new : ∀ (f : Nat) (x : Frame), w.frames.length ≤ f → w'.frames[f]? = some x → x.on = false

/-- An exception that may leave: a return is on its way to a frame that is running and catches it. -/
def EscOk (w : St X Y) : Esc → Prop
  | .err _ => True
  | .lost => False
  | .away n _ => ∃ x, w.frames[n]? = some x ∧ x.on = true ∧ x.home = true

structure Post (p : Compiled2 ι) (w : St X Y) (e : Option Esc) (w' : St X Y) : Prop where
  wf : Wf p w'
  keeps : Keeps w w'
  esc : ∀ x, e = some x → EscOk w x

theorem Rooted.keep {fs fs' : List Frame} (hk : ∀ (f : Nat) (x : Frame), fs[f]? = some x → ∃ x', fs'[f]? = some x' ∧ x'.ctx = x.ctx ∧ x'.home = x.home) {f d : Nat} {t : Bool}
    (h : Rooted fs f t d) : Rooted fs' f t d := by
  induction h with
  | root f t x h hc ht =>
    obtain ⟨x', h1, h2, h3⟩ := hk f x h
    exact .root f t x' h1 (by rw [h2, hc]) (by rw [h3]; exact ht)
  | inner f g t d x h hc _ ih =>
    obtain ⟨x', h1, h2, h3⟩ := hk f x h
    exact .inner f g t d x' h1 (by rw [h2, hc]) ih

theorem BlockOk.keep {p : Compiled2 ι} {fs fs' : List Frame} (hk : ∀ (f : Nat) (x : Frame), fs[f]? = some x → ∃ x', fs'[f]? = some x' ∧ x'.ctx = x.ctx ∧ x'.home = x.home) {id : Nat}
    {ctx : Option Nat} (h : BlockOk p fs id ctx) : BlockOk p fs' id ctx := by
  intro i m hm he
  have := h i m hm he
  cases ctx with
  | none => exact this
  | some g =>
    obtain ⟨t, d, h1, h2⟩ := this
    exact ⟨t, d, h1.keep hk, h2⟩

theorem Keeps.shape {w w' : St X Y} (h : Keeps w w') (f : Nat) (x : Frame) (hx : w.frames[f]? = some x) : ∃ x', w'.frames[f]? = some x' ∧ x'.ctx = x.ctx ∧ x'.home = x.home := by
  obtain ⟨x', h1, h2, h3, _⟩ := h.old f x hx
  exact ⟨x', h1, h2, h3⟩

theorem Keeps.refl (w : St X Y) : Keeps w w := ⟨rfl, fun _ x h => ⟨x, h, rfl, rfl, rfl⟩, fun f x h hx => by
  have := (List.getElem?_eq_some_iff.mp hx).1
  omega⟩

theorem Keeps.trans {w w1 w2 : St X Y} (h1 : Keeps w w1) (h2 : Keeps w1 w2) : Keeps w w2 := by
  refine ⟨h2.cur.trans h1.cur, fun f x hx => ?_, fun f x hf hx => ?_⟩
  · obtain ⟨x1, a1, a2, a3, a4⟩ := h1.old f x hx
    obtain ⟨x2, b1, b2, b3, b4⟩ := h2.old f x1 a1
    exact ⟨x2, b1, b2.trans a2, b3.trans a3, b4.trans a4⟩
  · by_cases hl : w1.frames.length ≤ f
    · exact h2.new f x hl hx
    · have h0 : w1.frames[f]? = some w1.frames[f] := List.getElem?_eq_getElem (by omega)
      obtain ⟨x2, b1, b2, b3, b4⟩ := h2.old f _ h0
      rw [hx] at b1
      cases b1
      rw [b4]
      exact h1.new f _ hf h0

theorem EscOk.back {w w1 : St X Y} (h1 : Keeps w w1) {e : Esc} (h : EscOk w1 e) : EscOk w e := by
  cases e with
  | err e => trivial
  | lost => exact h
  | away n v =>
    obtain ⟨x, hx, hon, hh⟩ := h
    by_cases hl : w.frames.length ≤ n
    · rw [h1.new n x hl hx] at hon; cases hon
    · have h0 : w.frames[n]? = some w.frames[n] := List.getElem?_eq_getElem (by omega)
      obtain ⟨x2, b1, b2, b3, b4⟩ := h1.old n _ h0
      rw [hx] at b1
      cases b1
      exact ⟨_, h0, by rw [← b4, hon], by rw [← b3, hh]⟩

theorem Post.trans {p : Compiled2 ι} {w w1 w2 : St X Y} {e : Option Esc} (h1 : Post p w none w1) (h2 : Post p w1 e w2) : Post p w e w2 :=
  ⟨h2.wf, h1.keeps.trans h2.keeps, fun x hx => (h2.esc x hx).back h1.keeps⟩

theorem Post.value {p : Compiled2 ι} {w w1 : St X Y} {e : Option Esc} (h1 : Post p w e w1) : Post p w none w1 := ⟨h1.wf, h1.keeps, fun _ h => nomatch h⟩

theorem Post.same {p : Compiled2 ι} {w : St X Y} (h : Wf p w) {e : Option Esc} (he : ∀ x, e = some x → EscOk w x) : Post p w e w := ⟨h, .refl w, he⟩

theorem Wf.shared {p : Compiled2 ι} {w : St X Y} (h : Wf p w) {s : Shared X Y} (hs : Kept w.sh s) : Wf p { w with sh := s } :=
  ⟨fun a id ctx hh hx => by obtain ⟨a', ha⟩ := hs a id ctx hh hx; exact h.blocks a' id ctx hh ha, h.frames⟩

theorem Post.ofShared {p : Compiled2 ι} {w : St X Y} (h : Wf p w) {s : Shared X Y} (hs : Kept w.sh s) {e : Option Esc} (he : ∀ x, e = some x → EscOk w x) :
    Post p w e { w with sh := s } := ⟨h.shared hs, ⟨rfl, fun _ x h => ⟨x, h, rfl, rfl, rfl⟩, (Keeps.refl w).new⟩, he⟩

theorem kept_append {s : Shared X Y} {o : Obj X} (ho : ∀ id ctx h, o ≠ .block id ctx h) : Kept s { s with objs := s.objs ++ [o] } := by
  intro a id ctx h hx
  refine ⟨a, ?_⟩
  rw [List.getElem?_append] at hx
  split at hx
  · exact hx
  · rename_i hl
    cases hk : a - s.objs.length with
    | zero => rw [hk] at hx; simp only [List.getElem?_cons_zero, Option.some.injEq] at hx; exact absurd hx (ho _ _ _)
    | succ k => rw [hk] at hx; simp at hx

theorem kept_set {s : Shared X Y} {a : Nat} {o : Obj X} (ho : ∀ id ctx h, o ≠ .block id ctx h) : Kept s { s with objs := s.objs.set a o } := by
  intro a' id ctx h hx
  refine ⟨a', ?_⟩
  rw [List.getElem?_set] at hx
  split at hx
  · split at hx
    · cases hx; exact absurd rfl (ho _ _ _)
    · cases hx
  · exact hx

/-- What is called can be called. -/
def TargetOk (p : Compiled2 ι) (w : St X Y) : Target ι P → Prop
  | .meth _ _ vs => vs ≠ []
  | .blk id ctx _ vs => vs ≠ [] ∧ BlockOk p w.frames id ctx
  | _ => True

variable {G : Prog ι X Y P} {p : Compiled2 ι}

theorem enter_ok {w : St X Y} {vs : List Val} (h : vs ≠ []) (x : Option (Nat × Entry ι)) : TargetOk p w (G.enter vs x) := by
  cases x with
  | none => trivial
  | some x => obtain ⟨c, e⟩ := x; cases e with
    | meth i => exact h
    | prim n => trivial

theorem resolve_ok {w : St X Y} (hw : Wf p w) (c : Call) : Post p w none (G.resolve w c).2 ∧ TargetOk p (G.resolve w c).2 (G.resolve w c).1 := by
  have same : Post p w none w := .same hw fun _ h => nomatch h
  cases c with
  | send sel vs =>
    cases vs with
    | nil => exact ⟨same, trivial⟩
    | cons r as =>
      simp only [Prog.resolve]
      cases hc : G.classOf w.sh r with
      | none => exact ⟨same, trivial⟩
      | some c =>
        dsimp only
        cases hl : G.look (G.chain c) sel with
        | some x => exact ⟨same, enter_ok (by simp) _⟩
        | none => exact ⟨.ofShared hw (kept_append (fun _ _ _ => by simp)) (fun _ h => nomatch h), enter_ok (by simp) _⟩
  | own sel vs =>
    cases vs with
    | nil => exact ⟨same, trivial⟩
    | cons r as =>
      simp only [Prog.resolve]
      cases hc : G.classOf w.sh r with
      | none => exact ⟨same, trivial⟩
      | some c => exact ⟨same, enter_ok (by simp) _⟩
  | «from» chain sel vs =>
    cases vs with
    | nil => exact ⟨same, trivial⟩
    | cons r as => exact ⟨same, enter_ok (by simp) _⟩
  | value vs =>
    cases vs with
    | nil => exact ⟨same, trivial⟩
    | cons r as =>
      cases r with
      | obj a =>
        simp only [Prog.resolve]
        cases ho : w.sh.objs[a]? with
        | none => exact ⟨same, trivial⟩
        | some o =>
          cases o with
          | block id ctx h => exact ⟨same, by simp, hw.blocks a id ctx h ho⟩
          | _ => exact ⟨same, trivial⟩
      | _ => exact ⟨same, trivial⟩

/-! ## Calls -/

def escOf : Res Esc → Option Esc
  | .val _ => none
  | .exc e => some e

def escSrc : Src.Res Esc → Option Esc
  | .exc e => some e
  | _ => none

/-- Methods and blocks preserve the invariant, and returns that leave them go to frames that wait for them. -/
structure BehOk (G : Prog ι X Y P) (p : Compiled2 ι) (b : Behaviour ι (St X Y) Esc) : Prop where
  meth : ∀ (i : ι) (w : St X Y) (vs : List Val) (h : Nat) (r : Src.Res Esc) (w' : St X Y), Wf p w → vs ≠ [] → b.meth i (w.push vs none h (G.catches i)) r w' →
    Post p (w.push vs none h (G.catches i)) (escSrc r) w'
  blk : ∀ (id : Nat) (w : St X Y) (vs : List Val) (ctx : Option Nat) (h : Nat) (r : Src.Res Esc) (w' : St X Y), Wf p w → vs ≠ [] → BlockOk p w.frames id ctx →
    b.blk id (w.push vs ctx h false) r w' → Post p (w.push vs ctx h false) (escSrc r) w'

theorem push_shape {w : St X Y} {vs : List Val} {ctx : Option Nat} {h : Nat} {home : Bool} (f : Nat) (x : Frame) (hx : w.frames[f]? = some x) : (w.push vs ctx h home).frames[f]? = some x := by
  have := (List.getElem?_eq_some_iff.mp hx).1
  simp only [St.push]
  rw [List.getElem?_append_left this, hx]

theorem push_new {w : St X Y} {vs : List Val} {ctx : Option Nat} {h : Nat} {home : Bool} : (w.push vs ctx h home).frames[w.frames.length]? = some ⟨vs, fun _ => .nil, ctx, h, true, home⟩ := by
  simp only [St.push]
  rw [List.getElem?_append_right (Nat.le_refl _)]
  simp

theorem push_cases {w : St X Y} {vs : List Val} {ctx : Option Nat} {h : Nat} {home : Bool} {f : Nat} {x : Frame} (hx : (w.push vs ctx h home).frames[f]? = some x) :
    w.frames[f]? = some x ∨ f = w.frames.length ∧ x = ⟨vs, fun _ => .nil, ctx, h, true, home⟩ := by
  by_cases hf : f < w.frames.length
  · left
    have h0 : w.frames[f]? = some w.frames[f] := List.getElem?_eq_getElem hf
    rw [push_shape f _ h0] at hx
    rw [h0, hx]
  · right
    have hl := (List.getElem?_eq_some_iff.mp hx).1
    simp only [St.push, List.length_append, List.length_singleton] at hl
    obtain rfl : f = w.frames.length := by omega
    rw [push_new] at hx
    exact ⟨rfl, (Option.some.inj hx).symm⟩

theorem Wf.push {w : St X Y} (hw : Wf p w) {vs : List Val} {ctx : Option Nat} {h : Nat} {home : Bool} (hv : vs ≠ []) (hc : ∀ g, ctx = some g → g < w.frames.length) :
    Wf p (w.push vs ctx h home) := by
  refine ⟨fun a id c hh hx => ?_, fun f x hx => ?_⟩
  · exact (hw.blocks a id c hh hx).keep fun f x hx => ⟨x, push_shape f x hx, rfl, rfl⟩
  · rcases push_cases hx with hx | ⟨rfl, rfl⟩
    · exact hw.frames f x hx
    · exact ⟨hv, hc⟩

/-- Leaving a method or a block. -/
theorem left_ok {w w0 : St X Y} {vs : List Val} {ctx : Option Nat} {h : Nat} {home : Bool} {r0 : Src.Res Esc} (hp : Post p (w.push vs ctx h home) (escSrc r0) w0) :
    Post p w (escOf (left home w.frames.length w.cur r0 w0).1) (left home w.frames.length w.cur r0 w0).2 := by
  have hst : (left home w.frames.length w.cur r0 w0).2 = w0.pop w.frames.length w.cur := by
    unfold left
    repeat' split
    all_goals rfl
  rw [hst]
  have hm : ∀ (f : Nat) (x : Frame), w0.frames[f]? = some x → ∃ x', (w0.pop w.frames.length w.cur).frames[f]? = some x' ∧ x'.ctx = x.ctx ∧ x'.home = x.home ∧ x'.args = x.args ∧
      (f ≠ w.frames.length → x'.on = x.on) ∧ (f = w.frames.length → x'.on = false) := by
    intro f x hx
    simp only [St.pop, List.getElem?_modify, hx, Option.map_eq_map, Option.map_some]
    by_cases hf : w.frames.length = f
    · rw [if_pos hf]; exact ⟨_, rfl, rfl, rfl, rfl, fun h => absurd hf.symm h, fun _ => rfl⟩
    · rw [if_neg hf]; exact ⟨_, rfl, rfl, rfl, rfl, fun _ => rfl, fun h => absurd h.symm hf⟩
  have hb : ∀ (f : Nat) (x' : Frame), (w0.pop w.frames.length w.cur).frames[f]? = some x' → ∃ x, w0.frames[f]? = some x := by
    intro f x' hx
    simp only [St.pop, List.getElem?_modify] at hx
    cases h0 : w0.frames[f]? with
    | none => rw [h0] at hx; cases hx
    | some x => exact ⟨x, rfl⟩
  refine ⟨⟨fun a id c hh hx => ?_, fun f x' hx => ?_⟩, ⟨rfl, fun f x hx => ?_, fun f x' hf hx => ?_⟩, ?_⟩
  · exact (hp.wf.blocks a id c hh hx).keep fun f x hx => by
      obtain ⟨x', h1, h2, h3, _⟩ := hm f x hx
      exact ⟨x', h1, h2, h3⟩
  · obtain ⟨x, h0⟩ := hb f x' hx
    obtain ⟨x2, h1, h2, h3, h4, _⟩ := hm f x h0
    rw [hx] at h1
    cases h1
    rw [h2, h4]
    exact hp.wf.frames f x h0
  · have hlt := (List.getElem?_eq_some_iff.mp hx).1
    obtain ⟨x1, a1, a2, a3, a4⟩ := hp.keeps.old f x (push_shape f x hx)
    obtain ⟨x2, h1, h2, h3, h4, h5, _⟩ := hm f x1 a1
    exact ⟨x2, h1, h2.trans a2, h3.trans a3, (h5 (by omega)).trans a4⟩
  · obtain ⟨x, h0⟩ := hb f x' hx
    obtain ⟨x2, h1, h2, h3, h4, h5, h6⟩ := hm f x h0
    rw [hx] at h1
    cases h1
    by_cases he : f = w.frames.length
    · exact h6 he
    · rw [h5 he]
      refine hp.keeps.new f x ?_ h0
      simp only [St.push, List.length_append, List.length_singleton]
      omega
  · intro e he
    cases r0 with
    | val v => cases he
    | ret v => cases he
    | exc e0 =>
      have hok := hp.esc e0 rfl
      cases e0 with
      | err e1 => cases he; trivial
      | lost => exact hok.elim
      | away n v =>
        obtain ⟨x, hx, hon, hh⟩ := hok
        simp only [left] at he
        split at he
        · cases he
        · rename_i hc
          cases he
          rcases push_cases hx with hx | ⟨rfl, rfl⟩
          · exact ⟨x, hx, hon, hh⟩
          · exact absurd ⟨hh, rfl⟩ hc

theorem Do.ok (hG : Tame G) {b : Behaviour ι (St X Y) Esc} (hb : BehOk G p b) {t : Target ι P} {w : St X Y} {r : Res Esc} {w' : St X Y} (h : Do G b t w r w') :
    Wf p w → TargetOk p w t → Post p w (escOf r) w' := by
  induction h with
  | meth h i vs w r0 w0 hm => intro hw ht; exact left_ok (hb.meth i w vs h r0 w0 hw ht hm)
  | blk id ctx h vs w r0 w0 hm => intro hw ht; exact left_ok (hb.blk id w vs ctx h r0 w0 hw ht.1 ht.2 hm)
  | fail e w => intro hw _; exact .same hw fun x hx => by cases hx; trivial
  | done q w s v hs => intro hw _; exact .ofShared hw (by have := hG q w.sh; rwa [hs] at this) fun x hx => nomatch hx
  | raise q w s e hs => intro hw _; exact .ofShared hw (by have := hG q w.sh; rwa [hs] at this) fun x hx => by cases hx; trivial
  | next q w s q' r w' hs _ ih =>
    intro hw _
    have h1 : Post p w none { w with sh := s } := .ofShared hw (by have := hG q w.sh; rwa [hs] at this) fun x hx => nomatch hx
    exact h1.trans (ih h1.wf trivial)
  | callVal q w s c k v w1 r w' hs _ _ ih1 ih2 =>
    intro hw _
    have h1 : Post p w none { w with sh := s } := .ofShared hw (by have := hG q w.sh; rwa [hs] at this) fun x hx => nomatch hx
    have h2 := resolve_ok (G := G) h1.wf c
    have h3 := h1.trans (h2.1.trans (ih1 h2.1.wf h2.2))
    exact h3.value.trans (ih2 h3.wf trivial)
  | callExc q w s c k e w1 hs _ ih1 =>
    intro hw _
    have h1 : Post p w none { w with sh := s } := .ofShared hw (by have := hG q w.sh; rwa [hs] at this) fun x hx => nomatch hx
    have h2 := resolve_ok (G := G) h1.wf c
    exact h1.trans (h2.1.trans (ih1 h2.1.wf h2.2))

/-! ## Actions -/

/-- An action of code at depth `d`. -/
def ActOk (p : Compiled2 ι) (t : Bool) (d : Nat) : Act Nat → Prop
  | .rdVar _ _ l => l ≤ d
  | .wrVar _ _ l _ => l ≤ d
  | .rdFld _ l => l ≤ d
  | .wrFld _ l _ => l ≤ d
  | .incFld _ l => l ≤ d
  | .mkBlock true id => ∃ i m, Comes Meth.makes (p.code i).makes m ∧ m.id = id ∧ m.fits t (d + 1)
  | .mkBlock false id => ∃ i m, Comes Meth.makes (p.code i).makes m ∧ m.id = id ∧ m.fits false 0
  | .nlr l _ => t = true ∧ l = d
  | _ => True

theorem frameAt_some {w : St X Y} {l f : Nat} {x : Frame} (hl : w.level l = some f) (hx : w.frames[f]? = some x) : w.frameAt l = some (f, x) := by
  simp only [St.frameAt, hl, Option.bind_some, hx, Option.map_some]

theorem level_rooted {w : St X Y} {t : Bool} {d : Nat} (h : Rooted w.frames w.cur t d) : ∀ l, l ≤ d → ∃ f, w.level l = some f ∧ Rooted w.frames f t (d - l)
  | 0, _ => by
    refine ⟨w.cur, ?_, h⟩
    have : w.cur < w.frames.length := by
      cases h with
      | root _ _ x hx => exact (List.getElem?_eq_some_iff.mp hx).1
      | inner _ _ _ _ x hx => exact (List.getElem?_eq_some_iff.mp hx).1
    simp only [St.level, if_pos this]
  | l + 1, hl => by
    obtain ⟨f, h1, h2⟩ := level_rooted h l (by omega)
    obtain ⟨k, hk⟩ : ∃ k, d - l = k + 1 := ⟨d - l - 1, by omega⟩
    rw [hk] at h2
    generalize hkk : k + 1 = kk at h2
    cases h2 with
    | root => omega
    | inner _ g _ d' x hx hc hg =>
      obtain rfl : d' = k := by omega
      refine ⟨g, by simp only [St.level, h1, Option.bind_some, hx, hc], ?_⟩
      rw [show d - (l + 1) = d' by omega]
      exact hg

theorem rooted_frame {fs : List Frame} {f d : Nat} {t : Bool} (h : Rooted fs f t d) : ∃ x, fs[f]? = some x := by
  cases h with
  | root _ _ x hx => exact ⟨x, hx⟩
  | inner _ _ _ _ x hx => exact ⟨x, hx⟩

theorem frameAt_ok {w : St X Y} {t : Bool} {d : Nat} (h : Rooted w.frames w.cur t d) {l : Nat} (hl : l ≤ d) :
    ∃ f x, w.frameAt l = some (f, x) ∧ w.frames[f]? = some x ∧ Rooted w.frames f t (d - l) := by
  obtain ⟨f, h1, h2⟩ := level_rooted h l hl
  obtain ⟨x, hx⟩ := rooted_frame h2
  exact ⟨f, x, frameAt_some h1 hx, hx, h2⟩

theorem first_arg {w : St X Y} (hw : Wf p w) {f : Nat} {x : Frame} (hx : w.frames[f]? = some x) : ∃ v, x.args[0]? = some v := by
  have := (hw.frames f x hx).1
  cases ha : x.args with
  | nil => exact absurd ha this
  | cons v vs => exact ⟨v, rfl⟩

theorem selfAt_ok {w : St X Y} (hw : Wf p w) {t : Bool} {d : Nat} (h : Rooted w.frames w.cur t d) {l : Nat} (hl : l ≤ d) : ∃ v, w.selfAt l = some v := by
  obtain ⟨f, x, h1, h2, _⟩ := frameAt_ok h hl
  obtain ⟨v, hv⟩ := first_arg hw h2
  exact ⟨v, by simp only [St.selfAt, h1, Option.bind_some, hv]⟩

theorem outerSelf_ok {w : St X Y} (hw : Wf p w) : ∀ (n f : Nat), f < n → f < w.frames.length → ∃ v, w.outerSelf n f = some v
  | 0, _, h, _ => absurd h (Nat.not_lt_zero _)
  | n + 1, f, h, hl => by
    have hx : w.frames[f]? = some w.frames[f] := List.getElem?_eq_getElem hl
    simp only [St.outerSelf, hx]
    cases hc : (w.frames[f]).ctx with
    | none => exact first_arg hw hx
    | some g =>
      have := (hw.frames f _ hx).2 g hc
      exact outerSelf_ok hw n g (by omega) (by omega)

theorem Post.modify {w : St X Y} (hw : Wf p w) (n : Nat) (f : Frame → Frame) (hf : ∀ x, (f x).ctx = x.ctx ∧ (f x).home = x.home ∧ (f x).on = x.on ∧ (x.args ≠ [] → (f x).args ≠ [])) :
    Post p w none { w with frames := w.frames.modify n f } := by
  have hm : ∀ (g : Nat) (x : Frame), w.frames[g]? = some x → ∃ x', (w.frames.modify n f)[g]? = some x' ∧ x'.ctx = x.ctx ∧ x'.home = x.home ∧ x'.on = x.on := by
    intro g x hx
    simp only [List.getElem?_modify, hx, Option.map_eq_map, Option.map_some]
    split
    · exact ⟨_, rfl, (hf x).1, (hf x).2.1, (hf x).2.2.1⟩
    · exact ⟨_, rfl, rfl, rfl, rfl⟩
  refine ⟨⟨fun a id c hh hx => ?_, fun g x' hx => ?_⟩, ⟨rfl, hm, fun g x' hg hx => ?_⟩, fun _ h => nomatch h⟩
  · exact (hw.blocks a id c hh hx).keep fun g x hx => by
      obtain ⟨x', h1, h2, h3, _⟩ := hm g x hx
      exact ⟨x', h1, h2, h3⟩
  · simp only [List.getElem?_modify] at hx
    cases h0 : w.frames[g]? with
    | none => rw [h0] at hx; cases hx
    | some x =>
      rw [h0] at hx
      simp only [Option.map_eq_map, Option.map_some, Option.some.injEq] at hx
      have := hw.frames g x h0
      split at hx
      · subst hx; rw [(hf x).1]; exact ⟨(hf x).2.2.2 this.1, this.2⟩
      · subst hx; exact this
  · have := (List.getElem?_eq_some_iff.mp hx).1
    simp only [List.length_modify] at this
    omega

/-- Actions that need no call, and the states in which calls are made. -/
theorem plan_ok (hdist : Distinct Meth.makes Meth.id p.code Code.makes) {K : Incs X Y} (hK : K.Tame) {w : St X Y} (hw : Wf p w) {t : Bool} {d : Nat} (hr : Rooted w.frames w.cur t d) {a : Act Nat} (ha : ActOk p t d a) :
    match G.plan K w a with
    | .inl x => Post p w (escOf x.1) x.2
    | .inr x => x.2 = w := by
  have same : ∀ {e : Option Esc}, (∀ x, e = some x → EscOk w x) → Post p w e w := fun he => .same hw he
  have err : ∀ e : Err, Post p w (escOf (raised w e).1) (raised w e).2 := fun e => same fun x hx => by cases hx; trivial
  have sh : ∀ (x : Shared X Y × Except Err Val), Kept w.sh x.1 → Post p w (escOf (w.shared x).1) (w.shared x).2 := by
    rintro ⟨s, o⟩ hs
    cases o with
    | ok v => exact .ofShared hw hs fun x hx => nomatch hx
    | error e => exact .ofShared hw hs fun x hx => by cases hx; trivial
  have rdVar : ∀ (a : Bool) (i l : Nat), l ≤ d → Post p w (escOf (w.rdVar a i l).1) (w.rdVar a i l).2 := by
    intro a i l hl
    obtain ⟨f, x, h1, _⟩ := frameAt_ok hr hl
    simp only [St.rdVar, h1]
    cases a with
    | false => exact same fun x hx => nomatch hx
    | true =>
      simp only [if_true]
      cases x.args[i]? with
      | none => exact err _
      | some v => exact same fun x hx => nomatch hx
  obtain ⟨xc, hxc⟩ := rooted_frame hr
  cases a with
  | rdVar a i l => exact rdVar a i l ha
  | self => exact rdVar true 0 0 (Nat.zero_le _)
  | wrVar a i l v =>
    obtain ⟨f, x, h1, _⟩ := frameAt_ok hr (l := l) ha
    simp only [Prog.plan, St.wrVar, h1]
    refine .modify hw f _ fun y => ?_
    cases a with
    | false => exact ⟨rfl, rfl, rfl, fun h => h⟩
    | true => exact ⟨rfl, rfl, rfl, fun h => by simpa using h⟩
  | rdFld i l =>
    obtain ⟨v, hv⟩ := selfAt_ok hw hr (l := l) ha
    simp only [Prog.plan, St.rdFld, hv]
    cases v with
    | obj a =>
      dsimp only
      cases ho : w.sh.objs[a]? with
      | none => exact err _
      | some o =>
        cases o with
        | inst c fs =>
          dsimp only
          cases fs[i]? with
          | none => exact err _
          | some v => exact same fun x hx => nomatch hx
        | _ => exact err _
    | _ => exact err _
  | wrFld i l u =>
    obtain ⟨v, hv⟩ := selfAt_ok hw hr (l := l) ha
    simp only [Prog.plan, St.wrFld, hv]
    cases v with
    | obj a =>
      dsimp only
      cases ho : w.sh.objs[a]? with
      | none => exact err _
      | some o =>
        cases o with
        | inst c fs =>
          dsimp only
          split
          · exact .ofShared hw (kept_set (fun _ _ _ => by simp)) fun x hx => nomatch hx
          · exact err _
        | _ => exact err _
    | _ => exact err _
  | incFld i l =>
    obtain ⟨v, hv⟩ := selfAt_ok hw hr (l := l) ha
    simp only [Prog.plan, hv]
    cases v with
    | obj a => exact sh _ (hK.2.2 a i w.sh)
    | _ => exact err _
  | glob g =>
    simp only [Prog.plan]
    cases w.sh.globals g with
    | some v => exact same fun x hx => nomatch hx
    | none =>
      have hl := (List.getElem?_eq_some_iff.mp hxc).1
      obtain ⟨v, hv⟩ := outerSelf_ok hw w.frames.length w.cur hl hl
      simp only [hv]
  | mkBlock c id =>
    simp only [Prog.plan, hxc]
    have uniq : ∀ {m : Meth}, (∃ i, Comes Meth.makes (p.code i).makes m) → m.id = id → ∀ i' m', Comes Meth.makes (p.code i').makes m' → m'.id = id → m' = m :=
      fun ⟨i, hm⟩ he i' m' hm' he' => hdist i' i m' _ hm' hm (he'.trans he.symm)
    have hblk : BlockOk p w.frames id (if c then some w.cur else none) := by
      cases c with
      | true =>
        obtain ⟨i, m, hm, he, hf⟩ := ha
        intro i' m' hm' he'
        rw [uniq ⟨i, hm⟩ he i' m' hm' he']
        exact ⟨t, d, hr, hf⟩
      | false =>
        obtain ⟨i, m, hm, he, hf⟩ := ha
        intro i' m' hm' he'
        rw [uniq ⟨i, hm⟩ he i' m' hm' he']
        exact hf
    refine ⟨⟨fun a id' ctx h hx => ?_, hw.frames⟩, ⟨rfl, fun _ x h => ⟨x, h, rfl, rfl, rfl⟩, (Keeps.refl w).new⟩, fun x hx => nomatch hx⟩
    dsimp only at hx ⊢
    rw [List.getElem?_append] at hx
    split at hx
    · exact hw.blocks a id' ctx h hx
    · cases hk : a - w.sh.objs.length with
      | zero =>
        rw [hk] at hx
        simp only [List.getElem?_cons_zero, Option.some.injEq, Obj.block.injEq] at hx
        obtain ⟨rfl, rfl, _⟩ := hx
        exact hblk
      | succ k => rw [hk] at hx; simp at hx
  | send sel vs => rfl
  | superSend sel vs => simp only [Prog.plan, hxc]
  | inc v => exact sh _ (hK.1 v w.sh)
  | dec v => exact sh _ (hK.2.1 v w.sh)
  | nlr l v =>
    obtain ⟨ht, rfl⟩ := ha
    obtain ⟨f, x, h1, h2, h3⟩ := frameAt_ok hr (l := l) (Nat.le_refl _)
    obtain ⟨f0, x0, g1, g2, g3⟩ := frameAt_ok hr (l := 0) (Nat.zero_le _)
    obtain ⟨a1, ha1⟩ := first_arg hw h2
    obtain ⟨a0, ha0⟩ := first_arg hw g2
    simp only [Prog.plan, h1, g1, ha1, ha0]
    by_cases hon : x.on = true
    · rw [if_pos hon]
      refine same fun y hy => ?_
      cases hy
      refine ⟨x, h2, hon, ?_⟩
      rw [Nat.sub_self] at h3
      generalize hz : 0 = z at h3
      cases h3 with
      | root _ _ x' hx' hc' hh' => rw [h2] at hx'; cases hx'; exact hh' ht
      | inner => cases hz
    · rw [if_neg hon]

/-- Actions preserve the invariant. -/
def ActsOk (p : Compiled2 ι) (A : World Nat (St X Y) Esc) : Prop :=
  ∀ (t : Bool) (d : Nat) (a : Act Nat) (w : St X Y) (r : Res Esc) (w' : St X Y), Wf p w → Rooted w.frames w.cur t d → ActOk p t d a → A a w r w' → Post p w (escOf r) w'

theorem world_ok (hdist : Distinct Meth.makes Meth.id p.code Code.makes) (hG : Tame G) {K : Incs X Y} (hK : K.Tame) {b : Behaviour ι (St X Y) Esc} (hb : BehOk G p b) : ActsOk p (G.world K b) := by
  intro t d a w r w' hw hr ha h
  have hp := plan_ok (G := G) hdist hK hw hr ha
  unfold Prog.world at h
  split at hp
  · rename_i x hx
    rw [hx] at h
    obtain ⟨rfl, rfl⟩ := h
    exact hp
  · rename_i x hx
    rw [hx] at h
    dsimp only at h
    rw [hp] at h
    have h2 := resolve_ok (G := G) hw x.1
    exact h2.1.trans (h.ok hG hb h2.1.wf h2.2)

/-- The same for code that does several actions. -/
def RelOk (p : Compiled2 ι) (t : Bool) (d : Nat) (R : Src.Rel (St X Y) Esc) : Prop :=
  ∀ (w : St X Y) (r : Src.Res Esc) (w' : St X Y), Wf p w → Rooted w.frames w.cur t d → R w r w' → Post p w (escSrc r) w'

theorem Post.rooted {w w' : St X Y} {e : Option Esc} (h : Post p w e w') {t : Bool} {d : Nat} (hr : Rooted w.frames w.cur t d) : Rooted w'.frames w'.cur t d := by
  rw [h.keeps.cur]
  exact hr.keep h.keeps.shape

theorem RelOk.act {A : World Nat (St X Y) Esc} (hA : ActsOk p A) {t : Bool} {d : Nat} {a : Act Nat} (ha : ActOk p t d a) : RelOk p t d (Src.act A a) := by
  intro w r w' hw hr h
  rcases h with ⟨v, rfl, h⟩ | ⟨e, rfl, h⟩
  · exact hA t d a w _ w' hw hr ha h
  · exact hA t d a w _ w' hw hr ha h

theorem RelOk.pure (t : Bool) (d : Nat) (v : Val) : RelOk p t d (Src.pure v : Src.Rel (St X Y) Esc) := by
  rintro w r w' hw hr ⟨rfl, rfl⟩
  exact .same hw fun _ h => nomatch h

theorem RelOk.answer (t : Bool) (d : Nat) (v : Val) : RelOk p t d (Src.answer v : Src.Rel (St X Y) Esc) := by
  rintro w r w' hw hr ⟨rfl, rfl⟩
  exact .same hw fun _ h => nomatch h

theorem RelOk.bind {t : Bool} {d : Nat} {R : Src.Rel (St X Y) Esc} {k : Val → Src.Rel (St X Y) Esc} (h1 : RelOk p t d R) (h2 : ∀ v, RelOk p t d (k v)) : RelOk p t d (Src.bind R k) := by
  intro w r w' hw hr h
  rcases h with ⟨v, w1, ha, hb⟩ | ⟨ha, _⟩
  · have := h1 w _ w1 hw hr ha
    exact this.value.trans (h2 v w1 r w' this.wf (this.rooted hr) hb)
  · exact h1 w r w' hw hr ha

theorem ideal_ok (hdist : Distinct Meth.makes Meth.id p.code Code.makes) (hG : Tame G) {K : Incs X Y} (hK : K.Tame) (D : Prop) {b : Behaviour ι (St X Y) Esc} (hb : BehOk G p b) : ActsOk p (G.ideal D K b) := by
  have hA := world_ok hdist hG hK hb
  intro t d a w r w' hw hr ha h
  cases a with
  | inc v => exact hA t d (.send "+".toList [v, .int 1]) w r w' hw hr trivial h
  | dec v =>
    simp only [Prog.ideal] at h
    split at h
    · exact hA t d (.send "-".toList [v, .int 1]) w r w' hw hr trivial h
    · exact hA t d (.dec v) w r w' hw hr trivial h
  | incFld i l =>
    have := RelOk.bind (RelOk.act hA (a := .rdFld i l) ha) (fun v => RelOk.bind (RelOk.act hA (a := .send "+".toList [v, .int 1]) trivial) fun u =>
      RelOk.bind (RelOk.act hA (a := .wrFld i l u) ha) fun _ => RelOk.pure t d u) w (toSrc r) w' hw hr h
    cases r with
    | val v => exact this
    | exc e => exact this
  | _ => exact hA t d _ w r w' hw hr ha h

/-! ## Code -/

def escOut : Out (St X Y) Esc → Option Esc
  | .exc e _ => some e
  | _ => none

def stOut : Out (St X Y) Esc → St X Y
  | .ok _ w => w
  | .ret _ w => w
  | .exc _ w => w

/-- Instructions that fit, and create blocks of the program. -/
def InsFits (p : Compiled2 ι) (t : Bool) (d : Nat) (i : Ins Meth) : Prop := i.fits t d ∧ ∀ c m, i = .pushBlock c m → ∃ j, Comes Meth.makes (p.code j).makes m

theorem eff_ok {t : Bool} {d : Nat} {i : Ins Meth} (hi : InsFits p t d i) {s : List Val} {a : Act Meth} {n : Next} (h : i.eff s = .act a n) : ActOk p t d (a.map Meth.id) := by
  obtain ⟨hf, hc⟩ := hi
  cases i with
  | pushVar x i l => simp only [Ins.eff, Eff.act.injEq] at h; obtain ⟨rfl, _⟩ := h; simp only [Ins.fits] at hf; exact hf
  | popVar x i l => cases s <;> simp only [Ins.eff, Eff.act.injEq, reduceCtorEq] at h; obtain ⟨rfl, _⟩ := h; simp only [Ins.fits] at hf; exact hf
  | pushFld i l => simp only [Ins.eff, Eff.act.injEq] at h; obtain ⟨rfl, _⟩ := h; simp only [Ins.fits] at hf; exact hf
  | popFld i l => cases s <;> simp only [Ins.eff, Eff.act.injEq, reduceCtorEq] at h; obtain ⟨rfl, _⟩ := h; simp only [Ins.fits] at hf; exact hf
  | incFld i l => simp only [Ins.eff, Eff.act.injEq] at h; obtain ⟨rfl, _⟩ := h; simp only [Ins.fits] at hf; exact hf
  | incFldPush i l => simp only [Ins.eff, Eff.act.injEq] at h; obtain ⟨rfl, _⟩ := h; simp only [Ins.fits] at hf; exact hf
  | pushBlock c m =>
    simp only [Ins.eff, Eff.act.injEq] at h
    obtain ⟨rfl, _⟩ := h
    obtain ⟨j, hj⟩ := hc c m rfl
    cases c with
    | true => exact ⟨j, m, hj, rfl, by simp only [Ins.fits] at hf; exact hf⟩
    | false => exact ⟨j, m, hj, rfl, by simp only [Ins.fits] at hf; exact hf⟩
  | retNonLocal l => cases s <;> simp only [Ins.eff, Eff.act.injEq, reduceCtorEq] at h; obtain ⟨rfl, _⟩ := h; simp only [Ins.fits] at hf; exact hf
  | dup => cases s <;> simp only [Ins.eff, reduceCtorEq] at h
  | pop => cases s <;> simp only [Ins.eff, reduceCtorEq] at h
  | pushConst v => simp only [Ins.eff, reduceCtorEq] at h
  | pushGlobal g => simp only [Ins.eff, Eff.act.injEq] at h; obtain ⟨rfl, _⟩ := h; trivial
  | send sel k =>
    simp only [Ins.eff] at h
    split at h
    · simp only [Eff.act.injEq] at h; obtain ⟨rfl, _⟩ := h; trivial
    · cases h
  | superSend sel k =>
    simp only [Ins.eff] at h
    split at h
    · simp only [Eff.act.injEq] at h; obtain ⟨rfl, _⟩ := h; trivial
    · cases h
  | retLocal => cases s <;> simp only [Ins.eff, reduceCtorEq] at h
  | retSelf => simp only [Ins.eff, Eff.act.injEq] at h; obtain ⟨rfl, _⟩ := h; trivial
  | retFld i => simp only [Ins.eff, Eff.act.injEq] at h; obtain ⟨rfl, _⟩ := h; exact Nat.zero_le d
  | inc => cases s <;> simp only [Ins.eff, Eff.act.injEq, reduceCtorEq] at h; obtain ⟨rfl, _⟩ := h; trivial
  | dec => cases s <;> simp only [Ins.eff, Eff.act.injEq, reduceCtorEq] at h; obtain ⟨rfl, _⟩ := h; trivial

theorem insEval_ok {A : World Nat (St X Y) Esc} (hA : ActsOk p A) {t : Bool} {d : Nat} {i : Ins Meth} (hi : InsFits p t d i) {s : List Val} {w : St X Y} {o : Out (St X Y) Esc}
    (hw : Wf p w) (hr : Rooted w.frames w.cur t d) (h : InsEval (onMeth A) i s w o) : Post p w (escOut o) (stOut o) := by
  cases h with
  | pure s' h => exact .same hw fun _ h => nomatch h
  | ret v h => exact .same hw fun _ h => nomatch h
  | act a n v w' h ha =>
    have := hA t d _ w _ w' hw hr (eff_ok hi h) ha
    cases n <;> exact this
  | raise a n e w' h ha => exact hA t d _ w _ w' hw hr (eff_ok hi h) ha

theorem seval_ok {A : World Nat (St X Y) Esc} (hA : ActsOk p A) {t : Bool} {d : Nat} {c : SC Meth} {s : List Val} {w : St X Y} {o : Out (St X Y) Esc} (h : SEval (onMeth A) c s w o) :
    (∀ i ∈ c.instrs, InsFits p t d i) → Wf p w → Rooted w.frames w.cur t d → Post p w (escOut o) (stOut o) := by
  have stop : ∀ (o : Out (St X Y) Esc), True := fun _ => trivial
  induction h with
  | nop s w => intro _ hw _; exact .same hw fun _ h => nomatch h
  | ins i s w o h => intro hi hw hr; exact insEval_ok hA (hi i (List.mem_singleton.mpr rfl)) hw hr h
  | seq a b s s' w w' o _ _ ih1 ih2 =>
    intro hi hw hr
    have h1 := ih1 (fun i h => hi i (List.mem_append_left _ h)) hw hr
    exact h1.trans (ih2 (fun i h => hi i (List.mem_append_right _ h)) h1.wf (h1.rooted hr))
  | seqStop a b s w o ho _ ih => intro hi hw hr; exact ih (fun i h => hi i (List.mem_append_left _ h)) hw hr
  | thenJump c body v s w hc => intro _ hw _; exact .same hw fun _ h => nomatch h
  | thenBody c body v s w o hc _ ih => intro hi hw hr; exact ih hi hw hr
  | ifFirst c a b v s w o hc _ ih => intro hi hw hr; exact ih (fun i h => hi i (List.mem_append_left _ h)) hw hr
  | ifSecond c a b v s w o hc _ ih => intro hi hw hr; exact ih (fun i h => hi i (List.mem_append_right _ h)) hw hr
  | loopExit c cond body v s s' w w' _ hc ih => intro hi hw hr; exact ih (fun i h => hi i (List.mem_append_left _ h)) hw hr
  | loopCondStop c cond body s w o ho _ ih => intro hi hw hr; exact ih (fun i h => hi i (List.mem_append_left _ h)) hw hr
  | loopBodyStop c cond body v s s' w w' o ho _ hc _ ih1 ih2 =>
    intro hi hw hr
    have h1 := ih1 (fun i h => hi i (List.mem_append_left _ h)) hw hr
    exact h1.trans (ih2 (fun i h => hi i (List.mem_append_right _ h)) h1.wf (h1.rooted hr))
  | loopNext c cond body v s s' s'' w w' w'' o _ hc _ _ ih1 ih2 ih3 =>
    intro hi hw hr
    have h1 := ih1 (fun i h => hi i (List.mem_append_left _ h)) hw hr
    have h2 := h1.trans (ih2 (fun i h => hi i (List.mem_append_right _ h)) h1.wf (h1.rooted hr))
    exact h2.trans (ih3 hi h2.wf (h2.rooted hr))

/-! ## Programs -/

theorem bcOk_distinct {known : Sel → Bool} {n : Nat} (hp : p.BcOk known n) (ha : Apart p) : Distinct Meth.makes Meth.id p.code Code.makes := by
  have key : ∀ i, _ := fun i => (hp.code i).elim fun g hg => method_ids (hp.wf i) hg.1 hg.2
  exact distinct_of meth_collects (src := fun i => (p.src i).body.sids) (fun i => (key i).1) (fun i => (hp.wf i).ids) ha fun i => (key i).2

theorem comes_sound {known : Sel → Bool} {n : Nat} (hp : p.BcOk known n) {i : ι} {m : Meth} (h : Comes Meth.makes (p.code i).makes m) :
    ∃ l, Sound l m := by
  obtain ⟨g, hg, hC⟩ := hp.code i
  exact (comes_id meth_collects (method_ids (hp.wf i) hg hC).2 h).1

/-- What is needed of a system. -/
def SysOk (G : Prog ι X Y P) (p : Compiled2 ι) (Φ : System ι (St X Y) Esc) : Prop := ∀ b, BehOk G p b → ActsOk p (Φ b).1

theorem behaviour_ok {known : Sel → Bool} {n : Nat} (hp : p.BcOk known n) (hk : ∀ i, Known (p.src i).accesses)
    (hcatch : ∀ i, (p.src i).body.throws false = true → G.catches i = true) {Φ : System ι (St X Y) Esc} (hΦ : SysOk G p Φ) (k : Nat) : BehOk G p (bcBehaviour p Φ k) := by
  induction k with
  | zero => exact ⟨fun _ _ _ _ _ _ _ _ h => h.elim, fun _ _ _ _ _ _ _ _ _ _ h => h.elim⟩
  | succ k ih =>
    have hA := hΦ _ ih
    refine ⟨fun i w vs h r w' hw hv hrun => ?_, fun id w vs ctx h r w' hw hv hb hrun => ?_⟩
    · obtain ⟨g, hg, hC⟩ := hp.code i
      obtain ⟨c, hf1, hf2, hmk, hse⟩ := method_fits (hp.wf i) hg hC (hk i)
      have hw1 : Wf p (w.push vs none h (G.catches i)) := hw.push hv fun g e => nomatch e
      have hfit : c.fits (G.catches i) 0 := by
        cases hcc : G.catches i with
        | true => exact hf1
        | false =>
          refine hf2 ?_
          cases ht : (p.src i).body.throws false with
          | false => rfl
          | true => rw [hcatch i ht] at hcc; cases hcc
      have hroot : Rooted (w.push vs none h (G.catches i)).frames (w.push vs none h (G.catches i)).cur (G.catches i) 0 := .root _ _ _ push_new rfl fun h => h
      have hins : ∀ x ∈ c.instrs, InsFits p (G.catches i) 0 x := fun x hx => ⟨SC.fits_ins c hfit x hx, fun cc m e => ⟨i, .here cc m (by rw [hmk]; exact SC.mem_blks.mpr (e ▸ hx))⟩⟩
      rcases hse _ _ _ _ _ _ hrun with ⟨v, rfl, he⟩ | ⟨e, rfl, he⟩
      · exact seval_ok hA he hins hw1 hroot
      · exact seval_ok hA he hins hw1 hroot
    · obtain ⟨i, m, hm, rfl, hrun⟩ := hrun
      have hfit := hb i m hm rfl
      obtain ⟨l, hs⟩ := comes_sound hp hm
      -- the depth
      obtain ⟨t, d, hroot, hf⟩ : ∃ t d, Rooted (w.push vs ctx h false).frames (w.push vs ctx h false).cur t d ∧ m.fits t d := by
        cases ctx with
        | none => exact ⟨false, 0, .root _ _ _ push_new rfl (fun h => nomatch h), hfit⟩
        | some g =>
          obtain ⟨t, d, hg, hf⟩ := hfit
          exact ⟨t, d + 1, .inner _ g _ _ _ push_new rfl (hg.keep fun f x hx => ⟨x, push_shape f x hx, rfl, rfl⟩), hf⟩
      have hw1 : Wf p (w.push vs ctx h false) := hw.push hv fun g e => by
        subst e
        obtain ⟨t, d, hg, _⟩ := hfit
        obtain ⟨x, hx⟩ := rooted_frame hg
        exact (List.getElem?_eq_some_iff.mp hx).1
      cases m with
      | triv id x =>
        simp only [Meth.fits] at hf
        have hA' : ∀ {a : Act Meth}, ActOk p t d (a.map Meth.id) → RelOk p t d (Src.act (onMeth (Φ (bcBehaviour p Φ k)).1) a) := by
          intro a ha w r w' hw hr h
          rcases h with ⟨v, rfl, h⟩ | ⟨e, rfl, h⟩
          · exact hA t d _ w _ w' hw hr ha h
          · exact hA t d _ w _ w' hw hr ha h
        have : RelOk p t d ((Meth.triv id x).run (onMeth (Φ (bcBehaviour p Φ k)).1)) := by
          cases x with
          | lit v => cases v with
            | val v => exact .answer t d v
            | meth m => exact fun w r w' _ _ h => h.elim
          | glob s q => exact .bind (hA' (a := .glob s) trivial) fun v => .answer t d v
          | fldRead i l => exact .bind (hA' (a := .rdFld i l) hf) fun v => .answer t d v
          | fldWrite i j => exact .bind (hA' (a := .rdVar true j 0) (Nat.zero_le d)) fun v => .bind (hA' (a := .wrFld i 0 v) (Nat.zero_le d)) fun _ => .bind (hA' (a := .self) trivial) fun v => .answer t d v
        exact this _ _ _ hw1 hroot hrun
      | bc id lits bytes loops args locals stack code =>
        have hmk := Meth.makes_code hs
        simp only [Meth.fits] at hf
        have hins : ∀ x ∈ code.instrs, InsFits p t d x := fun x hx => ⟨SC.fits_ins code hf x hx, fun cc m e => ⟨i, .deeper _ cc m hm (by rw [hmk]; exact SC.mem_blks.mpr (e ▸ hx))⟩⟩
        cases hs with
        | bc _ _ _ _ _ _ _ _ _ enc ty std size small ends ins ids inner closed =>
          rcases run_seval (C := ⟨lits, bytes, stack⟩) enc (ty 0) size (returns_of_ends code ends) hrun with ⟨v, rfl, he⟩ | ⟨e, rfl, he⟩
          · exact seval_ok hA he hins hw1 hroot
          · exact seval_ok hA he hins hw1 hroot

end
end PySOM.Mach

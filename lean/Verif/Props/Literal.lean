import Verif.Spec.Literal
import Verif.Props.Source
import Verif.Props.Array
/-!
# C46: literal arrays
-/
set_option autoImplicit false
namespace PySOM.BC
open PySOM

section
variable {M V E : Type} {conv : Val → Arr.Val} {ref : Nat → Val}

mutual
theorem IsLit.mono {h h' : Arr.Spec.Arrays} : ∀ (l : LitT) {v : Val} {S : List Nat}, IsLit conv ref h l v S → (∀ a ∈ S, h'[a]? = h[a]?) → IsLit conv ref h' l v S
  | .val u, v, S, hl, _ => by simp only [IsLit] at hl ⊢; exact hl
  | .arr es, v, S, hl, hs => by
    simp only [IsLit] at hl ⊢
    obtain ⟨a, xs, S', rfl, rfl, hx, hes⟩ := hl
    exact ⟨a, xs, S', rfl, rfl, (hs a List.mem_cons_self).trans hx, hes.mono es fun b hb => hs b (List.mem_cons_of_mem _ hb)⟩
theorem AreLits.mono {h h' : Arr.Spec.Arrays} : ∀ (es : LitTs) {xs : List Arr.Val} {S : List Nat}, AreLits conv ref h es xs S → (∀ a ∈ S, h'[a]? = h[a]?) →
    AreLits conv ref h' es xs S
  | .nil, xs, S, hl, _ => by simp only [AreLits] at hl ⊢; exact hl
  | .cons e es, xs, S, hl, hs => by
    simp only [AreLits] at hl ⊢
    obtain ⟨v, rest, S1, S2, rfl, rfl, h1, h2⟩ := hl
    exact ⟨v, rest, S1, S2, rfl, rfl, h1.mono e fun b hb => hs b (List.mem_append_left _ hb), h2.mono es fun b hb => hs b (List.mem_append_right _ hb)⟩
end

theorem bind_val {p : Src.Rel (Arr.Heap × V) E} {k : Val → Src.Rel (Arr.Heap × V) E} {w w1 : Arr.Heap × V} {v : Val}
    (hp : ∀ r w', p w r w' ↔ r = .val v ∧ w' = w1) (r : Src.Res E) (w' : Arr.Heap × V) : Src.bind p k w r w' ↔ k v w1 r w' := by
  constructor
  · rintro (⟨u, w2, h1, h2⟩ | ⟨h1, h2⟩)
    · obtain ⟨h3, rfl⟩ := (hp _ _).mp h1
      cases h3; exact h2
    · obtain ⟨rfl, _⟩ := (hp _ _).mp h1
      exact h2.elim
  · intro h
    exact .inl ⟨v, w1, (hp _ _).mpr ⟨rfl, rfl⟩, h⟩

theorem act_val {A : World M (Arr.Heap × V) E} {a : Act M} {w w1 : Arr.Heap × V} {v : Val}
    (h : ∀ r w', A a w r w' ↔ r = .val v ∧ w' = w1) (r : Src.Res E) (w' : Arr.Heap × V) : Src.act A a w r w' ↔ r = .val v ∧ w' = w1 := by
  constructor
  · rintro (⟨u, rfl, h1⟩ | ⟨e, rfl, h1⟩)
    · obtain ⟨h2, h3⟩ := (h _ _).mp h1
      cases h2; exact ⟨rfl, h3⟩
    · obtain ⟨h2, _⟩ := (h _ _).mp h1
      cases h2
  · rintro ⟨rfl, rfl⟩
    exact .inl ⟨v, rfl, (h _ _).mpr ⟨rfl, rfl⟩⟩

theorem put_fill {h : Arr.Heap} (hi : Arr.HInv h) {a k : Nat} {done : List Arr.Val} (ha : h.abs[a]? = some (done ++ List.replicate (k + 1) Arr.Val.nil))
    {v : Arr.Val} (hv : v.isSom = true) :
    Arr.HInv (h.step (.put a ((done.length + 1 : Nat) : Int) v)).1 ∧ (h.step (.put a ((done.length + 1 : Nat) : Int) v)).2 = .unit ∧
    (h.step (.put a ((done.length + 1 : Nat) : Int) v)).1.abs = h.abs.set a ((done ++ [v]) ++ List.replicate k Arr.Val.nil) := by
  obtain ⟨h1, h2⟩ := Arr.step_spec hi (op := .put a ((done.length + 1 : Nat) : Int) v) ⟨by omega, hv⟩ (by intro vs h; cases h)
  refine ⟨h1, ?_⟩
  rcases h2 with h2 | ⟨⟨xs, hx, hr⟩, _⟩
  · simp only [Arr.Spec.step, ha] at h2
    rw [if_pos (by simp; omega)] at h2
    have e1 := congrArg Prod.fst h2
    have e2 := congrArg Prod.snd h2
    refine ⟨e2, e1.trans ?_⟩
    show h.abs.set a _ = _
    congr 1
    rw [show ((((done.length + 1 : Nat) : Int) - 1).toNat) = done.length by omega, List.set_append_right _ _ (Nat.le_refl _)]
    simp [List.replicate_succ]
  · rw [ha] at hx
    cases hx
    rcases hr with ⟨h, _⟩ | ⟨h, _⟩ <;> simp [Arr.Spec.isDbl, Arr.Spec.isBool] at h

/-- What evaluating a literal does in state `h`. -/
structure Made (h h' : Arr.Heap) (S : List Nat) : Prop where
  inv : Arr.HInv h'
  nodup : S.Nodup
  range : ∀ a ∈ S, h.abs.length ≤ a ∧ a < h'.abs.length
  le : h.abs.length ≤ h'.abs.length

mutual
theorem lit_made {A : World M (Arr.Heap × V) E} {err : Err → E} {cls : Val} (hA : HasArrays conv ref A err cls) :
    ∀ (l : LitT) (h : Arr.Heap) (x : V), Arr.HInv h → l.plain conv →
      ∃ v h' S, (∀ r w', Src.lit A l (h, x) r w' ↔ r = .val v ∧ w' = (h', x)) ∧ Made h h' S ∧ IsLit conv ref h'.abs l v S ∧ (conv v).isSom = true ∧
        ∀ a : Nat, a < h.abs.length → h'.abs[a]? = h.abs[a]?
  | .val u, h, x, hi, hp => by
    refine ⟨u, h, [], ?_, ⟨hi, List.nodup_nil, (by intro a ha; cases ha), Nat.le_refl _⟩, ?_, hp.1, fun _ _ => rfl⟩
    · intro r w'; simp only [Src.lit, Src.pure]
    · simp only [IsLit, and_self]
  | .arr es, h, x, hi, hp => by
    have hnew := Arr.alloc_spec hi (s := .empty es.length) (by show (0 : Int) ≤ _; omega)
    have hab : (h.alloc (.empty es.length)).1.abs = h.abs ++ [List.replicate es.length Arr.Val.nil] := by
      rw [hnew.2.1]
      show _ ++ [List.replicate (es.length : Int).toNat Arr.Val.nil] = _
      rw [Int.toNat_natCast]
    have hget : (h.alloc (.empty es.length)).1.abs[h.abs.length]? = some ([] ++ List.replicate es.length Arr.Val.nil) := by
      rw [hab, List.getElem?_append_right (Nat.le_refl _)]; simp
    obtain ⟨h', S, rest, hf, hm, hr, hl, hs⟩ := fill_made hA es (h.alloc (.empty es.length)).1 x h.abs.length [] hnew.1 hp hget
    have hlen : (h.alloc (.empty es.length)).1.abs.length = h.abs.length + 1 := by rw [hab]; simp
    have hsame : ∀ a : Nat, a < h.abs.length → h'.abs[a]? = h.abs[a]? := by
      intro a ha
      rw [hs a (by omega) (by omega), hab, List.getElem?_append_left ha]
    refine ⟨ref h.abs.length, h', h.abs.length :: S, ?_, ⟨hm.inv, ?_, ?_, ?_⟩, ?_, hA.som _, hsame⟩
    · intro r w'
      simp only [Src.lit]
      rw [bind_val (act_val (hA.glob (h, x))) r w']
      rw [bind_val (v := ref h.abs.length) (w1 := ((h.alloc (.empty es.length)).1, x)) (act_val ?_) r w']
      · exact hf r w'
      · intro r w'
        rw [hA.new]
        constructor
        · rintro ⟨a, h1, rfl, rfl⟩
          rw [show (h.step (.new es.length)).2 = _ from hnew.2.2] at h1
          cases h1; exact ⟨rfl, rfl⟩
        · rintro ⟨rfl, rfl⟩
          exact ⟨_, hnew.2.2, rfl, rfl⟩
    · refine List.nodup_cons.mpr ⟨fun hc => ?_, hm.nodup⟩
      have := (hm.range _ hc).1
      omega
    · intro a ha
      have := hm.le
      rcases List.mem_cons.mp ha with rfl | ha
      · omega
      · have := hm.range a ha
        omega
    · have := hm.le
      omega
    · simp only [IsLit]
      exact ⟨_, _, S, rfl, rfl, hr, hl⟩
theorem fill_made {A : World M (Arr.Heap × V) E} {err : Err → E} {cls : Val} (hA : HasArrays conv ref A err cls) :
    ∀ (es : LitTs) (h : Arr.Heap) (x : V) (a : Nat) (done : List Arr.Val), Arr.HInv h → es.plain conv →
      h.abs[a]? = some (done ++ List.replicate es.length Arr.Val.nil) →
      ∃ h' S rest, (∀ r w', Src.fill A es (done.length + 1) (ref a) (h, x) r w' ↔ r = .val (ref a) ∧ w' = (h', x)) ∧ Made h h' S ∧
        h'.abs[a]? = some (done ++ rest) ∧ AreLits conv ref h'.abs es rest S ∧ ∀ b : Nat, b < h.abs.length → b ≠ a → h'.abs[b]? = h.abs[b]?
  | .nil, h, x, a, done, hi, hp, ha => by
    refine ⟨h, [], [], ?_, ⟨hi, List.nodup_nil, (by intro a ha; cases ha), Nat.le_refl _⟩, ?_, ?_, fun _ _ _ => rfl⟩
    · intro r w'; simp only [Src.fill, Src.pure]
    · simpa [LitTs.length] using ha
    · simp only [AreLits, and_self]
  | .cons e es, h, x, a, done, hi, hp, ha => by
    obtain ⟨v, h1, S1, hl1, hm1, hi1, hv, hs1⟩ := lit_made hA e h x hi hp.1
    have halt : a < h.abs.length := Arr.getElem?_lt ha
    have ha1 : h1.abs[a]? = some (done ++ List.replicate (es.length + 1) Arr.Val.nil) := (hs1 a halt).trans ha
    obtain ⟨hi2, hu, hab2⟩ := put_fill hm1.inv ha1 hv
    generalize hh2 : (h1.step (.put a ((done.length + 1 : Nat) : Int) (conv v))).1 = h2 at hi2 hab2
    have hle1 := hm1.le
    have ha2 : h2.abs[a]? = some ((done ++ [conv v]) ++ List.replicate es.length Arr.Val.nil) := by
      rw [hab2, List.getElem?_set_self (by omega)]
    have hlen2 : h2.abs.length = h1.abs.length := by rw [hab2, List.length_set]
    obtain ⟨h3, S2, rest, hf, hm3, hr, hl3, hs3⟩ := fill_made hA es h2 x a (done ++ [conv v]) hi2 hp.2 ha2
    have hle3 := hm3.le
    refine ⟨h3, S1 ++ S2, conv v :: rest, ?_, ⟨hm3.inv, ?_, ?_, by omega⟩, ?_, ?_, ?_⟩
    · intro r w'
      simp only [Src.fill]
      rw [bind_val hl1 r w']
      rw [bind_val (v := ref a) (w1 := (h2, x)) (act_val ?_) r w']
      · rw [← hf r w']; simp
      · intro r w'
        rw [hA.put]
        dsimp only
        rw [hu, hh2]
        constructor
        · rintro ⟨rfl, ⟨_, rfl⟩ | ⟨e, he, _⟩⟩
          · exact ⟨rfl, rfl⟩
          · cases he
        · rintro ⟨rfl, rfl⟩
          exact ⟨rfl, .inl ⟨rfl, rfl⟩⟩
    · rw [List.nodup_append]
      refine ⟨hm1.nodup, hm3.nodup, ?_⟩
      intro b hb c hc
      have := (hm1.range b hb).2
      have := (hm3.range c hc).1
      omega
    · intro b hb
      rcases List.mem_append.mp hb with hb | hb
      · have := hm1.range b hb; omega
      · have := hm3.range b hb; omega
    · rw [hr]; simp
    · simp only [AreLits]
      refine ⟨v, rest, S1, S2, rfl, rfl, hi1.mono e ?_, hl3⟩
      intro b hb
      have hb1 := hm1.range b hb
      rw [hs3 b (by omega) (by omega), hab2, List.getElem?_set_ne (by omega)]
    · intro b hb hne
      rw [hs3 b (by omega) hne, hab2, List.getElem?_set_ne (Ne.symm hne), hs1 b hb]
end

/-- **C46**: wherever it occurs, and however deeply nested, evaluating a literal array of the bytecode compiler's language ends with a value,
which is an array with exactly the written elements, made of new arrays; no other array changes. -/
theorem C46_literal_evaluates {A : World M (Arr.Heap × V) E} {err : Err → E} {cls : Val} (hA : HasArrays conv ref A err cls)
    (l : LitT) (hp : l.plain conv) (h : Arr.Heap) (x : V) (hi : Arr.HInv h) :
    ∃ v h' S, (∀ r w', Src.lit A l (h, x) r w' ↔ r = .val v ∧ w' = (h', x)) ∧ FreshLit conv ref h.abs h'.abs l v S := by
  obtain ⟨v, h', S, h1, h2, h3, _, h4⟩ := lit_made hA l h x hi hp
  exact ⟨v, h', S, h1, h3, h2.nodup, fun a ha => (h2.range a ha).1, h4⟩

/-- **C46** (partial), bytecode interpreter: running the bytes of the method `^ #( … )` always answers, namely an array with exactly the
written elements, made of new arrays.  Missing: the symbol `#ArraySizeLiteralPlaceholder` must not be an element (`noPh`). -/
theorem C46_bytecode_partial {X : Type} {I : Inliner M X} (hI : I.OK) {env : X} {es : LitTs} {g : G M X} {C : Code M} (hn : es.noPh = true)
    (hc : compile I.run false 0 env (.exit (.lit (.arr es))) = .ok g) (ha : assemble g = .ok C)
    {A : World M (Arr.Heap × V) E} {err : Err → E} {cls : Val} (hA : HasArrays conv ref A err cls)
    (hp : es.plain conv) (h : Arr.Heap) (x : V) (hi : Arr.HInv h) :
    ∃ v h' S, FreshLit conv ref h.abs h'.abs (.arr es) v S ∧
      (∀ u w', (∃ n, Steps A C n (Code.start (h, x)) (.done u w')) ↔ u = v ∧ w' = (h', x)) ∧
      (∀ e w', ¬ ∃ n, Steps A C n (Code.start (h, x)) (.raised e w')) := by
  obtain ⟨v, h', S, h1, h2⟩ := C46_literal_evaluates hA (.arr es) hp h x hi
  refine ⟨v, h', S, h2, ?_⟩
  have hc' := C33_compiler_correct_partial hI (b := .exit (.lit (.arr es))) (by simp only [Body.wf, Ex.wf, LitT.ok]; exact hn) (by decide) hc ha A
    (blocksOf_means (A := A) hI 0) (by simp only [Src.needsBody, Src.needsEx]) (h, x)
  have hb : ∀ r w', Src.body A (Src.messages A) (blocksOf A I 0) false 0 (.exit (.lit (.arr es))) env (h, x) r w' ↔ r = .ret v ∧ w' = (h', x) := by
    intro r w'
    show Src.bind (Src.lit A (.arr es)) (fun v => Src.answer v) (h, x) r w' ↔ _
    rw [bind_val h1 r w']
    rfl
  constructor
  · intro u w'
    rw [hc'.1, hb]
    constructor
    · rintro ⟨h, rfl⟩; cases h; exact ⟨rfl, rfl⟩
    · rintro ⟨rfl, rfl⟩; exact ⟨rfl, rfl⟩
  · intro e w' hx
    rw [hc'.2, hb] at hx
    cases hx.1

/-- Values without nil are not mixed with nil. -/
theorem notMixed {vs : List Arr.Val} (h : ∀ x ∈ vs, x ≠ .nil) : ¬ Arr.Spec.NilMixed vs := by
  rintro ⟨⟨x, hx, rfl⟩, _⟩
  exact h _ hx rfl

mutual
theorem astLit_made (href : ∀ a, (conv (ref a)).isSom = true ∧ conv (ref a) ≠ .nil) : ∀ (l : LitT) (h : Arr.Heap), Arr.HInv h → l.plain conv →
      ∃ v h' S, astLit conv ref h l = .ok (v, h') ∧ Made h h' S ∧ IsLit conv ref h'.abs l v S ∧ ((conv v).isSom = true ∧ conv v ≠ .nil) ∧
        ∀ a : Nat, a < h.abs.length → h'.abs[a]? = h.abs[a]?
  | .val u, h, hi, hp => by
    refine ⟨u, h, [], ?_, ⟨hi, List.nodup_nil, (by intro a ha; cases ha), Nat.le_refl _⟩, ?_, hp, fun _ _ => rfl⟩
    · simp only [astLit]
    · simp only [IsLit, and_self]
  | .arr es, h, hi, hp => by
    obtain ⟨vs, h1, S, he, hm, hl, hv, hs⟩ := astLits_made href es h hi hp
    obtain ⟨st, hst, habs⟩ := (Arr.C12_from_values_partial vs fun x hx => (hv x hx).1).mpr (notMixed fun x hx => (hv x hx).2)
    have hinv := Arr.fromValues_inv (fun x hx => (hv x hx).1) hst
    obtain ⟨hi2, hab, hres⟩ := Arr.alloc_spec hm.inv hinv
    have hstep : h1.step (.values vs) = h1.alloc st := by simp only [Arr.Heap.step, hst]
    have hle := hm.le
    refine ⟨ref h1.abs.length, (h1.alloc st).1, h1.abs.length :: S, ?_, ⟨hi2, ?_, ?_, ?_⟩, ?_, href _, ?_⟩
    · simp only [astLit, he, bind, Except.bind, hstep]
      rw [show h1.alloc st = ((h1.alloc st).1, .array h1.abs.length) from Prod.ext rfl hres]
    · refine List.nodup_cons.mpr ⟨fun hc => ?_, hm.nodup⟩
      have := (hm.range _ hc).2
      omega
    · intro a ha
      rw [hab, List.length_append, List.length_singleton]
      rcases List.mem_cons.mp ha with rfl | ha
      · omega
      · have := hm.range a ha
        omega
    · rw [hab, List.length_append]
      omega
    · simp only [IsLit]
      refine ⟨_, vs, S, rfl, rfl, ?_, hl.mono es ?_⟩
      · rw [hab, List.getElem?_append_right (Nat.le_refl _)]; simp [habs]
      · intro a ha
        rw [hab, List.getElem?_append_left (hm.range a ha).2]
    · intro a ha
      rw [hab, List.getElem?_append_left (by omega), hs a ha]
theorem astLits_made (href : ∀ a, (conv (ref a)).isSom = true ∧ conv (ref a) ≠ .nil) : ∀ (es : LitTs) (h : Arr.Heap), Arr.HInv h → es.plain conv →
      ∃ vs h' S, astLits conv ref h es = .ok (vs, h') ∧ Made h h' S ∧ AreLits conv ref h'.abs es vs S ∧ (∀ x ∈ vs, x.isSom = true ∧ x ≠ .nil) ∧
        ∀ a : Nat, a < h.abs.length → h'.abs[a]? = h.abs[a]?
  | .nil, h, hi, hp => by
    refine ⟨[], h, [], ?_, ⟨hi, List.nodup_nil, (by intro a ha; cases ha), Nat.le_refl _⟩, ?_, (by intro x hx; cases hx), fun _ _ => rfl⟩
    · simp only [astLits]
    · simp only [AreLits, and_self]
  | .cons e es, h, hi, hp => by
    obtain ⟨v, h1, S1, he1, hm1, hl1, hv, hs1⟩ := astLit_made href e h hi hp.1
    obtain ⟨vs, h2, S2, he2, hm2, hl2, hvs, hs2⟩ := astLits_made href es h1 hm1.inv hp.2
    have hle1 := hm1.le
    have hle2 := hm2.le
    refine ⟨conv v :: vs, h2, S1 ++ S2, ?_, ⟨hm2.inv, ?_, ?_, by omega⟩, ?_, ?_, ?_⟩
    · simp only [astLits, he1, he2, bind, Except.bind]
    · rw [List.nodup_append]
      refine ⟨hm1.nodup, hm2.nodup, ?_⟩
      intro b hb c hc
      have := (hm1.range b hb).2
      have := (hm2.range c hc).1
      omega
    · intro b hb
      rcases List.mem_append.mp hb with hb | hb
      · have := hm1.range b hb; omega
      · have := hm2.range b hb; omega
    · simp only [AreLits]
      exact ⟨v, vs, S1, S2, rfl, rfl, hl1.mono e fun b hb => hs2 b (hm1.range b hb).2, hl2⟩
    · intro x hx
      rcases List.mem_cons.mp hx with rfl | hx
      · exact hv
      · exact hvs x hx
    · intro a ha
      rw [hs2 a (by omega), hs1 a ha]
end

/-- **C46** (partial), AST interpreter: the parser makes an array with exactly the written elements, of new arrays.  Missing: it is made when
the method is parsed, so it is not a new array when the literal is evaluated a second time (`C46_violated_ast_shared`). -/
theorem C46_ast_partial (href : ∀ a, (conv (ref a)).isSom = true ∧ conv (ref a) ≠ .nil) (l : LitT) (hp : l.plain conv) (h : Arr.Heap) (hi : Arr.HInv h) :
    ∃ v h' S, astLit conv ref h l = .ok (v, h') ∧ (litExecute v h').1 = v ∧ FreshLit conv ref h.abs h'.abs l v S := by
  obtain ⟨v, h', S, h1, h2, h3, _, h4⟩ := astLit_made href l h hi hp
  exact ⟨v, h', S, h1, rfl, h3, h2.nodup, fun a ha => (h2.range a ha).1, h4⟩

end

/-! ## Cases -/

/-- Objects with even numbers are other objects, those with odd numbers are arrays. -/
def exConv : Val → Arr.Val
  | .nil => .nil
  | .tru => .bool true
  | .fls => .bool false
  | .int i => .int i
  | .sym _ => .obj 0
  | .obj n => .obj (n + 1)

def exRef (a : Nat) : Val := .obj (2 * a + 1)

/-- A world with nothing but arrays; the class `Array` is object 0. -/
inductive ArrayWorld : World Val (Arr.Heap × Unit) Err
  | glob (w : Arr.Heap × Unit) : ArrayWorld (.glob symArray) w (.val (.obj 0)) w
  | new (n : Int) (w : Arr.Heap × Unit) (a : Nat) (h : (w.1.step (.new n)).2 = .array a) :
      ArrayWorld (.send symNew [.obj 0, .int n]) w (.val (exRef a)) ((w.1.step (.new n)).1, w.2)
  | put (a : Nat) (i : Int) (v : Val) (w : Arr.Heap × Unit) (h : (w.1.step (.put a i (exConv v))).2 = .unit) :
      ArrayWorld (.send symAtPut [exRef a, .int i, v]) w (.val (exRef a)) ((w.1.step (.put a i (exConv v))).1, w.2)
  | fail (a : Nat) (i : Int) (v : Val) (w : Arr.Heap × Unit) (e : Err) (h : (w.1.step (.put a i (exConv v))).2 = .error e) :
      ArrayWorld (.send symAtPut [exRef a, .int i, v]) w (.exc e) ((w.1.step (.put a i (exConv v))).1, w.2)

theorem exRef_inj {a b : Nat} (h : exRef a = exRef b) : a = b := by
  simp only [exRef, Val.obj.injEq] at h
  omega

theorem arrayWorld_ok : HasArrays exConv exRef ArrayWorld id (.obj 0) where
  glob w r w' := by
    constructor
    · intro h; cases h; exact ⟨rfl, rfl⟩
    · rintro ⟨rfl, rfl⟩; exact .glob _
  new n w r w' := by
    constructor
    · intro h
      generalize ha : Act.send symNew [Val.obj 0, Val.int n] = a at h
      cases h with
      | glob => cases ha
      | new n' _ a h => cases ha; exact ⟨a, h, rfl, rfl⟩
      | put => simp only [Act.send.injEq, List.cons.injEq] at ha; exact absurd ha.1 (by decide)
      | fail => simp only [Act.send.injEq, List.cons.injEq] at ha; exact absurd ha.1 (by decide)
    · rintro ⟨a, h, rfl, rfl⟩; exact .new n w a h
  put a i v w r w' := by
    constructor
    · intro h
      generalize ha : Act.send symAtPut [exRef a, Val.int i, v] = b at h
      cases h with
      | glob => cases ha
      | new => simp only [Act.send.injEq, List.cons.injEq] at ha; exact absurd ha.1 (by decide)
      | put a' i' v' _ h =>
        simp only [Act.send.injEq, List.cons.injEq, Val.int.injEq, and_true, true_and] at ha
        obtain ⟨ha, rfl, rfl⟩ := ha
        cases exRef_inj ha
        exact ⟨rfl, .inl ⟨h, rfl⟩⟩
      | fail a' i' v' _ e h =>
        simp only [Act.send.injEq, List.cons.injEq, Val.int.injEq, and_true, true_and] at ha
        obtain ⟨ha, rfl, rfl⟩ := ha
        cases exRef_inj ha
        exact ⟨rfl, .inr ⟨e, h, rfl⟩⟩
    · rintro ⟨rfl, ⟨h, rfl⟩ | ⟨e, h, rfl⟩⟩
      · exact .put a i v w h
      · exact .fail a i v w e h
  som a := rfl

/-- `#( 5 #( #a 6 ) )` -/
def exLits : LitTs := .cons (.val (.int 5)) (.cons (.arr (.cons (.val (.sym "a".toList)) (.cons (.val (.int 6)) .nil))) .nil)

example : exLits.noPh = true ∧ exLits.plain exConv := by
  refine ⟨by decide, ?_⟩
  simp only [exLits, LitTs.plain, LitT.plain, exConv]
  decide

example : ∃ g C, compile literalInliner.run false 0 () (.exit (.lit (.arr exLits))) = .ok g ∧ assemble g = .ok C :=
  compiles _ (by decide +kernel)

/-- **C46 is violated** (bytecode): `#( #ArraySizeLiteralPlaceholder )` is an array with the element 1. -/
theorem C46_violated_placeholder : ∃ g C, compile literalInliner.run false 0 () (.exit (.lit (.arr (.cons (.val (.sym symPlaceholder)) .nil)))) = .ok g ∧
    assemble g = .ok C ∧ ∀ (h : Arr.Heap), Arr.HInv h → ∃ (n a : Nat) (h' : Arr.Heap),
      Steps ArrayWorld C n (Code.start (h, ())) (.done (exRef a) (h', ())) ∧ h'.abs[a]? = some [.int 1] := by
  obtain ⟨g, C, hc, ha⟩ := compiles (.exit (.lit (.arr (.cons (.val (.sym symPlaceholder)) .nil)))) (by decide +kernel)
  refine ⟨g, C, hc, ha, fun h hi => ?_⟩
  have hg : (match compile literalInliner.run false 0 () (.exit (.lit (.arr (.cons (.val (.sym symPlaceholder)) .nil)))) with
      | .ok g => some (g.lits, g.bytes, g.maxDepth)
      | .error _ => none) = some ([.val (.int 1), .val (.sym symArray), .val (.sym symNew), .val (.sym symAtPut)], [22, 1, 15, 0, 36, 2, 20, 16, 37, 3, 40], 3) := by
    decide +kernel
  rw [hc] at hg
  simp only [Option.some.injEq, Prod.mk.injEq] at hg
  obtain ⟨_, rfl⟩ := assemble_ok ha
  have hp : (LitT.arr (.cons (.val (.int 1)) .nil)).plain exConv := by
    simp only [LitTs.plain, LitT.plain, exConv]
    decide
  obtain ⟨v, h', S, h1, h2⟩ := C46_literal_evaluates arrayWorld_ok (.arr (.cons (.val (.int 1)) .nil)) hp h () hi
  have hl := h2.is
  simp only [IsLit, AreLits] at hl
  obtain ⟨a, xs, S', rfl, rfl, hx, v', rest, S1, S2, rfl, rfl, ⟨rfl, rfl⟩, rfl, rfl⟩ := hl
  obtain ⟨e1, e2, e3⟩ := hg
  have hs : Sem (E := Err) ArrayWorld (.seq (litSC (.arr (.cons (.val (.int 1)) .nil))) (.ins .retLocal)) [] _ :=
    Sem.seq (sem_lit _ _) fun v => sem_retLocal v []
  have he : Enc (M := Val) g.lits (.seq (litSC (.arr (.cons (.val (.int 1)) .nil))) (.ins .retLocal)) g.bytes := by
    rw [e1, e2]
    exact .seq _ _ [22, 1, 15, 0, 36, 2, 20, 16, 37, 3] [40]
      (.seq _ _ [22, 1] _ (.ins _ _ fun _ => rfl) (.seq _ _ [15, 0] _ (.ins _ _ fun _ => rfl) (.seq _ _ [36, 2] _ (.ins _ _ fun _ => rfl)
        (.seq _ _ [20, 16, 37, 3] [] (.seq _ _ [20] [16, 37, 3] (.ins _ _ fun _ => rfl) (.seq _ _ [16] [37, 3] (.ins _ _ fun _ => rfl) (.ins _ _ fun _ => rfl))) .nop))))
      (.ins _ _ fun _ => rfl)
  obtain ⟨n, hn⟩ := ((run_of_sem hs (C := ⟨g.lits, g.bytes, (g.maxDepth + 2 + 2).toNat⟩) he (d := 1) (by decide) (by show _ ≤ (g.maxDepth + 2 + 2).toNat; rw [e3]; decide)
    rfl (h, ())).1 (exRef a) (h', ())).mpr ((bind_val h1 _ _).mpr ⟨rfl, rfl⟩)
  exact ⟨n, a, h', hn, hx⟩

/-- **C46 is violated** (AST): after a store into the array that `#( 1 2 )` evaluates to, evaluating it again gives that array, with the
changed element. -/
theorem C46_violated_ast_shared : ∃ v h, astLit exConv exRef {} (.arr (.cons (.val (.int 1)) (.cons (.val (.int 2)) .nil))) = .ok (v, h) ∧
    v = exRef 0 ∧ h.abs[0]? = some [.int 1, .int 2] ∧
    (litExecute v (h.step (.put 0 1 (.int 7))).1).1 = exRef 0 ∧ (litExecute v (h.step (.put 0 1 (.int 7))).1).2.abs[0]? = some [.int 7, .int 2] :=
  ⟨exRef 0, ⟨[.long [1, 2]], [0]⟩, rfl, rfl, rfl, rfl, rfl⟩

end PySOM.BC

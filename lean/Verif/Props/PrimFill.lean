import Verif.Spec.PrimFill
import Verif.Props.PrimData
/-!
# C80: `putAll:` with a block in a running program

The block is evaluated once for each element, and only then its answers are stored, all at once.  What does not hold: the first answer of another kind than the first one is lost (C11).
-/
set_option autoImplicit false
namespace PySOM.Mach
open PySOM BC

section
variable {ι F : Type} {I : Image ι} {p : Platform} {fo : Floats F} {b : Behaviour ι (St (Data F) Printed) Esc} {w w' : St (Data F) Printed} {r : Res Esc}

theorem answers_mono {W E : Type} {f : Src.Rel W E} (n : Nat) : ∀ {k k' : List Val → Src.Rel W E} {w w' : W} {r : Src.Res E}, (∀ vs w r w', vs.length = n → k vs w r w' → k' vs w r w') → answers f n k w r w' → answers f n k' w r w' := by
  induction n with
  | zero => exact fun h => h [] _ _ _ rfl
  | succ n ih =>
    rintro k k' w w' r h (⟨v, w1, h1, h2⟩ | h1)
    · exact .inl ⟨v, w1, h1, ih (fun vs w r w' hl => h (v :: vs) w r w' (congrArg (· + 1) hl)) h2⟩
    · exact .inr h1

theorem step_fill (a x : Val) (len : Nat) (got : List Val) (sh : Mem F) : (I.prog p fo).step (.fill a x len got) sh =
    if got.length < len then (sh, .call (.value [x]) fun v => .fill a x len (got ++ [v])) else
      match elems sh a, I.collected sh got with
      | .ok (o, c, old), some vs => if vs.length = old.length then ({ sh with objs := sh.objs.set o (.data c (.arr vs)) }, .done a) else (sh, .raise .other)
      | .ok _, none => (sh, .raise .other)
      | .error e, _ => (sh, .raise e) := rfl

theorem fill_iff {a x : Val} {len : Nat} (m : Nat) : ∀ (got : List Val) (w : St (Data F) Printed), got.length + m = len → (Do (I.prog p fo) b (.prim (.fill a x len got)) w r w' ↔
      answers ((I.prog p fo).evals b [x]) m (fun vs w1 r1 w2 => ∃ r2, r1 = toSrc r2 ∧ Do (I.prog p fo) b (.prim (.fill a x len (got ++ vs))) w1 r2 w2) w (toSrc r) w') := by
  induction m with
  | zero =>
    intro got w h
    show _ ↔ ∃ r2, toSrc r = toSrc r2 ∧ Do (I.prog p fo) b (.prim (.fill a x len (got ++ []))) w r2 w'
    rw [List.append_nil]
    exact ⟨fun h => ⟨r, rfl, h⟩, fun ⟨r2, h1, h2⟩ => toSrc_inj h1 ▸ h2⟩
  | succ m ih =>
    intro got w h
    show _ ↔ Src.bind ((I.prog p fo).does b (.value [x])) _ w (toSrc r) w'
    rw [bind_does, Do.prim_iff, step_fill, if_pos (by omega)]
    refine or_congr (exists_congr fun v => exists_congr fun w1 => and_congr_right fun _ => ?_) Iff.rfl
    rw [ih (got ++ [v]) w1 (by rw [List.length_append]; exact (by omega : got.length + 1 + m = len))]
    simp only [List.append_assoc, List.singleton_append]

/-- `putAll:` with a block, by its steps. -/
theorem putAll_iff {sel : String} {a c : Nat} {x : Val} {vs : List Val} (ha : w.sh.objs[a]? = some (.data c (.arr vs))) (hI : I.Has c sel .arrPutAll) (hx : IsBlock w x) :
    (I.prog p fo).sends b sel [.obj a, x] w (toSrc r) w' ↔
      answers ((I.prog p fo).evals b [x]) vs.length (fun got w1 r1 w2 => ∃ r2, r1 = toSrc r2 ∧ Do (I.prog p fo) b (.prim (.fill (.obj a) x vs.length got)) w1 r2 w2) w (toSrc r) w' := by
  have hs : (I.prog p fo).step (.start (some .arrPutAll) [.obj a, x]) w.sh = (w.sh, .next (.fill (.obj a) x vs.length [])) := by
    show I.begin p fo w.sh .arrPutAll [.obj a, x] = _
    simp only [Image.begin, elems, ha]
    rw [if_pos (isBlock_iff.2 hx)]
  rw [sends_prim (c := c) (by simp only [Image.classOf, ha]) hI, Do.prim_iff, hs]
  exact fill_iff vs.length [] w (Nat.zero_add _)

theorem isDbl_iff {v : Val} : I.isDbl w.sh v = true ↔ I.IsDouble w v := by
  unfold Image.isDbl Image.num Image.IsDouble
  cases v with
  | obj a =>
    dsimp only
    constructor
    · intro h
      split at h
      · rename_i f hn
        split at hn
        · rename_i c f' ho
          split at hn
          · rename_i hc
            exact ⟨a, f', rfl, hc ▸ ho⟩
          · cases hn
        · split at hn <;> cases hn
        · cases hn
      · cases h
    · rintro ⟨_, f, h, ho⟩
      cases h
      rw [ho]
      simp only [if_true]
  | _ => exact ⟨fun h => (nomatch h), fun ⟨_, _, h, _⟩ => (nomatch h)⟩

theorem afterInts_all (vs : List Val) (h : ∀ v ∈ vs, ∃ i, v = .int i) : afterInts vs = vs := by
  induction vs with
  | nil => rfl
  | cons v vs ih =>
    obtain ⟨i, rfl⟩ := h v List.mem_cons_self
    exact congrArg _ (ih fun u hu => h u (List.mem_cons_of_mem _ hu))

theorem collected_alike {got : List Val} (h : I.Alike w got) : I.collected w.sh got = some got := by
  rcases h with h | h | ⟨v, more, rfl, h1, h2, h3, h4⟩
  · cases got with
    | nil => rfl
    | cons v vs =>
      obtain ⟨i, rfl⟩ := h v List.mem_cons_self
      exact congrArg (fun x => some (Val.int i :: x)) (afterInts_all vs fun u hu => h u (List.mem_cons_of_mem _ hu))
  · cases got with
    | nil => rfl
    | cons v vs =>
      have hv : vs.all (I.isDbl w.sh) = true := List.all_eq_true.2 fun u hu => isDbl_iff.2 (h u (List.mem_cons_of_mem _ hu))
      obtain ⟨a, f, rfl, _⟩ := h v List.mem_cons_self
      simp only [Image.collected, hv, Bool.not_true, Bool.and_false]
      rfl
  · have hd : I.isDbl w.sh v = false := by
      cases hd : I.isDbl w.sh v with
      | false => rfl
      | true => exact absurd (isDbl_iff.1 hd) h4
    cases v with
    | int i => exact absurd rfl (h3 i)
    | tru => exact absurd rfl h1
    | fls => exact absurd rfl h2
    | _ => simp only [Image.collected, hd, Bool.false_and]; rfl

/-- The last step. -/
theorem stores_iff {a c : Nat} {x : Val} {got new old : List Val} (ho : w.sh.objs[a]? = some (.data c (.arr old))) (hl : got.length = old.length) (hn : new.length = old.length) (hc : I.collected w.sh got = some new) :
    Do (I.prog p fo) b (.prim (.fill (.obj a) x old.length got)) w r w' ↔ r = .val (.obj a) ∧ w' = w.upd a (.data c (.arr new)) := by
  refine ends_iff (s := (w.upd a (.data c (.arr new))).sh) ?_
  rw [step_fill, if_neg (by omega), hc]
  simp only [elems, ho, hn, if_true]
  rfl

/-- C80: `putAll:` with a block evaluates the block once for each element of the array, and then, if the answers are alike, stores them in their order, changes nothing else, and answers the array.
If the block leaves in another way, nothing is stored.  (Arrays keep their length while the block runs: C79.)  Missing: answers that are not alike, see `C80_violated_putAll`. -/
theorem C80_putAll_block_partial {sel : String} {a c : Nat} {x : Val} {vs : List Val} (ha : w.sh.objs[a]? = some (.data c (.arr vs))) (hI : I.Has c sel .arrPutAll) (hx : IsBlock w x) :
    ((I.prog p fo).sends b sel [.obj a, x] w (toSrc r) w' →
      answers ((I.prog p fo).evals b [x]) vs.length (fun got w1 r1 w2 => ∀ k old, w1.sh.objs[a]? = some (.data k (.arr old)) → old.length = vs.length → I.Alike w1 got →
        r1 = .val (.obj a) ∧ w2 = w1.upd a (.data k (.arr got))) w (toSrc r) w') ∧
    (answers ((I.prog p fo).evals b [x]) vs.length (fun got w1 r1 w2 => ∃ k old, w1.sh.objs[a]? = some (.data k (.arr old)) ∧ old.length = vs.length ∧ I.Alike w1 got ∧
        r1 = .val (.obj a) ∧ w2 = w1.upd a (.data k (.arr got))) w (toSrc r) w' →
      (I.prog p fo).sends b sel [.obj a, x] w (toSrc r) w') := by
  rw [putAll_iff ha hI hx]
  refine ⟨answers_mono _ ?_, answers_mono _ ?_⟩
  · rintro got w1 _ w2 hl ⟨r2, rfl, hd⟩ k old ho hlen hal
    rw [← hlen] at hd hl
    obtain ⟨rfl, h⟩ := (stores_iff ho hl hl (collected_alike hal)).1 hd
    exact ⟨rfl, h⟩
  · rintro got w1 _ w2 hl ⟨k, old, ho, hlen, hal, rfl, rfl⟩
    rw [← hlen] at hl ⊢
    exact ⟨.val (.obj a), rfl, (stores_iff ho hl hl (collected_alike hal)).2 ⟨rfl, rfl⟩⟩

theorem afterInts_other (ns : List Int) (v : Val) (more : List Val) (hv : ∀ i, v ≠ .int i) : afterInts (ns.map .int ++ v :: more) = ns.map .int ++ .int 0 :: more := by
  induction ns with
  | nil =>
    cases v with
    | int i => exact absurd rfl (hv i)
    | _ => rfl
  | cons n ns ih => exact congrArg _ ih

/-- C80 violated: if the block answers Integers at first and then something else, a zero is stored in its place. -/
theorem C80_violated_putAll {sel : String} {a c : Nat} {x : Val} {vs : List Val} (ha : w.sh.objs[a]? = some (.data c (.arr vs))) (hI : I.Has c sel .arrPutAll) (hx : IsBlock w x)
    (h : answers ((I.prog p fo).evals b [x]) vs.length (fun got w1 r1 w2 => ∃ (k : Nat) (old : List Val) (n : Int) (ns : List Int) (v : Val) (more : List Val), w1.sh.objs[a]? = some (.data k (.arr old)) ∧ old.length = vs.length ∧
      got = .int n :: ns.map .int ++ v :: more ∧ (∀ i, v ≠ .int i) ∧ r1 = .val (.obj a) ∧ w2 = w1.upd a (.data k (.arr (.int n :: ns.map .int ++ .int 0 :: more)))) w (toSrc r) w') :
    (I.prog p fo).sends b sel [.obj a, x] w (toSrc r) w' := by
  rw [putAll_iff ha hI hx]
  refine answers_mono _ ?_ h
  rintro got w1 _ w2 hl ⟨k, old, n, ns, v, more, ho, hlen, rfl, hv, rfl, rfl⟩
  rw [← hlen] at hl ⊢
  refine ⟨.val (.obj a), rfl, (stores_iff ho hl ?_ ?_).2 ⟨rfl, rfl⟩⟩
  · rw [← hl]
    simp only [List.length_append, List.length_cons]
  · exact congrArg (fun x => some (Val.int n :: x)) (afterInts_other ns v more hv)

end

/-! ## Examples -/

/-- Arrays of class 6 with `putAll:`. -/
def fillImage : Image Unit :=
  { tinyImage with table := fun c sel => if c = 6 then [("putAll:".toList, .inr .arrPutAll)].lookup sel else none }

/-- A block that prints a letter and answers the number of letters. -/
def numbering : Behaviour Unit (St (Data Int) Printed) Esc where
  meth := fun _ _ _ _ => False
  blk := fun _ w r w' => r = .val (.int (w.sh.ext.out.length)) ∧ w' = { w with sh := { w.sh with ext := { w.sh.ext with out := w.sh.ext.out ++ ['x'] } } }

/-- `array putAll: [...]` for an array with two elements: they are 0 and 1 afterwards, and the block was evaluated twice. -/
example : ∃ w', (fillImage.prog .rpython tinyFloats).sends numbering "putAll:" [.obj 1, .obj 0] tinyStart (.val (.obj 1)) w' ∧ w'.sh.ext.out = ['x', 'x'] ∧ w'.sh.objs[1]? = some (.data 6 (.arr [.int 0, .int 1])) := by
  let f : Frame := ⟨[.obj 0], fun _ => .nil, none, 9, false, false⟩
  let sh (o : List Char) : Mem Int := ⟨[.block 0 none 9, .data 6 (.arr [.tru, .fls])], fun _ => none, ⟨o, []⟩⟩
  have one : ∀ (o : List Char) (fs : List Frame) (fs' : List Frame), (fs ++ [Frame.mk [.obj 0] (fun _ => .nil) none 9 true false]).modify fs.length (fun x => { x with on := false }) = fs' →
      (fillImage.prog .rpython tinyFloats).evals numbering [.obj 0] ⟨sh o, fs, 0⟩ (.val (.int o.length)) ⟨sh (o ++ ['x']), fs', 0⟩ := by
    rintro o fs fs' rfl
    exact ⟨.val (.int o.length), rfl, Do.blk (G := fillImage.prog .rpython tinyFloats) (b := numbering) 0 none 9 [.obj 0] ⟨sh o, fs, 0⟩ (.val (.int o.length))
      ⟨sh (o ++ ['x']), fs ++ [Frame.mk [.obj 0] (fun _ => .nil) none 9 true false], fs.length⟩ (And.intro rfl rfl)⟩
  refine ⟨St.upd ⟨sh ['x', 'x'], [f, f], 0⟩ 1 (.data 6 (.arr [.int 0, .int 1])), ?_, rfl, rfl⟩
  refine (C80_putAll_block_partial (r := .val (.obj 1)) (c := 6) (vs := [.tru, .fls]) rfl ⟨6, rfl⟩ ⟨0, 0, none, 9, rfl, rfl⟩).2 ?_
  refine .inl ⟨.int 0, _, one [] [] [f] rfl, .inl ⟨.int 1, _, one ['x'] [f] [f, f] rfl, 6, [.tru, .fls], rfl, rfl, .inl ?_, rfl, rfl⟩⟩
  intro v hv
  rcases List.mem_cons.1 hv with rfl | hv
  · exact ⟨0, rfl⟩
  · exact ⟨1, List.mem_singleton.1 hv⟩

end PySOM.Mach

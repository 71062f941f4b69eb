import Verif.Lemmas.Disasm
/-!
# C65: the listing of a class shows its code
-/
set_option autoImplicit false
namespace PySOM.Disasm
open PySOM BC

/-- The blocks of a compiled method are encodings of instructions. -/
theorem shown_contains {lits : List (Lit Meth)} {bytes : List Nat} {m : Meth} (h : Spec.Shown lits bytes m) : BC.Spec.Contains lits bytes m := by
  induction h with
  | here lits bytes m h => exact .here _ _ _ _ h
  | inner lits bytes m id lits' bytes' loops args locals stack code h _ ih => exact .inner _ _ _ _ id lits' bytes' loops args locals stack code h ih

theorem flat_sound {l id : Nat} {lits : List (Lit Meth)} {bytes : List Nat} {loops : List (Nat × Nat)} {args locals : List Nat} {stack : Nat} {code : SC Meth}
    (h : Sound l (.bc id lits bytes loops args locals stack code)) : Flat (fun _ => True) lits bytes ∧ ∀ b ∈ bytes, b ≤ 255 := by
  cases h with
  | bc _ _ _ _ _ _ _ _ _ enc ty std size small ends ins ids inn closed => exact ⟨enc.flat fun _ _ => trivial, small⟩

/-- A block can be listed if it and the blocks in it are sound and have what they need. -/
theorem listable_of {N : Names} {exact : Bool} {fs : List Text} (hN : N.fields = some fs) : ∀ (k : Nat) (m : Meth), sizeOf m ≤ k → (∃ l, Sound l m) →
    (∀ id t, m ≠ .triv id t) → (∀ id lits bytes loops args locals stack code, m = .bc id lits bytes loops args locals stack code →
      (∀ m', BC.Spec.Contains lits bytes m' → ∃ l, Sound l m') ∧ Spec.FieldsOK fs lits bytes ∧ (∀ m', BC.Spec.Creates lits bytes false m' → exact = false) ∧
      (∀ id t, ¬ Spec.Shown lits bytes (.triv id t)) ∧
      ∀ id lits' bytes' loops args locals stack code, Spec.Shown lits bytes (.bc id lits' bytes' loops args locals stack code) →
        Spec.FieldsOK fs lits' bytes' ∧ ∀ m', BC.Spec.Creates lits' bytes' false m' → exact = false) → Listable N exact m := by
  intro k
  induction k with
  | zero => intro m hk; cases m <;> simp at hk
  | succ k ih =>
    intro m hk hs ht hb
    cases m with
    | triv id t => exact absurd rfl (ht id t)
    | bc id lits bytes loops args locals stack code =>
      obtain ⟨hc, hf, hx, ht, hi⟩ := hb _ _ _ _ _ _ _ _ rfl
      obtain ⟨_, hs⟩ := hs
      refine .bc _ _ _ _ _ _ _ _ (flat_sound hs).1 (flat_sound hs).2 ⟨fs, hN, hf⟩ (fun m hm => ?_) hx
      refine ih m ?_ (hc m (.here _ _ _ _ hm)) (fun id t e => by subst e; exact ht _ _ (.here _ _ _ hm)) ?_
      · have h1 := List.sizeOf_lt_of_mem (creates_lit hm)
        simp at hk h1
        omega
      · rintro id' lits' bytes' loops' args' locals' stack' code' rfl
        have h1 := hi _ _ _ _ _ _ _ _ (.here _ _ _ hm)
        exact ⟨fun m' h => hc m' (.inner _ _ _ _ _ _ _ _ _ _ _ _ hm h), h1.1, h1.2, fun id t h => ht id t (.inner _ _ _ _ _ _ _ _ _ _ _ hm h),
          fun _ _ _ _ _ _ _ _ h => hi _ _ _ _ _ _ _ _ (.inner _ _ _ _ _ _ _ _ _ _ _ hm h)⟩

section
variable {known : Sel → Bool} {n : Nat} {s : SMethod} {g : G Meth (List Nat)} {C : Code Meth} {N : Names} {fs : List Text}

/-- The method object of compiled code. -/
def compiled (id : Nat) (args : List Nat) (code : SC Meth) (g : G Meth (List Nat)) (C : Code Meth) : Meth := .bc id C.lits C.bytes g.loops args g.env C.max code

theorem compiled_listable {exact : Bool} (hw : s.Wf) (hc : s.compile known n = .ok g) (ha : assemble g = .ok C) (hN : N.fields = some fs)
    (hf : Spec.FieldsOK fs C.lits C.bytes) (hx : ∀ m, BC.Spec.Creates C.lits C.bytes false m → exact = false) (ht : ∀ id t, ¬ Spec.Shown C.lits C.bytes (.triv id t))
    (hi : ∀ id lits bytes loops args locals stack code, Spec.Shown C.lits C.bytes (.bc id lits bytes loops args locals stack code) →
      Spec.FieldsOK fs lits bytes ∧ ∀ m, BC.Spec.Creates lits bytes false m → exact = false) (id : Nat) (args : List Nat) (code : SC Meth) :
    Listable N exact (compiled id args code g C) := by
  obtain ⟨b, _, hs, hc⟩ := s.compile_sourced hw hc
  obtain ⟨hb, rfl⟩ := assemble_ok ha
  obtain ⟨he, _⟩ := compile_ok (inliner_ok n) hs.good (by decide) hc
  refine .bc _ _ _ _ _ _ _ _ (he.flat fun _ _ => trivial) hb ⟨fs, hN, hf⟩ (fun m hm => ?_) hx
  refine listable_of hN (sizeOf m) m (Nat.le_refl _) (method_blocks hs hc (.here _ _ _ _ hm)) (fun id t e => by subst e; exact ht _ _ (.here _ _ _ hm)) ?_
  rintro id' lits' bytes' loops' args' locals' stack' code' rfl
  have h1 := hi _ _ _ _ _ _ _ _ (.here _ _ _ hm)
  exact ⟨fun m' h => method_blocks hs hc (.inner _ _ _ _ _ _ _ _ _ _ _ _ hm h), h1.1, h1.2, fun id t h => ht id t (.inner _ _ _ _ _ _ _ _ _ _ _ hm h),
    fun _ _ _ _ _ _ _ _ h => hi _ _ _ _ _ _ _ _ (.inner _ _ _ _ _ _ _ _ _ _ _ hm h)⟩

/-- **C65** (partial): the listing of a compiled method has one line for each instruction that the interpreter executes, in order, each at its offset with the name of the instruction
and its operands — the variables, the names of the fields, the constants, the selectors, the targets of jumps — and the listings of the blocks that are created, nested in the same
way.  Missing: methods that create blocks without context, for which see `C65_lines_partial` and `C65_violated_no_context`, and blocks that are trivial methods, for which the listing fails
(`C65_succeeds_partial`). -/
theorem C65_listing_partial (hw : s.Wf) (hc : s.compile known n = .ok g) (ha : assemble g = .ok C) (hN : N.fields = some fs) (hf : Spec.FieldsOK fs C.lits C.bytes)
    (hx : ∀ m, ¬ BC.Spec.Creates C.lits C.bytes false m) (ht : ∀ id t, ¬ Spec.Shown C.lits C.bytes (.triv id t))
    (hi : ∀ id lits bytes loops args locals stack code, Spec.Shown C.lits C.bytes (.bc id lits bytes loops args locals stack code) →
      Spec.FieldsOK fs lits bytes ∧ ∀ m, ¬ BC.Spec.Creates lits bytes false m) (id : Nat) (args : List Nat) (code : SC Meth) :
    ∃ depth, ∀ d, depth ≤ d → ∀ indent, ∃ text, dumpMethod N d (.meth (compiled id args code g C)) indent = .ok text ∧
      Spec.Listing N true (compiled id args code g C) indent text :=
  ⟨_, fun d hd indent => listing_ok (compiled_listable hw hc ha hN hf (fun m h => absurd h (hx m)) ht
    (fun _ _ _ _ _ _ _ _ h => ⟨(hi _ _ _ _ _ _ _ _ h).1, fun m hm => absurd hm ((hi _ _ _ _ _ _ _ _ h).2 m)⟩) id args code) d hd indent⟩

/-- **C65** (partial): the same for all compiled methods whose blocks with a context have code, except that lines for blocks without a context do not show the block.  Missing: as for
`C65_listing_partial`. -/
theorem C65_lines_partial (hw : s.Wf) (hc : s.compile known n = .ok g) (ha : assemble g = .ok C) (hN : N.fields = some fs) (hf : Spec.FieldsOK fs C.lits C.bytes)
    (ht : ∀ id t, ¬ Spec.Shown C.lits C.bytes (.triv id t))
    (hi : ∀ id lits bytes loops args locals stack code, Spec.Shown C.lits C.bytes (.bc id lits bytes loops args locals stack code) → Spec.FieldsOK fs lits bytes)
    (id : Nat) (args : List Nat) (code : SC Meth) :
    ∃ depth, ∀ d, depth ≤ d → ∀ indent, ∃ text, dumpMethod N d (.meth (compiled id args code g C)) indent = .ok text ∧
      Spec.Listing N false (compiled id args code g C) indent text :=
  ⟨_, fun d hd indent => listing_ok (compiled_listable hw hc ha hN hf (fun _ _ => rfl) ht (fun _ _ _ _ _ _ _ _ h => ⟨hi _ _ _ _ _ _ _ _ h, fun _ _ => rfl⟩) id args code) d hd indent⟩

/-- **C65** (partial): the listing of a compiled method succeeds exactly if no block that it shows is a trivial method.  Missing: it should always succeed. -/
theorem C65_succeeds_partial (hw : s.Wf) (hc : s.compile known n = .ok g) (ha : assemble g = .ok C) (hN : N.fields = some fs) (hf : Spec.FieldsOK fs C.lits C.bytes)
    (hi : ∀ id lits bytes loops args locals stack code, Spec.Shown C.lits C.bytes (.bc id lits bytes loops args locals stack code) → Spec.FieldsOK fs lits bytes)
    (id : Nat) (args : List Nat) (code : SC Meth) (indent : Text) :
    (∃ d text, dumpMethod N d (.meth (compiled id args code g C)) indent = .ok text) ↔ ∀ id t, ¬ Spec.Shown C.lits C.bytes (.triv id t) := by
  constructor
  · rintro ⟨d, text, h⟩ id t hs
    obtain ⟨k, t', h⟩ := dumpMethod_bc h
    exact shown_code hs k indent t' h id t rfl
  · intro ht
    obtain ⟨d, h⟩ := C65_lines_partial hw hc ha hN hf ht hi id args code
    obtain ⟨t, h, _⟩ := h d (Nat.le_refl _) indent
    exact ⟨d, t, h⟩
end

/-! ## Classes -/
namespace Spec

/-- The listing of a class: its methods in order, each with the name of the class and its signature. -/
inductive ClassListing (N : Names) (exact : Bool) (name : Text) : List Entry → Text → Prop where
  | nil : ClassListing N exact name [] []
  | primitive (signature : Text) (es : List Entry) (more : Text) (h : ClassListing N exact name es more) :
      ClassListing N exact name (⟨signature, none⟩ :: es) (name ++ ">>".toList ++ signature ++ " = <primitive>\n".toList ++ more)
  | method (signature : Text) (m : Meth) (es : List Entry) (text more : Text) (hm : Listing N exact m "\t".toList text) (h : ClassListing N exact name es more) :
      ClassListing N exact name (⟨signature, some m⟩ :: es) (name ++ ">>".toList ++ signature ++ " = ".toList ++ text ++ more)

end Spec

/-- **C65** (partial): the listing of a class shows every method once, in the order of the table, if its methods can be listed.  Missing: as for `C65_listing_partial`; classes without methods
(`C65_violated_empty`). -/
theorem C65_class_partial {N : Names} {exact : Bool} {name : Text} : ∀ {es : List Entry},
    (∀ e ∈ es, ∀ m, e.body = some m → ∃ depth, ∀ d, depth ≤ d → ∀ indent, ∃ text, dumpMethod N d (.meth m) indent = .ok text ∧ Spec.Listing N exact m indent text) →
    ∃ depth, ∀ d, depth ≤ d → ∃ text, dump N d name (some es) = .ok text ∧ Spec.ClassListing N exact name es text
  | [], _ => ⟨0, fun _ _ => ⟨_, rfl, .nil⟩⟩
  | e :: es, h => by
    obtain ⟨d1, h1⟩ := C65_class_partial (name := name) (es := es) fun e he => h e (List.mem_cons_of_mem _ he)
    obtain ⟨sig, body⟩ := e
    cases body with
    | none =>
      refine ⟨d1, fun d hd => ?_⟩
      obtain ⟨more, h2, h3⟩ := h1 d hd
      refine ⟨_, ?_, .primitive sig es more h3⟩
      show (dumpEntries N d name es >>= _) = _
      rw [show dumpEntries N d name es = .ok more from h2]
      show Except.ok _ = Except.ok _
      rw [show " = <primitive>\n".toList = " = ".toList ++ "<primitive>\n".toList from rfl]
      simp only [List.append_assoc]
    | some m =>
      obtain ⟨d2, h2⟩ := h _ (List.mem_cons_self) m rfl
      refine ⟨d1 + d2, fun d hd => ?_⟩
      obtain ⟨more, h3, h4⟩ := h1 d (by omega)
      obtain ⟨text, h5, h6⟩ := h2 d (by omega) "\t".toList
      refine ⟨_, ?_, .method sig m es text more h6 h4⟩
      show (dumpMethod N d (.meth m) "\t".toList >>= fun text => dumpEntries N d name es >>= fun more => Except.ok (name ++ ">>".toList ++ sig ++ " = ".toList ++ text ++ more)) = _
      rw [h5, show dumpEntries N d name es = .ok more from h3]
      rfl

/-! ## Violations -/

/-- **C65**, violated: the listing of a class with a method that the compiler has made trivial, such as a getter, fails. -/
theorem C65_violated_trivial (N : Names) (n : Nat) (name : Text) (es : List Entry) (e : Entry) (he : e ∈ es) (id : Nat) (t : Triv Meth) (hb : e.body = some (.triv id t)) :
    ∃ f, dump N n name (some es) = .error f := by
  show ∃ f, dumpEntries N n name es = .error f
  induction es with
  | nil => cases he
  | cons x es ih =>
    cases hd : dumpEntries N n name (x :: es) with
    | error f => exact ⟨f, rfl⟩
    | ok text =>
      exfalso
      rw [dumpEntries] at hd
      obtain ⟨sig, b⟩ := x
      have key : ∃ t2, dumpEntries N n name es = .ok t2 := by
        cases b with
        | none =>
          obtain ⟨_, _, hd⟩ := ok_bind hd
          exact (ok_bind hd).imp fun _ h => h.1
        | some m =>
          obtain ⟨_, _, hd⟩ := ok_bind hd
          exact (ok_bind hd).imp fun _ h => h.1
      rcases List.mem_cons.mp he with rfl | he
      · cases hb
        cases n <;> cases hd
      · obtain ⟨f, hf⟩ := ih he
        obtain ⟨t2, h2⟩ := key
        rw [hf] at h2
        cases h2

/-- **C65**, violated: the listing of a class, or of a metaclass, that has no methods fails, in both interpreters. -/
theorem C65_violated_empty (N : Names) (n : Nat) (name : Text) : dump N n name none = .error .attribute ∧ dumpAst name none = .error .attribute := ⟨rfl, rfl⟩

/-- **C65**, violated: the listing of the AST interpreter does not show the methods: it is the same for all classes with the same name and signatures. -/
theorem C65_violated_ast (name : Text) (es : List Entry) (ms : Entry → Meth) :
    dumpAst name (some es) = dumpAst name (some (es.map fun e => ⟨e.signature, e.body.map fun _ => ms e⟩)) := by
  show Except.ok _ = Except.ok _
  congr 1
  rw [List.flatMap_map]
  congr 1
  funext e
  obtain ⟨sig, b⟩ := e
  cases b <;> rfl

/-- Code to evaluate the examples. -/
def listOf (N : Names) (s : SMethod) : Option String :=
  match s.compile (fun _ => false) 5 with
  | .ok g => match assemble g with
    | .ok C => match dumpMethod N 10 (.meth (compiled 0 [] .nop g C)) "\t".toList with
      | .ok t => some (String.ofList t)
      | .error _ => none
    | .error _ => none
  | .error _ => none

def exampleNames : Names where
  str := fun l => match l with
    | .val (.sym s) => '#' :: s
    | .val (.int i) => decInt i
    | _ => "?".toList
  cls := fun _ => "C".toList
  fields := some []

/-- The listing of the example of `Props/Inline.lean`, with an inlined block and a block that is left. -/
example : listOf exampleNames exampleMethod = some "(\n\t<2 locals, 9 stack, 24 bc_count>\n\t   0:PUSH_1  \n\t   1:POP_LOCAL  local: 0, context: 0\n\t   4:PUSH_ARGUMENT  argument: 1, context 0\n\t   7:JUMP_ON_FALSE_TOP_NIL  (jump offset: 16 -> jump target: 23)\n\t  10:PUSH_LOCAL  local: 0, context: 0\n\t  13:POP_LOCAL  local: 1, context: 0\n\t  16:PUSH_ARGUMENT  argument: 0, context 0\n\t  19:PUSH_BLOCK  block: (index: 2) (\n\t\t<0 locals, 6 stack, 9 bc_count>\n\t\t   0:PUSH_LOCAL  local: 1, context: 1\n\t\t   3:PUSH_LOCAL  local: 0, context: 1\n\t\t   6:SEND_2  (index: 0) signature: #+\n\t\t   8:RETURN_LOCAL  \n\t\t)\n\t  21:SEND_2  (index: 3) signature: #do:\n\t  23:RETURN_SELF  \n\t)\n" := by
  decide +kernel

/-- A check for the example: no field is used, no block is trivial or without context. -/
def plain : Nat → Meth → Bool
  | 0, _ => false
  | _ + 1, .triv _ _ => false
  | k + 1, .bc _ lits bytes _ _ _ _ _ => (List.range bytes.length).all fun p => match decode lits (bytes.drop p) with
    | some (.ins (.pushBlock c m) _) => c && plain k m
    | some (.ins (.pushFld _ _) _) | some (.ins (.popFld _ _) _) | some (.ins (.incFld _ _) _) | some (.ins (.incFldPush _ _) _) => false
    | _ => true

theorem plain_ok {k id : Nat} {lits : List (Lit Meth)} {bytes : List Nat} {loops : List (Nat × Nat)} {args locals : List Nat} {stack : Nat} {code : SC Meth}
    (h : plain (k + 1) (.bc id lits bytes loops args locals stack code) = true) :
    Spec.FieldsOK [] lits bytes ∧ (∀ m, ¬ BC.Spec.Creates lits bytes false m) ∧ ∀ m, BC.Spec.Creates lits bytes true m → plain k m = true := by
  have key : ∀ p d, decode lits (bytes.drop p) = some d → p < bytes.length := by
    intro p d h
    rcases Nat.lt_or_ge p bytes.length with h1 | h1
    · exact h1
    · rw [List.drop_eq_nil_of_le h1] at h
      cases h
  rw [plain, List.all_eq_true] at h
  refine ⟨fun p i l k _ hd hk => ?_, fun m ⟨p, len, _, hd⟩ => ?_, fun m ⟨p, len, _, hd⟩ => ?_⟩
  · have h1 := h p (List.mem_range.mpr (key p _ hd))
    rw [hd] at h1
    rcases hk with rfl | rfl | rfl | rfl <;> cases h1
  · have h1 := h p (List.mem_range.mpr (key p _ hd))
    rw [hd] at h1
    cases h1
  · have h1 := h p (List.mem_range.mpr (key p _ hd))
    rw [hd] at h1
    simpa using h1

theorem plain_shown {lits : List (Lit Meth)} {bytes : List Nat} {m : Meth} (h : Spec.Shown lits bytes m) : ∀ k id loops args locals stack code,
    plain (k + 1) (.bc id lits bytes loops args locals stack code) = true → ∃ k', plain k' m = true := by
  induction h with
  | here lits bytes m h => exact fun k _ _ _ _ _ _ hp => ⟨k, (plain_ok hp).2.2 m h⟩
  | inner lits bytes m id lits' bytes' loops args locals stack code h _ ih =>
    intro k _ _ _ _ _ _ hp
    have h1 := (plain_ok hp).2.2 _ h
    cases k with
    | zero => cases h1
    | succ k => exact ih k _ _ _ _ _ _ h1

/-- The example meets the hypotheses of `C65_listing_partial`, and so of the others. -/
example : ∃ g C, exampleMethod.compile (fun _ => false) 5 = .ok g ∧ assemble g = .ok C ∧ Spec.FieldsOK [] C.lits C.bytes ∧ (∀ m, ¬ BC.Spec.Creates C.lits C.bytes false m) ∧
    (∀ id t, ¬ Spec.Shown C.lits C.bytes (.triv id t)) ∧
    (∀ id lits bytes loops args locals stack code, Spec.Shown C.lits C.bytes (.bc id lits bytes loops args locals stack code) →
      Spec.FieldsOK [] lits bytes ∧ ∀ m, ¬ BC.Spec.Creates lits bytes false m) ∧ ∃ m, Spec.Shown C.lits C.bytes m := by
  have h : (match exampleMethod.compile (fun _ => false) 5 with
    | .ok g => match assemble g with
      | .ok C => plain 5 (compiled 0 [] .nop g C) && (decide (C.bytes.take 20 = [20, 76, 0, 0, 75, 1, 0, 52, 16, 0, 74, 0, 0, 76, 1, 0, 75, 0, 0, 13])) &&
        (match decode C.lits (C.bytes.drop 19) with
          | some (.ins (.pushBlock true _) _) => true
          | _ => false)
      | .error _ => false
    | .error _ => false) = true := by decide +kernel
  split at h
  · next g hg =>
    split at h
    · next C hC =>
      simp only [Bool.and_eq_true, decide_eq_true_eq] at h
      obtain ⟨⟨h1, h2⟩, h3⟩ := h
      refine ⟨g, C, hg, hC, (plain_ok h1).1, (plain_ok h1).2.1, fun id t hs => ?_, fun _ _ _ _ _ _ _ _ hs => ?_, ?_⟩
      · obtain ⟨k, hk⟩ := plain_shown hs _ _ _ _ _ _ _ h1
        cases k <;> cases hk
      · obtain ⟨k, hk⟩ := plain_shown hs _ _ _ _ _ _ _ h1
        cases k with
        | zero => cases hk
        | succ k => exact ⟨(plain_ok hk).1, (plain_ok hk).2.1⟩
      · split at h3
        · next m n hd =>
          have at_ : ∀ i, i < 20 → C.bytes[i]? = [20, 76, 0, 0, 75, 1, 0, 52, 16, 0, 74, 0, 0, 76, 1, 0, 75, 0, 0, 13][i]? := by
            intro i hi
            rw [← h2, List.getElem?_take_of_lt hi]
          have b1 := BC.Spec.Boundary.next _ _ 1 (BC.Spec.Boundary.zero (bs := C.bytes)) (at_ 0 (by decide)) rfl
          have b2 := BC.Spec.Boundary.next _ _ 3 b1 (at_ 1 (by decide)) rfl
          have b3 := BC.Spec.Boundary.next _ _ 3 b2 (at_ 4 (by decide)) rfl
          have b4 := BC.Spec.Boundary.next _ _ 3 b3 (at_ 7 (by decide)) rfl
          have b5 := BC.Spec.Boundary.next _ _ 3 b4 (at_ 10 (by decide)) rfl
          have b6 := BC.Spec.Boundary.next _ _ 3 b5 (at_ 13 (by decide)) rfl
          have b7 := BC.Spec.Boundary.next _ _ 3 b6 (at_ 16 (by decide)) rfl
          exact ⟨m, .here _ _ _ ⟨19, n, b7, hd⟩⟩
        · cases h3
    · cases h
  · cases h

/-- `foo = ( ^[:x | x print] )`: the block needs no context. -/
def noContext : SMethod := ⟨[some 1], [], .exit (.blk false (.mk 1 [21, 22] [] (.last (.send "print".toList (.var true 1 0) .nil))))⟩

/-- **C65**, violated: a block that needs no context is not shown; the line says that the bytecode is incorrect. -/
theorem C65_violated_no_context : noContext.Wf ∧ listOf exampleNames noContext =
    some "(\n\t<0 locals, 5 stack, 3 bc_count>\n\t   0:PUSH_BLOCK_NO_CTX  <incorrect bytecode>\n\t   2:RETURN_LOCAL  \n\t)\n" := by
  refine ⟨⟨?_, trivial, by decide⟩, by decide +kernel⟩
  simp only [noContext, Body.Wf, Ex.Wf, Exs.Wf, SBlock.Wf, Exs.length, Body.fits]
  decide

end PySOM.Disasm

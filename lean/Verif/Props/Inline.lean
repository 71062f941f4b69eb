import Verif.Lemmas.ProgramAcc
import Verif.Props.Source
import Verif.Props.Trivial
/-!
# C31, C32, C44 for whole programs: methods with blocks, nested to any depth, inlined by `method_bc.py`

The theorems of `Props/Compile.lean` and `Props/Source.lean` are about every inliner that meets `Inliner.OK`.  The inliner of the model does (`inliner_ok`)
for blocks that the compiler has produced (`Compiled.good`), so here nothing is assumed about inlining.
-/
set_option autoImplicit false
namespace PySOM.BC
open PySOM

/-! ## The blocks of a method -/
namespace Spec

/-- An instruction at a boundary creates a block with this method. -/
def Creates {M : Type} (lits : List (Lit M)) (bytes : List Nat) (c : Bool) (m : M) : Prop :=
  ∃ p len, Boundary bytes p ∧ decode lits (bytes.drop p) = some (.ins (.pushBlock c m) len)

/-- The methods of the blocks that code creates, and of those that these create, and so on. -/
inductive Contains : List (Lit Meth) → List Nat → Meth → Prop where
  | here (lits : List (Lit Meth)) (bytes : List Nat) (c : Bool) (m : Meth) (h : Creates lits bytes c m) : Contains lits bytes m
  | inner (lits : List (Lit Meth)) (bytes : List Nat) (c : Bool) (m : Meth) (id : Nat) (lits' : List (Lit Meth)) (bytes' : List Nat)
      (loops : List (Nat × Nat)) (args locals : List Nat) (stack : Nat) (code : SC Meth)
      (h : Creates lits bytes c (.bc id lits' bytes' loops args locals stack code)) (hm : Contains lits' bytes' m) : Contains lits bytes m

end Spec

section
variable {M : Type}

theorem boundary_append {d : Dec M} {lits : List (Lit M)} {b rest : List Nat} (hd : Is lits d b) (hl : b.length = d.len) {p : Nat} (h : Spec.Boundary (b ++ rest) p) :
    p = 0 ∨ ∃ q, p = b.length + q ∧ Spec.Boundary rest q := by
  induction h with
  | zero => exact .inl rfl
  | next p op n h ho hn ih =>
    rcases ih with rfl | ⟨q, rfl, hq⟩
    · right
      refine ⟨0, ?_, .zero⟩
      have := hd rest
      cases hb : b ++ rest with
      | nil => rw [hb] at ho; cases ho
      | cons op' r =>
        rw [hb] at ho this
        simp only [List.getElem?_cons_zero, Option.some.injEq] at ho
        subst ho
        have := C44_lengths_agree lits op' r d this
        rw [hn] at this
        cases this
        omega
    · right
      refine ⟨q + n, by omega, .next q op n hq ?_ hn⟩
      rw [List.getElem?_append_right (by omega)] at ho
      rw [← ho]; congr 1; omega

/-- The instructions at the boundaries. -/
theorem Flat.at {P : Ins M → Prop} {lits : List (Lit M)} {bs : List Nat} (h : Flat P lits bs) : ∀ {p : Nat} {i : Ins M} {n : Nat}, Spec.Boundary bs p →
    decode lits (bs.drop p) = some (.ins i n) → P i := by
  induction h with
  | nil => intro p i n _ h; rw [List.drop_nil] at h; cases h
  | cons d b rest hd hl hp hj hr ih =>
    intro p i n hb h
    rcases boundary_append hd hl hb with rfl | ⟨q, rfl, hq⟩
    · rw [List.drop_zero, hd rest] at h
      cases h
      exact hp i n rfl
    · rw [List.drop_append, List.drop_of_length_le (by omega), List.nil_append, show b.length + q - b.length = q by omega] at h
      exact ih hq h

theorem Enc.creates {lits : List (Lit M)} {c : SC M} {bs : List Nat} (h : Enc lits c bs) {k : Bool} {m : M} (hc : Spec.Creates lits bs k m) :
    Ins.pushBlock k m ∈ c.instrs := by
  obtain ⟨p, n, hp, hd⟩ := hc
  exact (h.flat fun i hi => hi).at hp hd
end

/-- Code all of whose blocks are sound contains only sound blocks. -/
theorem contains_sound {lits : List (Lit Meth)} {bytes : List Nat} {m : Meth} (h : Spec.Contains lits bytes m) : ∀ {c : SC Meth}, Enc lits c bytes →
    (∀ k m, Ins.pushBlock k m ∈ c.instrs → ∃ l, Sound l m) → ∃ l, Sound l m := by
  induction h with
  | here lits bytes k m h => intro c he hs; exact hs k m (he.creates h)
  | inner lits bytes k m id lits' bytes' loops args locals stack code h hm ih =>
    intro c he hs
    obtain ⟨l, hl⟩ := hs k _ (he.creates h)
    cases hl with
    | bc _ _ _ _ _ _ _ _ _ enc ty std size small ends ins ids inn closed =>
      refine ih enc fun k m hm => ?_
      cases k with
      | true => exact ⟨_, inn m hm⟩
      | false => exact ⟨0, closed m hm 0⟩

theorem Sourced.blksOK {n lvl : Nat} {isBlock : Bool} {b : Body Meth} (h : Sourced n lvl isBlock b) : BlksOK lvl b.blks :=
  ⟨fun c m hm => (h.blocks c m hm).good, fun m hm => (h.closed m hm).sound lvl (h.blocks _ m hm).good.1⟩

theorem Sourced.good {n lvl : Nat} {isBlock : Bool} {b : Body Meth} (h : Sourced n lvl isBlock b) : b.wf ((inliner n).good lvl) := b.wf_of h.wf h.blksOK.good

/-! ## The instructions of methods -/

theorem effOnly_sub {n lvl : Nat} {e : Ex Meth} {st : Bool × List Nat} {c : SC Meth} (hw : e.wf fun _ => True) (hb : BlksOK lvl e.blks)
    (h : effOnly (inliner n) lvl e st = some c) : ∀ i ∈ c.instrs, i = impossible ∨ Fine lvl i := by
  unfold effOnly at h
  split at h
  · split at h
    · cases h
      simp only [Ex.wf, Ex.blks] at hw hb
      exact (genAsgEff_piece (genEx_piece n lvl _ st hw hb)).fine
    · cases h
  · cases h

theorem genMethod_fine (n : Nat) : ∀ (b : Body Meth) (st : Bool × List Nat), b.wf (fun _ => True) → BlksOK 0 b.blks →
    ∀ i ∈ (genBody (inliner n) false 0 b st).instrs, i = impossible ∨ Fine 0 i := by
  have ret : ∀ i, i = Ins.retSelf ∨ i = Ins.retLocal → Fine 0 i := by
    rintro i (rfl | rfl) <;> exact .other trivial (fun _ _ h => nomatch h)
  intro b
  induction b with
  | done =>
    intro st _ _ i hi
    simp only [genBody, Bool.false_eq_true, if_false] at hi
    exact .inr (ret i (.inl (List.mem_singleton.mp hi)))
  | exitSelf =>
    intro st _ _ i hi
    simp only [genBody] at hi
    exact .inr (ret i (.inl (List.mem_singleton.mp hi)))
  | last e =>
    intro st hw hb i hi
    simp only [Body.wf, Body.blks, genBody, Bool.false_eq_true, if_false] at hw hb hi
    rcases List.mem_append.mp hi with hi | hi
    · cases he : effOnly (inliner n) 0 e st with
      | some c => rw [he] at hi; exact effOnly_sub hw hb he i hi
      | none => rw [he] at hi; exact (genEx_piece n 0 e st hw hb).fine i hi
    · exact .inr (ret i (.inl (List.mem_singleton.mp hi)))
  | exit e =>
    intro st hw hb i hi
    simp only [Body.wf, Body.blks, genBody, Bool.false_eq_true, if_false] at hw hb hi
    have plain : i ∈ (SC.seq (genEx (inliner n) 0 e st).1 (.ins .retLocal)).instrs → i = impossible ∨ Fine 0 i := by
      intro hi
      rcases List.mem_append.mp hi with hi | hi
      · exact (genEx_piece n 0 e st hw hb).fine i hi
      · exact .inr (ret i (.inr (List.mem_singleton.mp hi)))
    unfold genReturn at hi
    split at hi
    · split at hi
      · rw [List.mem_singleton.mp hi]
        exact .inr (.other rfl (fun _ _ h => nomatch h))
      · exact plain hi
    · exact plain hi
  | stmt e rest ih =>
    intro st hw hb i hi
    simp only [Body.wf, Body.blks] at hw hb
    by_cases hr : rest = .done
    · subst hr
      simp only [genBody, Bool.false_eq_true, if_false] at hi
      rcases List.mem_append.mp hi with hi | hi
      · exact (genStmt_piece hw.1 hb.left).fine i hi
      · exact .inr (ret i (.inl (List.mem_singleton.mp hi)))
    · have hgb : genBody (inliner n) false 0 (.stmt e rest) st =
          .seq (genStmt (inliner n) 0 e st).1 (genBody (inliner n) false 0 rest (genStmt (inliner n) 0 e st).2) := by
        cases rest with
        | done => exact absurd rfl hr
        | _ => simp only [genBody]
      rw [hgb] at hi
      rcases List.mem_append.mp hi with hi | hi
      · exact (genStmt_piece hw.1 hb.left).fine i hi
      · exact ih _ hw.2 hb.right i hi

theorem method_blocks {n : Nat} {env : List Nat} {b : Body Meth} {g : G Meth (List Nat)} (hs : Sourced n 0 false b)
    (hc : compile (inlineMeth n) false 0 env b = .ok g) {m : Meth} (hm : Spec.Contains g.lits g.bytes m) : ∃ l, Sound l m := by
  have he := (compile_ok (inliner_ok n) hs.good (by decide) hc).1
  refine contains_sound hm he fun k m hm => ?_
  have hf := (genMethod_fine n b (false, env) hs.wf hs.blksOK _ hm).resolve_left (by intro h; cases h)
  cases k with
  | true => exact ⟨_, hf.inner m rfl⟩
  | false => exact ⟨0, hf.closed m rfl 0⟩

/-! ## C31 -/

/-- The code of a block never leaves its stack. -/
theorem Sound.safe {W E : Type} {lvl id : Nat} {lits : List (Lit Meth)} {bytes : List Nat} {loops : List (Nat × Nat)} {args locals : List Nat} {stack : Nat}
    {code : SC Meth} (h : Sound lvl (.bc id lits bytes loops args locals stack code)) (A : World Meth W E) (w : W) (i : Nat) (k : Crash) (w' : W) :
    ¬ Steps A ⟨lits, bytes, stack⟩ i (Code.start w) (.crash k w') := by
  cases h with
  | bc _ _ _ _ _ _ _ _ _ enc ty std size small ends ins ids inn closed =>
    exact Enc.safe (C := ⟨lits, bytes, stack⟩) enc (ty 0) size (SC.endsRet_returns _ ends) A w i k w'

/-- **C31** (partial): for every method the compiler produces and every block that the method or one of its blocks creates — after inlining, which changes the
bytes of nested blocks — no execution reads below the bottom of the operand stack or writes above its end.  Missing: the symbol
`#ArraySizeLiteralPlaceholder` must not occur in a literal array (`SMethod.Wf`). -/
theorem C31_program_partial {W E : Type} {known : Sel → Bool} {n : Nat} {s : SMethod} {g : G Meth (List Nat)} {C : Code Meth} (hw : s.Wf)
    (hc : s.compile known n = .ok g) (ha : assemble g = .ok C) (A : World Meth W E) (w : W) (i : Nat) (k : Crash) (w' : W) :
    ¬ Steps A C i (Code.start w) (.crash k w') ∧
    ∀ id lits bytes loops args locals stack code, Spec.Contains C.lits C.bytes (.bc id lits bytes loops args locals stack code) →
      ¬ Steps A ⟨lits, bytes, stack⟩ i (Code.start w) (.crash k w') := by
  obtain ⟨b, _, hs, hc⟩ := s.compile_sourced hw hc
  refine ⟨(C31_stack_safe (inliner_ok n) hs.good (by decide) hc ha A w i k w').1, ?_⟩
  obtain ⟨_, rfl⟩ := assemble_ok ha
  intro id lits bytes loops args locals stack code hm
  obtain ⟨l, hl⟩ := method_blocks hs hc hm
  exact hl.safe A w i k w'

/-! ## C44 -/

/-- **C44** (partial): the bytes of every method the compiler produces, and of every block that the method or one of its blocks creates, are well-formed.
Missing: as for C31. -/
theorem C44_program_partial {known : Sel → Bool} {n : Nat} {s : SMethod} {g : G Meth (List Nat)} {C : Code Meth} (hw : s.Wf)
    (hc : s.compile known n = .ok g) (ha : assemble g = .ok C) :
    Spec.WellFormed C.lits C.bytes ∧
    ∀ id lits bytes loops args locals stack code, Spec.Contains C.lits C.bytes (.bc id lits bytes loops args locals stack code) → Spec.WellFormed lits bytes := by
  obtain ⟨b, _, hs, hc⟩ := s.compile_sourced hw hc
  refine ⟨C44_well_formed (inliner_ok n) hs.good (by decide) hc ha, ?_⟩
  obtain ⟨_, rfl⟩ := assemble_ok ha
  intro id lits bytes loops args locals stack code hm
  obtain ⟨l, hl⟩ := method_blocks hs hc hm
  cases hl with
  | bc _ _ _ _ _ _ _ _ _ enc ty std size small ends ins ids inn closed => exact enc.wellFormed small ends

/-! ## C32 -/
namespace Spec

/-- The accesses of bytes, one instruction after the other, with those of the blocks they create at the places where they are created.  `chain` are the scopes,
from the inside out: an index and a level denote a variable that they declare.  A block without context has only its own scope. -/
inductive Accesses : List (Lit Meth) → List Scope → List Nat → List Access → Prop where
  | nil (lits : List (Lit Meth)) (chain : List Scope) : Accesses lits chain [] []
  | ins (lits : List (Lit Meth)) (chain : List Scope) (i : Ins Meth) (b rest : List Nat) (as : List Access) (hi : Is lits (.ins i b.length) b)
      (hb : ∀ c m, i ≠ .pushBlock c m) (hr : Accesses lits chain rest as) : Accesses lits chain (b ++ rest) (i.acc chain ++ as)
  | jump (lits : List (Lit Meth)) (chain : List Scope) (d : Dec Meth) (b rest : List Nat) (as : List Access) (hj : IsJump d b) (hd : ∀ i n, d ≠ .ins i n)
      (hr : Accesses lits chain rest as) : Accesses lits chain (b ++ rest) as
  | block (lits : List (Lit Meth)) (chain : List Scope) (c : Bool) (id : Nat) (lits' : List (Lit Meth)) (bytes : List Nat) (loops : List (Nat × Nat)) (args locals : List Nat) (stack : Nat)
      (code : SC Meth) (b rest : List Nat) (as as' : List Access) (hi : Is lits (.ins (.pushBlock c (.bc id lits' bytes loops args locals stack code)) b.length) b)
      (hm : Accesses lits' (Scope.block args locals :: if c then chain else []) bytes as') (hr : Accesses lits chain rest as) :
      Accesses lits chain (b ++ rest) (as' ++ as)
  | trivial (lits : List (Lit Meth)) (chain : List Scope) (c : Bool) (id : Nat) (t : Triv Meth) (b rest : List Nat) (as : List Access)
      (hi : Is lits (.ins (.pushBlock c (.triv id t)) b.length) b) (hr : Accesses lits chain rest as) :
      Accesses lits chain (b ++ rest) (t.acc (if c then chain else []) ++ as)

end Spec

theorem Spec.Accesses.append {lits : List (Lit Meth)} {chain : List Scope} {a b : List Nat} {x y : List Access} (ha : Spec.Accesses lits chain a x)
    (hb : Spec.Accesses lits chain b y) : Spec.Accesses lits chain (a ++ b) (x ++ y) := by
  induction ha with
  | nil => exact hb
  | ins lits chain i b rest as hi hn _ ih => rw [List.append_assoc, List.append_assoc]; exact .ins _ _ i b _ _ hi hn (ih hb)
  | jump lits chain d b rest as hj hd _ ih => rw [List.append_assoc]; exact .jump _ _ d b _ _ hj hd (ih hb)
  | block lits chain c id lits' bytes loops args locals stack code b rest as as' hi hm _ _ ih =>
    rw [List.append_assoc, List.append_assoc]; exact .block _ _ c id lits' bytes loops args locals stack code b _ _ as' hi hm (ih hb)
  | trivial lits chain c id t b rest as hi _ ih => rw [List.append_assoc, List.append_assoc]; exact .trivial _ _ c id t b _ _ hi (ih hb)

theorem Spec.Accesses.one {lits : List (Lit Meth)} {chain : List Scope} {i : Ins Meth} {b : List Nat} (hi : Is lits (.ins i b.length) b)
    (hb : ∀ c m, i ≠ .pushBlock c m) : Spec.Accesses lits chain b (i.acc chain) := by
  have := Spec.Accesses.ins lits chain i b [] [] hi hb (.nil _ _)
  rwa [List.append_nil, List.append_nil] at this

theorem Spec.Accesses.jmp {lits : List (Lit Meth)} {chain : List Scope} {d : Dec Meth} {b : List Nat} (hj : IsJump d b) (hd : ∀ i n, d ≠ .ins i n) :
    Spec.Accesses lits chain b [] := by
  have := Spec.Accesses.jump lits chain d b [] [] hj hd (.nil _ _)
  rwa [List.append_nil] at this

/-- The bytes of encoded code have the accesses of the code, if that holds for the blocks. -/
theorem Enc.accesses {lits : List (Lit Meth)} {c : SC Meth} {bs : List Nat} (h : Enc lits c bs) {chain : List Scope}
    (hb : ∀ i ∈ c.instrs, ∀ b, Is lits (.ins i b.length) b → Spec.Accesses lits chain b (i.acc chain)) : Spec.Accesses lits chain bs (c.acc chain) := by
  induction h with
  | nop => simp only [SC.acc]; exact .nil _ _
  | ins i bs h => simp only [SC.acc]; exact hb i (List.mem_singleton.mpr rfl) bs h
  | seq a b ba bb _ _ iha ihb =>
    simp only [SC.acc]
    exact (iha fun i hi => hb i (List.mem_append_left _ hi)).append (ihb fun i hi => hb i (List.mem_append_right _ hi))
  | thenB c body j bb hj _ ih => simp only [SC.acc]; exact (Spec.Accesses.jmp hj nofun).append (ih hb)
  | ifElse c a b j ba k bb hj _ hk _ iha ihb =>
    simp only [SC.acc]
    exact (Spec.Accesses.jmp hj nofun).append ((iha fun i hi => hb i (List.mem_append_left _ hi)).append
      ((Spec.Accesses.jmp hk nofun).append (ihb fun i hi => hb i (List.mem_append_right _ hi))))
  | loop c cond body bc j bb k _ hj _ hk iha ihb =>
    simp only [SC.acc]
    have := (iha fun i hi => hb i (List.mem_append_left _ hi)).append ((Spec.Accesses.jmp hj nofun).append
      ((ihb fun i hi => hb i (List.mem_append_right _ hi)).append (Spec.Accesses.jmp hk nofun)))
    simpa using this

/-- A block and the code that creates it. -/
theorem Sound.accesses {l : Nat} {m : Meth} (h : Sound l m) : ∀ (c : Bool) (lits : List (Lit Meth)) (chain : List Scope) (b : List Nat),
    Is lits (.ins (.pushBlock c m) b.length) b → Spec.Accesses lits chain b (m.acc (if c then chain else [])) := by
  induction h with
  | triv lvl id t ok =>
    intro c lits chain b hi
    have := Spec.Accesses.trivial lits chain c id t b [] [] hi (.nil _ _)
    simp only [Meth.acc]
    rwa [List.append_nil, List.append_nil] at this
  | bc lvl id lits' bytes loops args locals stack code enc ty std size small ends ins ids inner closed ih1 ih2 =>
    intro c lits chain b hi
    have hacc : Spec.Accesses lits' (Scope.block args locals :: if c then chain else []) bytes (code.acc (Scope.block args locals :: if c then chain else [])) := by
      refine enc.accesses fun i hm b hb => ?_
      by_cases hp : ∃ c m, i = .pushBlock c m
      · obtain ⟨c', m', rfl⟩ := hp
        cases c' with
        | true => have := ih1 m' hm true _ (Scope.block args locals :: if c then chain else []) b hb; simpa only [Ins.acc, if_true] using this
        | false =>
          have := ih2 m' hm 0 false _ (Scope.block args locals :: if c then chain else []) b hb
          simpa only [Ins.acc, Bool.false_eq_true, if_false] using this
      · exact .one hb fun c m e => hp ⟨c, m, e⟩
    have := Spec.Accesses.block lits chain c id lits' bytes loops args locals stack code b [] [] _ hi hacc (.nil _ _)
    simp only [Meth.acc]
    rwa [List.append_nil, List.append_nil] at this

/-- **C32**: the compiled method, in which blocks have been inlined into the method and into each other to any depth, accesses exactly the variables that its source
accesses, in the same order: each index and level in its bytes, and in the bytes of the blocks it still creates, denotes among the final variables the
variable that is meant in the source, where every block has a scope of its own.  The final variables are the method's own, then those of inlined blocks; if all
variables of the source are different, so are they, hence no two share a place.  The only hypothesis on variables is that every access of the source
denotes something (`Known`), as the parser has resolved the names. -/
theorem C32_bindings_partial {known : Sel → Bool} {n : Nat} {s : SMethod} {g : G Meth (List Nat)} {C : Code Meth} (hw : s.Wf)
    (hc : s.compile known n = .ok g) (ha : assemble g = .ok C) (hk : Known s.accesses) :
    Spec.Accesses C.lits [⟨s.args, g.env⟩] C.bytes s.accesses ∧
    (∃ t, g.env = s.env ++ t ∧ t.Sublist s.body.slocals) ∧ ((s.env ++ s.body.slocals).Nodup → g.env.Nodup) := by
  obtain ⟨b, hb, hs, hc⟩ := s.compile_sourced hw hc
  obtain ⟨_, rfl⟩ := assemble_ok ha
  have hac := s.body.build_acc known n 0 [⟨s.args, s.env⟩] b hw.body hw.ids hb hk
  have hgrew : ∃ t, g.env = s.env ++ t ∧ t.Sublist s.body.slocals := by
    obtain ⟨t, e, ht⟩ := bodyEnv_grew n 0 b (false, s.env)
    exact ⟨t, by rw [compile_env (inliner_ok n) hs.good hc, e], ht.trans (s.body.build_locals known n 0 b hw.body hw.ids hb)⟩
  refine ⟨?_, hgrew, ?_⟩
  · have hgc := compile_acc hs.wf hs.blksOK (by decide) hc (args := s.args) (rest := []) (by rw [hac]; exact hk)
    have hac' : b.acc 0 [⟨s.args, s.env⟩] = s.accesses := hac
    rw [hac'] at hgc
    show Spec.Accesses g.lits [⟨s.args, g.env⟩] g.bytes s.accesses
    rw [← hgc]
    refine (compile_ok (inliner_ok n) hs.good (by decide) hc).1.accesses fun i hm b hb => ?_
    by_cases hp : ∃ c m, i = .pushBlock c m
    · obtain ⟨c', m', rfl⟩ := hp
      have hf := (genMethod_fine n _ (false, s.env) hs.wf hs.blksOK _ hm).resolve_left (by intro h; cases h)
      cases c' with
      | true => have := (hf.inner m' rfl).accesses true _ [⟨s.args, g.env⟩] b hb; simpa only [Ins.acc, if_true] using this
      | false => have := (hf.closed m' rfl 0).accesses false _ [⟨s.args, g.env⟩] b hb; simpa only [Ins.acc, Bool.false_eq_true, if_false] using this
    · exact .one hb fun c m e => hp ⟨c, m, e⟩
  · intro hn
    obtain ⟨t, e, ht⟩ := hgrew
    rw [e]
    exact hn.sublist ((List.Sublist.refl _).append ht)

/-- What bytes that are not empty begin with. -/
theorem Spec.Accesses.inv {lits : List (Lit Meth)} {chain : List Scope} {bs : List Nat} {x : List Access} (h : Spec.Accesses lits chain bs x) :
    (bs = [] ∧ x = []) ∨ ∃ d b rest as0 as, bs = b ++ rest ∧ x = as0 ++ as ∧ Is lits d b ∧ b.length = d.len ∧ Spec.Accesses lits chain rest as ∧
      ((∃ i n, d = .ins i n ∧ (∀ c m, i ≠ .pushBlock c m) ∧ as0 = i.acc chain) ∨ ((∀ i n, d ≠ .ins i n) ∧ as0 = []) ∨
       (∃ c id lits' bytes loops args locals stack code n, d = .ins (.pushBlock c (.bc id lits' bytes loops args locals stack code)) n ∧
         Spec.Accesses lits' (Scope.block args locals :: if c then chain else []) bytes as0) ∨
       (∃ c id t n, d = .ins (.pushBlock c (.triv id t)) n ∧ as0 = t.acc (if c then chain else []))) := by
  cases h with
  | nil => exact .inl ⟨rfl, rfl⟩
  | ins _ _ i b rest as hi hn hr => exact .inr ⟨_, b, rest, _, as, rfl, rfl, hi, rfl, hr, .inl ⟨i, _, rfl, hn, rfl⟩⟩
  | jump _ _ d b rest as hj hd hr =>
    refine .inr ⟨d, b, rest, [], _, rfl, rfl, hj.is lits, ?_, hr, .inr (.inl ⟨hd, rfl⟩)⟩
    rw [hj.len]
    cases d with
    | ins i n => exact absurd rfl (hd i n)
    | _ => rfl
  | block _ _ c id lits' bytes loops args locals stack code b rest as as' hi hm hr =>
    exact .inr ⟨_, b, rest, as', as, rfl, rfl, hi, rfl, hr, .inr (.inr (.inl ⟨c, id, lits', bytes, loops, args, locals, stack, code, _, rfl, hm⟩))⟩
  | trivial _ _ c id t b rest as hi hr => exact .inr ⟨_, b, rest, _, as, rfl, rfl, hi, rfl, hr, .inr (.inr (.inr ⟨c, id, t, _, rfl, rfl⟩))⟩

theorem Is.ne_nil {M : Type} {lits : List (Lit M)} {d : Dec M} {b : List Nat} (h : Is lits d b) : b ≠ [] := by
  rintro rfl
  have := h []
  cases this

/-- The accesses of bytes are determined by the bytes, so that `C32_bindings_partial` says all there is to say about them. -/
theorem C32_accesses_unique {lits : List (Lit Meth)} {chain : List Scope} {bs : List Nat} {x : List Access} (h : Spec.Accesses lits chain bs x) :
    ∀ {y : List Access}, Spec.Accesses lits chain bs y → x = y := by
  have step : ∀ {lits : List (Lit Meth)} {chain : List Scope} {d : Dec Meth} {b rest : List Nat} {y : List Access}, Is lits d b → b.length = d.len →
      Spec.Accesses lits chain (b ++ rest) y → ∃ as0 as, y = as0 ++ as ∧ Spec.Accesses lits chain rest as ∧
      ((∃ i n, d = .ins i n ∧ (∀ c m, i ≠ .pushBlock c m) ∧ as0 = i.acc chain) ∨ ((∀ i n, d ≠ .ins i n) ∧ as0 = []) ∨
       (∃ c id lits' bytes loops args locals stack code n, d = .ins (.pushBlock c (.bc id lits' bytes loops args locals stack code)) n ∧
         Spec.Accesses lits' (Scope.block args locals :: if c then chain else []) bytes as0) ∨
       (∃ c id t n, d = .ins (.pushBlock c (.triv id t)) n ∧ as0 = t.acc (if c then chain else []))) := by
    intro lits chain d b rest y hi hl hy
    rcases hy.inv with ⟨e, _⟩ | ⟨d', b', rest', as0, as, e, rfl, hi', hl', hr, hx⟩
    · exact absurd (List.append_eq_nil_iff.mp e).1 hi.ne_nil
    · obtain ⟨rfl, rfl, rfl⟩ := hi.unique hi' hl hl' e
      exact ⟨as0, as, rfl, hr, hx⟩
  induction h with
  | nil =>
    intro y hy
    rcases hy.inv with ⟨_, e⟩ | ⟨d', b', rest', as0, as, e, _, hi', _⟩
    · exact e.symm
    · exact absurd (List.append_eq_nil_iff.mp e.symm).1 hi'.ne_nil
  | ins lits chain i b rest as hi hn _ ih =>
    intro y hy
    obtain ⟨as0, as1, rfl, hr, hx⟩ := step hi rfl hy
    rw [ih hr]
    congr 1
    rcases hx with ⟨i', n', e, _, rfl⟩ | ⟨e, _⟩ | ⟨c, id, lits', bytes, loops, args, locals, stack, code, n', e, _⟩ | ⟨c, id, t, n', e, _⟩
    · cases e; rfl
    · exact absurd rfl (e _ _)
    · cases e; exact absurd rfl (hn _ _)
    · cases e; exact absurd rfl (hn _ _)
  | jump lits chain d b rest as hj hd _ ih =>
    intro y hy
    obtain ⟨as0, as1, rfl, hr, hx⟩ := step (hj.is lits) (by
      rw [hj.len]
      cases d with
      | ins i n => exact absurd rfl (hd i n)
      | _ => rfl) hy
    rw [ih hr]
    rcases hx with ⟨i', n', e, _, rfl⟩ | ⟨e, rfl⟩ | ⟨c, id, lits', bytes, loops, args, locals, stack, code, n', e, _⟩ | ⟨c, id, t, n', e, _⟩
    · exact absurd e (hd _ _)
    · rfl
    · exact absurd e (hd _ _)
    · exact absurd e (hd _ _)
  | block lits chain c id lits' bytes loops args locals stack code b rest as as' hi hm _ ihm ih =>
    intro y hy
    obtain ⟨as0, as1, rfl, hr, hx⟩ := step hi rfl hy
    rw [ih hr]
    congr 1
    rcases hx with ⟨i', n', e, h', rfl⟩ | ⟨e, rfl⟩ | ⟨c, id, lits', bytes, loops, args, locals, stack, code, n', e, hm'⟩ | ⟨c, id, t, n', e, _⟩
    · cases e; exact absurd rfl (h' _ _)
    · exact absurd rfl (e _ _)
    · cases e; exact ihm hm'
    · cases e
  | trivial lits chain c id t b rest as hi _ ih =>
    intro y hy
    obtain ⟨as0, as1, rfl, hr, hx⟩ := step hi rfl hy
    rw [ih hr]
    congr 1
    rcases hx with ⟨i', n', e, h', rfl⟩ | ⟨e, rfl⟩ | ⟨c, id, lits', bytes, loops, args, locals, stack, code, n', e, hm'⟩ | ⟨c, id, t, n', e, e'⟩
    · cases e; exact absurd rfl (h' _ _)
    · exact absurd rfl (e _ _)
    · cases e
    · cases e; exact e'.symm

/-! ## Examples -/

/-- `[ b + a ]` inside the block below: the variable of the block is at level 1, that of the method at level 2. -/
def innerBlock : SBlock := .mk 2 [22] [] (.last (.send "+".toList (.var false 0 1) (.cons (.var false 0 2) .nil)))

/-- `c ifTrue: [ | b | b := a. self do: [ b + a ] ]` -/
def outerBlock : SBlock :=
  .mk 1 [21] [12] (.stmt (.asg (.var "b".toList false 0 0) [] (.var false 0 1))
    (.last (.send "do:".toList (.var true 0 1) (.cons (.blk true innerBlock) .nil))))

/-- `foo: c = ( | a | a := 1. c ifTrue: [ … ] )` -/
def exampleMethod : SMethod :=
  ⟨[some 1, some 2], [11], .stmt (.asg (.var "a".toList false 0 0) [] (.lit (.val (.int 1))))
    (.last (.send "ifTrue:".toList (.var true 1 0) (.cons (.blk true outerBlock) .nil)))⟩

example : exampleMethod.Wf := by
  refine ⟨?_, trivial, by decide⟩
  simp only [exampleMethod, outerBlock, innerBlock, Body.Wf, Ex.Wf, Exs.Wf, SBlock.Wf, LitT.ok, Exs.length, Body.fits]
  decide

/-- The accesses of the source: `a` is 11, `b` is 12, `c` is 2 and `self` is 1. -/
example : exampleMethod.accesses = [.write (some 11), .read (some 2), .read (some 11), .write (some 12), .read (some 1), .read (some 12), .read (some 11)] := by
  decide +kernel

example : Known exampleMethod.accesses := by
  intro a h
  have h' : a ∈ ([.write (some 11), .read (some 2), .read (some 11), .write (some 12), .read (some 1), .read (some 12), .read (some 11)] : List Access) := h
  simp only [List.mem_cons, List.not_mem_nil, or_false] at h'
  rcases h' with rfl | rfl | rfl | rfl | rfl | rfl | rfl <;> rfl

/-- It compiles; the variable of the inlined block has become the second of the method, and the block that is left finds both one level up (the other entry
with bytes is the block before it was inlined, which the code no longer creates). -/
example : (match exampleMethod.compile (fun _ => false) 5 with
    | .ok g => (match assemble g with
      | .ok C => some (g.env, C.bytes, C.lits.map fun (l : Lit Meth) => match l with
        | .meth (.bc _ _ bytes _ _ _ _ _) => bytes
        | _ => [])
      | .error _ => none)
    | .error _ => none) =
    some ([11, 12], [20, 76, 0, 0, 75, 1, 0, 52, 16, 0, 74, 0, 0, 76, 1, 0, 75, 0, 0, 13, 2, 36, 3, 42],
      [[], [74, 0, 1, 76, 0, 0, 75, 0, 1, 13, 1, 36, 2, 40], [74, 1, 1, 74, 0, 1, 36, 0, 40], []]) := by
  decide +kernel

/-! ## Sources that do not compile -/

/-- `foo: x = ( x ifNotNil: [ :v | self do: v ] )` -/
def argumentMethod : SMethod :=
  ⟨[some 1, some 2], [], .last (.send "ifNotNil:".toList (.var true 1 0)
    (.cons (.blk true (.mk 1 [21, 22] [] (.last (.send "do:".toList (.var true 0 1) (.cons (.var true 1 0) .nil))))) .nil))⟩

/-- **C32**, violated: a block with an argument in a message that is inlined, such as `x ifNotNil: [ :v | … ]`, does not compile at all: `merge_into_scope` asserts that
there are no arguments (`compiler/method_generation_context.py:214-215`), while the plain message would be sent. -/
theorem C32_violated_argument : argumentMethod.Wf ∧ Known argumentMethod.accesses ∧
    ∀ n, (argumentMethod.compile (fun _ => false) (n + 1)).map (fun _ => ()) = .error .assertion := by
  refine ⟨⟨?_, trivial, by decide⟩, ?_, fun n => rfl⟩
  · simp only [argumentMethod, Body.Wf, Ex.Wf, Exs.Wf, SBlock.Wf, Exs.length, Body.fits]
    decide
  · intro a h
    have h' : a ∈ ([.read (some 2), .read (some 1), .read (some 22)] : List Access) := h
    simp only [List.mem_cons, List.not_mem_nil, or_false] at h'
    rcases h' with rfl | rfl | rfl <;> rfl

/-- `foo: c = ( c ifTrue: [ self do: [ field ] ] )` -/
def fieldMethod : SMethod :=
  ⟨[some 1, some 2], [], .last (.send "ifTrue:".toList (.var true 1 0)
    (.cons (.blk true (.mk 1 [21] [] (.last (.send "do:".toList (.var true 0 1) (.cons (.blk true (.mk 2 [22] [] (.last (.fld "field".toList 0)))) .nil))))) .nil))⟩

/-- **C32**, violated: a block whose body is only the name of a field becomes a trivial method (`vmobjects/method_trivial.py`), which has no
`adapt_after_outer_inlined`, so that a block around it cannot be inlined and the method does not compile. -/
theorem C32_violated_trivial : fieldMethod.Wf ∧ Known fieldMethod.accesses ∧
    ∀ n, (fieldMethod.compile (fun _ => false) (n + 1)).map (fun _ => ()) = .error .attribute := by
  refine ⟨⟨?_, trivial, by decide⟩, ?_, fun n => rfl⟩
  · simp only [fieldMethod, Body.Wf, Ex.Wf, Exs.Wf, SBlock.Wf, Exs.length, Body.fits]
    decide
  · intro a h
    have h' : a ∈ ([.read (some 2), .read (some 1), .readFld 0 (some 1)] : List Access) := h
    simp only [List.mem_cons, List.not_mem_nil, or_false] at h'
    rcases h' with rfl | rfl | rfl <;> rfl

end PySOM.BC

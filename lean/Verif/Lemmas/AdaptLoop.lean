import Verif.Lemmas.Adapt
/-!
# Adapting a block nested in an inlined one: all instructions
-/
set_option autoImplicit false
namespace PySOM.BC
open PySOM

section
variable {sub : Meth → Except Err Meth} {k : Nat} {chain : List (List Nat)} {new : List Nat}

theorem adaptLoop_step {n : Nat} {op : Nat} {bt pre post : List Nat} {l l' : List (Lit Meth)} {bs' : List Nat} {M : Type} {lits : List (Lit M)} {d : Dec M}
    (hd : Is lits d (op :: bt)) (h : adaptLoop sub k chain new n pre.length (pre ++ (op :: bt ++ post)) l = .ok (bs', l')) :
    ∃ n1 bs1 l1, adaptOp sub k chain new op pre.length (pre ++ (op :: bt ++ post)) l = .ok (bs1, l1) ∧
      adaptLoop sub k chain new n1 (pre.length + d.len) bs1 l1 = .ok (bs', l') := by
  have hlt : pre.length < (pre ++ (op :: bt ++ post)).length := by simp
  cases n with
  | zero => simp only [adaptLoop, if_pos hlt] at h; cases h
  | succ n =>
    simp only [adaptLoop, if_pos hlt] at h
    obtain ⟨op', hop, h⟩ := except_bind_ok h
    have hop := getByte_ok hop
    have : op' = op := by simpa using hop.symm
    subst this
    obtain ⟨len, hlen, h⟩ := except_bind_ok h
    rw [lenOf_decode (hd [])] at hlen
    cases hlen
    obtain ⟨⟨bs1, l1⟩, h1, h2⟩ := except_bind_ok h
    exact ⟨n, bs1, l1, h1, h2⟩

theorem adaptLoop_jump {n : Nat} {j pre post : List Nat} {l l' : List (Lit Meth)} {bs' : List Nat} {d : Dec Meth}
    (hj : IsJump d j) (hd : ∀ i n, d ≠ .ins i n) (hdl : d.len = 3) (h : adaptLoop sub k chain new n pre.length (pre ++ (j ++ post)) l = .ok (bs', l')) :
    ∃ n1, adaptLoop sub k chain new n1 (pre ++ j).length ((pre ++ j) ++ post) l = .ok (bs', l') := by
  obtain ⟨op, x, y, rfl, _⟩ := hj.dist
  obtain ⟨n1, bs1, l1, h1, h2⟩ := adaptLoop_step (hj.is []) h
  have h50 : 50 ≤ op ∧ op ≤ 69 := by
    rcases decodeOp_class (show decodeOp [] op (some x) (some y) = some d from hj.is [] []) with ⟨i, n, e⟩ | h
    · exact absurd e (hd i n)
    · exact h
  have hno : noContextBytecodes.contains op = true := by
    have key : ∀ n, n < 78 → 50 ≤ n → n ≤ 69 → noContextBytecodes.contains n = true := by decide +kernel
    exact key op (by omega) h50.1 h50.2
  unfold adaptOp at h1
  rw [if_pos hno] at h1
  cases h1
  refine ⟨n1, ?_⟩
  rw [hdl] at h2
  simpa using h2

/-- The adapted instruction as code. -/
def adaptSC (sub : Meth → Except Err Meth) (k : Nat) (chain : List (List Nat)) (new : List Nat) (c : SC Meth) : SC Meth :=
  c.subst fun i => .ins (adaptIns sub k chain new i)

theorem Adapted.left {sub : Meth → Except Err Meth} {l0 : List (Lit Meth)} {D1 D2 : List Nat} {a b : List Nat} {P : List (Lit Meth) → Prop}
    (h : Adapted sub l0 D1 a P) (hs : ∀ x ∈ D1, x ∈ D2) (hb : ∀ x ∈ D2, x ∉ D1 → BlockAt l0 b x) (hn : (a ++ b).Nodup) : Adapted sub l0 D2 (a ++ b) P := by
  intro lF DF hF h1 h2
  refine h lF DF hF (fun x hx => h1 x (hs x hx)) ?_
  intro x hx hn1 ⟨m, hm, ha⟩
  by_cases hx2 : x ∈ D2
  · obtain ⟨m', hm', hb'⟩ := hb x hx2 hn1
    rw [hm] at hm'
    cases hm'
    exact (List.nodup_append.mp hn).2.2 _ ha _ hb' rfl
  · exact h2 x hx hx2 ⟨m, hm, List.mem_append_left _ ha⟩

theorem Adapted.right {sub : Meth → Except Err Meth} {l0 : List (Lit Meth)} {D2 : List Nat} {a b : List Nat} {P : List (Lit Meth) → Prop}
    (h : Adapted sub l0 D2 b P) : Adapted sub l0 D2 (a ++ b) P := by
  intro lF DF hF h1 h2
  exact h lF DF hF h1 fun x hx hn ⟨m, hm, hb⟩ => h2 x hx hn ⟨m, hm, List.mem_append_right _ hb⟩

theorem decodeOp_pushBlock {M : Type} {lits : List (Lit M)} {op : Nat} {a b : Option Nat} {c : Bool} {m : M} {n : Nat}
    (h : decodeOp lits op a b = some (.ins (.pushBlock c m) n)) : op = if c then Op.pushBlock else Op.pushBlockNoCtx := by
  have hlt := decodeOp_lt h
  opcases op hx <;>
  (unfold decodeOp at h
   repeat rw [if_neg (by decide)] at h
   first
   | (cases h; done)
   | (rw [if_pos rfl] at h
      simp only [Option.bind_eq_bind, Option.bind_eq_some_iff, Option.some.injEq, Dec.ins.injEq, reduceCtorEq, false_and, exists_const, and_false, exists_false,
        Ins.pushBlock.injEq] at h
      done)
   | (rw [if_pos rfl] at h
      simp only [Option.bind_eq_bind, Option.bind_eq_some_iff, Option.some.injEq, Dec.ins.injEq, Ins.pushBlock.injEq] at h
      obtain ⟨x, _, y, _, ⟨rfl, _⟩, _⟩ := h
      rfl))

theorem adaptOp_sub {l0 l l1 : List (Lit Meth)} {op : Nat} {bt pre post bs1 : List Nat} {m : Meth} {D : List Nat}
    (hd : Is l0 (.ins (.pushBlock true m) (op :: bt).length) (op :: bt)) (hl : LRel sub l0 l D) (hD : ∀ x ∈ D, ¬ BlockAt l0 m.ids x)
    (h : adaptOp sub k chain new op pre.length (pre ++ (op :: bt ++ post)) l = .ok (bs1, l1)) : ∃ m', sub m = .ok m' := by
  have hdec : decodeOp l0 op bt[0]? bt[1]? = some (.ins (.pushBlock true m) (op :: bt).length) := by
    have := hd []
    rwa [List.append_nil] at this
  have hop := decodeOp_pushBlock hdec
  simp only [if_true] at hop
  subst hop
  obtain ⟨x, rfl⟩ := is_two hd rfl
  have hdd : (do let y ← (constMeth l0 x); some (Dec.ins (Ins.pushBlock true y) 2)) = some (Dec.ins (.pushBlock true m) 2) := hdec
  simp only [Option.bind_eq_bind, Option.bind_eq_some_iff, Option.some.injEq, Dec.ins.injEq, and_true, Ins.pushBlock.injEq, true_and] at hdd
  obtain ⟨m1, hm, rfl⟩ := hdd
  have hm := constMeth_some hm
  have hx : x ∉ D := fun hx => hD x hx ⟨m1, hm, m1.id_mem⟩
  have hlx := hl.meth hm
  rw [if_neg hx] at hlx
  unfold adaptOp at h
  rw [if_neg (by decide), if_neg (by decide), if_pos rfl] at h
  obtain ⟨x', hx', h⟩ := except_bind_ok h
  have hxx : x = x' := by simpa using getByte_ok hx'
  subst hxx
  rw [hlx] at h
  dsimp only at h
  obtain ⟨m', hm', _⟩ := except_bind_ok h
  exact ⟨m', hm'⟩

/-- What adapting the bytes `b` of the code `c` does. -/
def AdaptStep (sub : Meth → Except Err Meth) (k : Nat) (chain : List (List Nat)) (new : List Nat) (l0 : List (Lit Meth)) (c : SC Meth) (b : List Nat) : Prop :=
  ∀ (n : Nat) (pre post bs' : List Nat) (l l' : List (Lit Meth)) (D : List Nat),
    adaptLoop sub k chain new n pre.length (pre ++ (b ++ post)) l = .ok (bs', l') → LRel sub l0 l D → (∀ x ∈ D, ¬ BlockAt l0 c.ids x) → c.ids.Nodup →
    ∃ n1 b1 l1 D1, adaptLoop sub k chain new n1 (pre ++ b1).length ((pre ++ b1) ++ post) l1 = .ok (bs', l') ∧ b1.length = b.length ∧ LRel sub l0 l1 D1 ∧
      (∀ x ∈ D, x ∈ D1) ∧ (∀ x ∈ D1, x ∉ D → BlockAt l0 c.ids x) ∧ (∀ m, Ins.pushBlock true m ∈ c.instrs → ∃ m', sub m = .ok m') ∧
      Adapted sub l0 D1 c.ids fun lF => Enc lF (adaptSC sub k chain new c) b1

/-- Two parts with a jump between them. -/
theorem AdaptStep.two {l0 : List (Lit Meth)} {a b : SC Meth} {ba bb : List Nat} (iha : AdaptStep sub k chain new l0 a ba)
    (ihb : AdaptStep sub k chain new l0 b bb) {n : Nat} {pre mid post bs' : List Nat} {l l' : List (Lit Meth)} {D : List Nat}
    (h : adaptLoop sub k chain new n pre.length (pre ++ (ba ++ (mid ++ (bb ++ post)))) l = .ok (bs', l'))
    (hmid : mid = [] ∨ ∃ d : Dec Meth, IsJump d mid ∧ (∀ i n, d ≠ .ins i n) ∧ d.len = 3) (hl : LRel sub l0 l D)
    (hD : ∀ x ∈ D, ¬ BlockAt l0 (a.ids ++ b.ids) x) (hn : (a.ids ++ b.ids).Nodup) :
    ∃ n1 b1 b2 l1 D1, adaptLoop sub k chain new n1 (pre ++ (b1 ++ (mid ++ b2))).length ((pre ++ (b1 ++ (mid ++ b2))) ++ post) l1 = .ok (bs', l') ∧
      b1.length = ba.length ∧ b2.length = bb.length ∧ LRel sub l0 l1 D1 ∧ (∀ x ∈ D, x ∈ D1) ∧ (∀ x ∈ D1, x ∉ D → BlockAt l0 (a.ids ++ b.ids) x) ∧
      (∀ m, Ins.pushBlock true m ∈ a.instrs ++ b.instrs → ∃ m', sub m = .ok m') ∧
      Adapted sub l0 D1 (a.ids ++ b.ids) fun lF => Enc lF (adaptSC sub k chain new a) b1 ∧ Enc lF (adaptSC sub k chain new b) b2 := by
  have hna := (List.nodup_append.mp hn).1
  have hnb := (List.nodup_append.mp hn).2.1
  obtain ⟨n1, b1, l1, D1, h1, e1, r1, s1, t1, v1, u1⟩ := iha n pre _ bs' l l' D h hl
    (fun x hx ⟨m, hm, hi⟩ => hD x hx ⟨m, hm, List.mem_append_left _ hi⟩) hna
  have h2 : ∃ n2, adaptLoop sub k chain new n2 ((pre ++ b1) ++ mid).length (((pre ++ b1) ++ mid) ++ (bb ++ post)) l1 = .ok (bs', l') := by
    rcases hmid with rfl | ⟨d, hj, hd, hdl⟩
    · exact ⟨n1, by simpa using h1⟩
    · exact adaptLoop_jump hj hd hdl h1
  obtain ⟨n2, h2⟩ := h2
  obtain ⟨n3, b2, l2, D2, h3, e2, r2, s2, t2, v2, u2⟩ := ihb n2 _ post bs' l1 l' D1 h2 r1 (by
    rintro x hx ⟨m, hm, hi⟩
    by_cases hxD : x ∈ D
    · exact hD x hxD ⟨m, hm, List.mem_append_right _ hi⟩
    · obtain ⟨m', hm', hi'⟩ := t1 x hx hxD
      rw [hm] at hm'
      cases hm'
      exact (List.nodup_append.mp hn).2.2 _ hi' _ hi rfl) hnb
  refine ⟨n3, b1, b2, l2, D2, by simpa using h3, e1, e2, r2, fun x hx => s2 x (s1 x hx), ?_, fun m hm => (List.mem_append.mp hm).elim (v1 m) (v2 m), ?_⟩
  · intro x hx hxD
    by_cases hx1 : x ∈ D1
    · obtain ⟨m, hm, hi⟩ := t1 x hx1 hxD
      exact ⟨m, hm, List.mem_append_left _ hi⟩
    · obtain ⟨m, hm, hi⟩ := t2 x hx hx1
      exact ⟨m, hm, List.mem_append_right _ hi⟩
  · intro lF DF hF h1 h2
    exact ⟨u1.left s2 t2 hn lF DF hF h1 h2, u2.right lF DF hF h1 h2⟩

/-- All instructions. -/
theorem adaptEnc {l0 : List (Lit Meth)} {c : SC Meth} {b : List Nat} (hc : Enc l0 c b) : AdaptStep sub k chain new l0 c b := by
  induction hc with
  | nop =>
    intro n pre post bs' l l' D h hl hD hn
    exact ⟨n, [], l, D, by simpa using h, rfl, hl, fun _ h => h, fun x h hn => absurd h hn, by simp [SC.instrs], fun _ _ _ _ _ => .nop⟩
  | ins i bs hi =>
    intro n pre post bs' l l' D h hl hD hn
    cases bs with
    | nil => have := hi []; simp [decode] at this
    | cons op bt =>
      obtain ⟨n1, bs1, l1, h1, h2⟩ := adaptLoop_step hi h
      obtain ⟨b1, D1, rfl, hlen, hr, hs, ht, hu⟩ := adaptOp_ok hi hl hD h1
      refine ⟨n1, b1, l1, D1, ?_, hlen, hr, hs, ht, ?_, ?_⟩
      · simp only [Dec.len, ← hlen] at h2
        simpa using h2
      · intro m hm
        simp only [SC.instrs, List.mem_singleton] at hm
        subst hm
        exact adaptOp_sub hi hl hD h1
      · intro lF DF hF h1 h2
        exact .ins _ b1 (hu lF DF hF h1 h2)
  | seq a b ba bb _ _ iha ihb =>
    intro n pre post bs' l l' D h hl hD hn
    obtain ⟨n1, b1, b2, l1, D1, h1, e1, e2, r, s, t, v, u⟩ := AdaptStep.two iha ihb (pre := pre) (mid := []) (post := post) (by simpa using h) (.inl rfl) hl hD hn
    refine ⟨n1, b1 ++ b2, l1, D1, by simpa using h1, by simp [e1, e2], r, s, t, v, ?_⟩
    intro lF DF hF h1 h2
    have := u lF DF hF h1 h2
    exact .seq _ _ b1 b2 this.1 this.2
  | thenB c body j bb hj _ ih =>
    intro n pre post bs' l l' D h hl hD hn
    rw [List.append_assoc] at h
    obtain ⟨n1, h⟩ := adaptLoop_jump hj nofun rfl h
    obtain ⟨n2, b1, l1, D1, h1, e1, r1, s1, t1, v1, u1⟩ := ih n1 _ _ _ _ _ D h hl hD hn
    refine ⟨n2, j ++ b1, l1, D1, by simpa using h1, by simp [e1], r1, s1, t1, v1, ?_⟩
    intro lF DF hF h1 h2
    exact .thenB c _ j b1 (by rw [e1]; exact hj) (u1 lF DF hF h1 h2)
  | ifElse c a b j ba k' bb hj _ hk _ iha ihb =>
    intro n pre post bs' l l' D h hl hD hn
    rw [List.append_assoc] at h
    obtain ⟨n1, h⟩ := adaptLoop_jump hj nofun rfl h
    obtain ⟨n2, b1, b2, l1, D1, h1, e1, e2, r, s, t, v, u⟩ := AdaptStep.two iha ihb (pre := pre ++ j) (mid := k') (post := post) (by simpa using h) (.inr ⟨_, hk, nofun, rfl⟩) hl hD hn
    refine ⟨n2, j ++ (b1 ++ (k' ++ b2)), l1, D1, by simpa using h1, by simp [e1, e2], r, s, t, v, ?_⟩
    intro lF DF hF h1 h2
    have := u lF DF hF h1 h2
    exact .ifElse c _ _ j b1 k' b2 (by rw [e1]; exact hj) this.1 (by rw [e2]; exact hk) this.2
  | loop c cond body bc j bb k' _ hj _ hk ihc ihb =>
    intro n pre post bs' l l' D h hl hD hn
    obtain ⟨n2, b1, b2, l1, D1, h1, e1, e2, r, s, t, v, u⟩ := AdaptStep.two ihc ihb (mid := j) (post := k' ++ post) (by simpa using h) (.inr ⟨_, hj, nofun, rfl⟩) hl hD hn
    obtain ⟨n3, h1⟩ := adaptLoop_jump hk nofun rfl h1
    refine ⟨n3, b1 ++ (j ++ (b2 ++ k')), l1, D1, by simpa using h1, by simp [e1, e2], r, s, t, v, ?_⟩
    intro lF DF hF h1 h2
    have := u lF DF hF h1 h2
    exact .loop c _ _ b1 j b2 k' this.1 (by rw [e2]; exact hj) this.2 (by rw [e1, e2]; exact hk)

/-- The bytes of an adapted block are an encoding of its adapted code. -/
theorem adaptLoop_ok {l l' : List (Lit Meth)} {c : SC Meth} {b bs' : List Nat} {n : Nat} (hc : Enc l c b) (hn : c.ids.Nodup)
    (h : adaptLoop sub k chain new n 0 b l = .ok (bs', l')) : Enc l' (adaptSC sub k chain new c) bs' ∧
      ∀ m, Ins.pushBlock true m ∈ c.instrs → ∃ m', sub m = .ok m' := by
  obtain ⟨n1, b1, l1, D1, h1, e1, r1, s1, t1, v1, u1⟩ := adaptEnc (sub := sub) (k := k) (chain := chain) (new := new) hc n [] [] bs' l l' [] (by simpa using h)
    (by intro x
        simp only [List.not_mem_nil, if_false]
        cases l[x]? with
        | none => rfl
        | some y => cases y <;> rfl) (by simp) hn
  have hend : bs' = b1 ∧ l' = l1 := by
    cases n1 <;> simp [adaptLoop] at h1 <;> exact ⟨h1.1.symm, h1.2.symm⟩
  obtain ⟨rfl, rfl⟩ := hend
  exact ⟨u1 _ D1 r1 (fun _ h => h) (fun x hx hn => absurd hx hn), v1⟩
end

/-! ## The adapted block -/

theorem adaptIns_ty (sub : Meth → Except Err Meth) (k : Nat) (chain : List (List Nat)) (new : List Nat) (i : Ins Meth) (d : Nat) :
    (adaptIns sub k chain new i).ty d = i.ty d := by
  unfold adaptIns
  repeat' split
  all_goals rfl

theorem subst_maxd {f : Ins Meth → Ins Meth} (h : ∀ i d, (f i).ty d = i.ty d) : ∀ (c : SC Meth) (d : Nat), (c.subst fun i => .ins (f i)).maxd d = c.maxd d := by
  have hty : ∀ (c : SC Meth) (d : Nat), (c.subst fun i => .ins (f i)).ty d = c.ty d := by
    intro c
    induction c with
    | nop => intro d; rfl
    | ins i => intro d; exact h i d
    | seq a b iha ihb =>
      intro d
      simp only [SC.subst, SC.ty, iha]
      exact congrArg _ (funext ihb)
    | thenB c b ih => intro d; simp only [SC.subst, SC.ty, ih]
    | ifElse c a b iha ihb => intro d; simp only [SC.subst, SC.ty, iha, ihb]
    | loop c a b iha ihb => intro d; simp only [SC.subst, SC.ty, iha, ihb]
  intro c
  induction c with
  | nop => intro d; rfl
  | ins i => intro d; simp only [SC.subst, SC.maxd, h]
  | seq a b iha ihb => intro d; simp only [SC.subst, SC.maxd, iha, ihb, hty]
  | thenB c b ih => intro d; simp only [SC.subst, SC.maxd, ih]
  | ifElse c a b iha ihb => intro d; simp only [SC.subst, SC.maxd, iha, ihb]
  | loop c a b iha ihb => intro d; simp only [SC.subst, SC.maxd, iha, ihb]

theorem setByte_small {bs bs' : List Nat} {i v : Nat} (hb : ∀ b ∈ bs, b ≤ 255) (h : setByte bs i v = .ok bs') : ∀ b ∈ bs', b ≤ 255 := by
  unfold setByte at h
  split at h
  · cases h
    intro b hm
    rcases List.mem_or_eq_of_mem_set hm with h | h
    · exact hb b h
    · omega
  · cases h

theorem adaptOp_small {sub : Meth → Except Err Meth} {k : Nat} {chain : List (List Nat)} {new : List Nat} {op i : Nat} {bs bs' : List Nat} {lits lits' : List (Lit Meth)}
    (hb : ∀ b ∈ bs, b ≤ 255) (h : adaptOp sub k chain new op i bs lits = .ok (bs', lits')) : ∀ b ∈ bs', b ≤ 255 := by
  unfold adaptOp at h
  replace h := ite_elim h
  rcases h with ⟨_, h⟩ | ⟨_, h⟩
  · cases h; exact hb
  replace h := ite_elim h
  rcases h with ⟨_, h⟩ | ⟨_, h⟩
  · obtain ⟨l, _, h⟩ := except_bind_ok h
    split at h
    · obtain ⟨b1, h1, h⟩ := except_bind_ok h
      cases h
      exact setByte_small hb h1
    · cases h; exact hb
  replace h := ite_elim h
  rcases h with ⟨_, h⟩ | ⟨_, h⟩
  · obtain ⟨j, _, h⟩ := except_bind_ok h
    split at h
    · cases h
    · cases h
    · obtain ⟨m1, _, h⟩ := except_bind_ok h
      cases h; exact hb
  replace h := ite_elim h
  rcases h with ⟨_, h⟩ | ⟨_, h⟩
  · obtain ⟨l, _, h⟩ := except_bind_ok h
    split at h
    · obtain ⟨x, _, h⟩ := except_bind_ok h
      obtain ⟨v, _, h⟩ := except_bind_ok h
      obtain ⟨y, _, h⟩ := except_bind_ok h
      obtain ⟨b1, h1, h⟩ := except_bind_ok h
      cases h
      exact setByte_small hb h1
    · split at h
      · obtain ⟨b1, h1, h⟩ := except_bind_ok h
        cases h
        exact setByte_small hb h1
      · cases h; exact hb
  replace h := ite_elim h
  rcases h with ⟨_, h⟩ | ⟨_, h⟩
  · obtain ⟨l, _, h⟩ := except_bind_ok h
    obtain ⟨y, _, h⟩ := except_bind_ok h
    obtain ⟨b1, h1, h⟩ := except_bind_ok h
    cases h
    exact setByte_small hb h1
  · cases h

theorem adaptLoop_small (sub : Meth → Except Err Meth) (k : Nat) (chain : List (List Nat)) (new : List Nat) : ∀ (n i : Nat) (bs bs' : List Nat) (lits lits' : List (Lit Meth)),
    (∀ b ∈ bs, b ≤ 255) → adaptLoop sub k chain new n i bs lits = .ok (bs', lits') → ∀ b ∈ bs', b ≤ 255
  | 0, i, bs, bs', lits, lits', hb, h => by
    simp only [adaptLoop] at h
    split at h
    · cases h
    · cases h; exact hb
  | n + 1, i, bs, bs', lits, lits', hb, h => by
    simp only [adaptLoop] at h
    split at h
    · obtain ⟨op, _, h⟩ := except_bind_ok h
      obtain ⟨len, _, h⟩ := except_bind_ok h
      obtain ⟨⟨b1, l1⟩, h1, h⟩ := except_bind_ok h
      exact adaptLoop_small sub k chain new n _ b1 bs' l1 lits' (adaptOp_small hb h1) h
    · cases h; exact hb

theorem subst_ends {sub : Meth → Except Err Meth} {k : Nat} {chain : List (List Nat)} {new : List Nat} : ∀ c : SC Meth, c.endsRet = true →
    (c.subst fun i => .ins (adaptIns sub k chain new i)).endsRet = true
  | .ins i, h => by cases i <;> first | rfl | cases h
  | .seq a b, h => by
    simp only [SC.subst, SC.endsRet] at h ⊢
    exact subst_ends b h
  | .nop, h => by cases h
  | .thenB _ _, h => by cases h
  | .ifElse _ _ _, h => by cases h
  | .loop _ _ _, h => by cases h

theorem mem_subst_ins {f : Ins Meth → Ins Meth} {j : Ins Meth} : ∀ (c : SC Meth), j ∈ (c.subst fun i => .ins (f i)).instrs → ∃ i ∈ c.instrs, j = f i
  | .nop, h => by cases h
  | .ins i, h => ⟨i, List.mem_singleton.mpr rfl, List.mem_singleton.mp h⟩
  | .seq a b, h => by
    rcases List.mem_append.mp h with h | h
    · obtain ⟨i, hi, e⟩ := mem_subst_ins a h; exact ⟨i, List.mem_append_left _ hi, e⟩
    · obtain ⟨i, hi, e⟩ := mem_subst_ins b h; exact ⟨i, List.mem_append_right _ hi, e⟩
  | .thenB _ b, h => mem_subst_ins b h
  | .ifElse _ a b, h => by
    rcases List.mem_append.mp h with h | h
    · obtain ⟨i, hi, e⟩ := mem_subst_ins a h; exact ⟨i, List.mem_append_left _ hi, e⟩
    · obtain ⟨i, hi, e⟩ := mem_subst_ins b h; exact ⟨i, List.mem_append_right _ hi, e⟩
  | .loop _ a b, h => by
    rcases List.mem_append.mp h with h | h
    · obtain ⟨i, hi, e⟩ := mem_subst_ins a h; exact ⟨i, List.mem_append_left _ hi, e⟩
    · obtain ⟨i, hi, e⟩ := mem_subst_ins b h; exact ⟨i, List.mem_append_right _ hi, e⟩

theorem subst_ids {tr : Ins Meth → SC Meth} : ∀ (c : SC Meth), (∀ i ∈ c.instrs, (tr i).ids = i.ids) → (c.subst tr).ids = c.ids
  | .nop, _ => by simp only [SC.subst]
  | .ins i, h => by
    have := h i (List.mem_singleton.mpr rfl)
    simp only [SC.subst, SC.ids, this]
  | .seq a b, h => by
    simp only [SC.subst, SC.ids]
    rw [subst_ids a fun i hi => h i (List.mem_append_left _ hi), subst_ids b fun i hi => h i (List.mem_append_right _ hi)]
  | .thenB _ b, h => by
    simp only [SC.subst, SC.ids]
    exact subst_ids b h
  | .ifElse _ a b, h => by
    simp only [SC.subst, SC.ids]
    rw [subst_ids a fun i hi => h i (List.mem_append_left _ hi), subst_ids b fun i hi => h i (List.mem_append_right _ hi)]
  | .loop _ a b, h => by
    simp only [SC.subst, SC.ids]
    rw [subst_ids a fun i hi => h i (List.mem_append_left _ hi), subst_ids b fun i hi => h i (List.mem_append_right _ hi)]

theorem adaptIns_block {sub : Meth → Except Err Meth} {k : Nat} {chain : List (List Nat)} {new : List Nat} {i : Ins Meth} {c : Bool} {m : Meth}
    (h : adaptIns sub k chain new i = .pushBlock c m) : ∃ m0, i = .pushBlock c m0 ∧ m = if c then (sub m0).toOption.getD m0.stub else m0 := by
  unfold adaptIns at h
  split at h <;> try (cases h; done)
  · split at h <;> cases h
  · split at h <;> cases h
  · cases h; exact ⟨_, rfl, rfl⟩
  · rename_i hne _
    subst h
    cases c with
    | true => exact absurd rfl (hne _)
    | false => exact ⟨_, rfl, rfl⟩

theorem adaptIns_ids {sub : Meth → Except Err Meth} {k : Nat} {chain : List (List Nat)} {new : List Nat} {i : Ins Meth}
    (h : ∀ m, i = .pushBlock true m → ∃ m', sub m = .ok m' ∧ m'.ids = m.ids) : (adaptIns sub k chain new i).ids = i.ids := by
  unfold adaptIns
  split <;> try rfl
  · split <;> rfl
  · split <;> rfl
  · rename_i m
    simp only [Ins.ids]
    obtain ⟨m', hs, hi⟩ := h m rfl
    rw [hs]
    exact hi

theorem adaptIns_ok {sub : Meth → Except Err Meth} {k lvl : Nat} {chain : List (List Nat)} {new : List Nat} {i : Ins Meth} (hk : 1 ≤ k)
    (h : InsOK (lvl + k) i) : InsOK (lvl + k - 1) (adaptIns sub k chain new i) := by
  cases i with
  | pushVar a i l =>
    cases a <;> simp only [adaptIns]
    · split <;> trivial
    · trivial
  | popVar a i l =>
    cases a <;> simp only [adaptIns]
    · split <;> trivial
    · trivial
  | pushFld i l =>
    simp only [adaptIns, InsOK, InsAt] at h ⊢
    rw [if_pos (by omega)]
    omega
  | retNonLocal l =>
    simp only [adaptIns, InsOK, InsAt] at h ⊢
    omega
  | pushBlock c m => cases c <;> trivial
  | send s n => exact h
  | superSend s n => exact h
  | _ => trivial

/-- An adapted block is a block of the level outside. -/
theorem adapt_sound : ∀ (n k lvl : Nat) (outer : List (List Nat)) (new : List Nat) (m m' : Meth), 1 ≤ k → Sound (lvl + k) m →
    adapt n k outer new m = .ok m' → Sound (lvl + k - 1) m' ∧ m'.ids = m.ids
  | 0, _, _, _, _, _, _, _, _, h => by simp only [adapt] at h; cases h
  | n + 1, k, lvl, outer, new, m, m', hk, hs, h => by
    cases hs with
    | triv _ id t ok => simp only [adapt] at h; cases h
    | bc _ id lits bytes loops args locals stack code enc ty std size small ends ins ids inner closed =>
      simp only [adapt] at h
      obtain ⟨⟨bs', l'⟩, hloop, h⟩ := except_bind_ok h
      cases h
      obtain ⟨henc, hsub⟩ := adaptLoop_ok enc ids hloop
      have hty : ∀ i ∈ code.instrs, ∀ d d', i.ty d = some d' →
          (SC.ins (adaptIns (adapt n (k + 1) (locals :: outer) new) k (locals :: outer) new i)).ty d = some d' := by
        intro i _ d d' h
        simp only [SC.ty, adaptIns_ty]
        exact h
      have hrec : ∀ m, Ins.pushBlock true m ∈ code.instrs → ∀ m', adapt n (k + 1) (locals :: outer) new m = .ok m' →
          Sound (lvl + k) m' ∧ m'.ids = m.ids := by
        intro m hm m' h
        have := adapt_sound n (k + 1) lvl (locals :: outer) new m m' (by omega) (inner m hm) h
        simpa using this
      have hids : (adaptSC (adapt n (k + 1) (locals :: outer) new) k (locals :: outer) new code).ids = code.ids := by
        refine subst_ids code fun i hi => ?_
        simp only [SC.ids]
        refine adaptIns_ids fun m e => ?_
        subst e
        obtain ⟨m', hm'⟩ := hsub m hi
        exact ⟨m', hm', (hrec m hi m' hm').2⟩
      refine ⟨.bc _ id l' bs' loops args locals stack _ henc ?_ ?_ ?_ ?_ ?_ ?_ ?_ ?_ ?_, ?_⟩
      · intro d; exact subst_ty code hty d _ (ty d)
      · exact subst_std code hty (fun _ => trivial) std
      · rw [subst_maxd (fun i d => adaptIns_ty _ _ _ _ i d)]
        exact size
      · exact adaptLoop_small _ _ _ _ _ _ _ _ _ _ small hloop
      · exact subst_ends code ends
      · intro j hj
        obtain ⟨i, hi, rfl⟩ := mem_subst_ins code hj
        exact adaptIns_ok hk (ins i hi)
      · rw [show (code.subst fun i => .ins (adaptIns (adapt n (k + 1) (locals :: outer) new) k (locals :: outer) new i)).ids = code.ids from hids]
        exact ids
      · intro m hm
        obtain ⟨i, hi, e⟩ := mem_subst_ins code hm
        obtain ⟨m0, rfl, rfl⟩ := adaptIns_block e.symm
        obtain ⟨m1, hm1⟩ := hsub m0 hi
        simp only [if_true, hm1]
        have := (hrec m0 hi m1 hm1).1
        rwa [Nat.sub_add_cancel (by omega)]
      · intro m hm l
        obtain ⟨i, hi, e⟩ := mem_subst_ins code hm
        obtain ⟨m0, rfl, he⟩ := adaptIns_block e.symm
        rw [he]
        exact closed m0 hi l
      · simp only [Meth.ids]
        rw [show (code.subst fun i => .ins (adaptIns (adapt n (k + 1) (locals :: outer) new) k (locals :: outer) new i)).ids = code.ids from hids]

end PySOM.BC

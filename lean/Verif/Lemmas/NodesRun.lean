import Verif.Lemmas.Nodes
/-!
# Lemmas about trees that rewrite themselves: the trees of the parser, runs with and without recursion
-/
set_option autoImplicit false
namespace PySOM.Nodes
variable {α : Type}

/-! ## The trees of the parser -/

theorem source_mono {h h' : Heap α} (hg : ∀ (i : Nat) (n : Node α), h[i]? = some n → ∃ n' : Node α, h'[i]? = some n' ∧ n'.src = n.src ∧ n'.kids = n.kids) : ∀ (d : Nat) (r : Nat) (t : Source α),
    source h d r = some t → source h' d r = some t := by
  intro d
  induction d with
  | zero => intro _ _ hs; nomatch hs
  | succ d ih =>
    intro r t hs
    obtain ⟨e, x, ts, he, hx, hts, rfl⟩ := source_inv hs
    have he' : d = e := by omega
    subst he'
    obtain ⟨n', h1, h2, h3⟩ := hg r x hx
    rw [source_step h1, h2, h3, every_mono hts fun k _ t => ih k t]
    rfl

theorem source_deeper {h : Heap α} : ∀ {d : Nat} {r : Nat} {t : Source α}, source h d r = some t → source h (d + 1) r = some t := by
  intro d
  induction d with
  | zero => intro _ _ hs; nomatch hs
  | succ d ih =>
    intro r t hs
    obtain ⟨e, x, ts, he, hx, hts, rfl⟩ := source_inv hs
    have he' : d = e := by omega
    subst he'
    rw [source_step hx, every_mono hts fun k _ t => ih]
    rfl

theorem source_le {h : Heap α} {d e : Nat} (hde : d ≤ e) {r : Nat} {t : Source α} (hs : source h d r = some t) : source h e r = some t := by
  induction hde with
  | refl => exact hs
  | step _ ih => exact source_deeper ih

/-- `h'` is `h` with further nodes, whose children are new as well. -/
structure Grow (h h' : Heap α) : Prop where
  length : h.length ≤ h'.length
  core : ∀ (i : Nat) (n : Node α), h[i]? = some n → ∃ n' : Node α, h'[i]? = some n' ∧ n'.src = n.src ∧ n'.form = n.form ∧ n'.kids = n.kids
  above : ∀ (i : Nat) (n' : Node α), h.length ≤ i → h'[i]? = some n' → ∀ c ∈ n'.kids, h.length ≤ c

theorem Grow.refl (h : Heap α) : Grow h h where
  length := Nat.le_refl _
  core := fun _ n hi => ⟨n, hi, rfl, rfl, rfl⟩
  above := fun i n' hl hi => by
    have := lt_of_get hi
    omega

theorem Grow.trans {h h1 h2 : Heap α} (g : Grow h h1) (g' : Grow h1 h2) : Grow h h2 where
  length := Nat.le_trans g.length g'.length
  core := fun i n hi => by
    obtain ⟨n1, a1, a2, a3, a4⟩ := g.core i n hi
    obtain ⟨n2, b1, b2, b3, b4⟩ := g'.core i n1 a1
    exact ⟨n2, b1, b2.trans a2, b3.trans a3, b4.trans a4⟩
  above := fun i n' hl hi c hc => by
    by_cases h1l : h1.length ≤ i
    · exact Nat.le_trans g.length (g'.above i n' h1l hi c hc)
    · have hlt : i < h1.length := by omega
      obtain ⟨n2, b1, _, _, b4⟩ := g'.core i h1[i] (List.getElem?_eq_getElem hlt)
      have hn : n2 = n' := Option.some.inj (b1.symm.trans hi)
      subst hn
      exact g.above i h1[i] hl (List.getElem?_eq_getElem hlt) c (b4 ▸ hc)

theorem Grow.source {h h' : Heap α} (g : Grow h h') {d : Nat} {r : Nat} {t : Source α} (hs : source h d r = some t) : source h' d r = some t :=
  source_mono (fun i n hi => by
    obtain ⟨n', a, b, _, c⟩ := g.core i n hi
    exact ⟨n', a, b, c⟩) d r t hs

/-- No node has `c` as a child. -/
def Orphan (h : Heap α) (c : Nat) : Prop := ∀ (q : Nat) (n : Node α), h[q]? = some n → c ∉ n.kids

theorem Grow.orphan {h h' : Heap α} (g : Grow h h') {c : Nat} (hc : c < h.length) (ho : Orphan h c) : Orphan h' c := by
  intro q n hq hm
  by_cases hl : h.length ≤ q
  · have := g.above q n hl hq c hm
    omega
  · have hlt : q < h.length := by omega
    obtain ⟨n', b1, _, _, b4⟩ := g.core q h[q] (List.getElem?_eq_getElem hlt)
    have hn : n' = n := Option.some.inj (b1.symm.trans hq)
    subst hn
    exact ho q h[q] (List.getElem?_eq_getElem hlt) (b4 ▸ hm)

/-- The nodes that are not in `dead` form trees whose parent pointers are right. -/
structure Trees (h : Heap α) (dead : List Nat) : Prop where
  kid : ∀ (p : Nat) (n : Node α), h[p]? = some n → p ∉ dead → ∀ c ∈ n.kids, c ∉ dead ∧ c ≠ p ∧ ∃ cn : Node α, h[c]? = some cn ∧ (n.form ≠ .write → cn.parent = some p)
  one : ∀ (p q : Nat) (n m : Node α), h[p]? = some n → h[q]? = some m → p ∉ dead → q ∉ dead → ∀ c, c ∈ n.kids → c ∈ m.kids → p = q

theorem make_inv {h : Heap α} {a : α} {f : Form} {ks : List Nat} {i : Nat} {n : Node α} (hi : (make h a f ks)[i]? = some n) :
    (i = h.length ∧ n.src = a ∧ n.form = f ∧ n.kids = ks) ∨
    (∃ x : Node α, h[i]? = some x ∧ n.src = x.src ∧ n.form = x.form ∧ n.kids = x.kids ∧ n.parent = taken f ks h.length i x.parent) := by
  have hlt := lt_of_get hi
  rw [make_length] at hlt
  by_cases hl : i = h.length
  · subst hl
    rw [make_new] at hi
    cases hi
    exact .inl ⟨rfl, rfl, rfl, rfl⟩
  · have hlt' : i < h.length := by omega
    rw [make_get _ _ _ _ _ hlt', List.getElem?_eq_getElem hlt'] at hi
    cases hi
    exact .inr ⟨h[i], List.getElem?_eq_getElem hlt', rfl, rfl, rfl, rfl⟩

/-- Making a node of children that belong to nobody. -/
theorem make_ok {h0 h : Heap α} {a : α} {f : Form} {ks : List Nat} (hg : Grow h0 h) (ht : Trees h [])
    (hk : ∀ c ∈ ks, h0.length ≤ c ∧ c < h.length ∧ Orphan h c) :
    Grow h0 (make h a f ks) ∧ Trees (make h a f ks) [] ∧ Orphan (make h a f ks) h.length := by
  refine ⟨⟨?_, ?_, ?_⟩, ⟨?_, ?_⟩, ?_⟩
  · rw [make_length]
    have := hg.length
    omega
  · intro i n hi
    obtain ⟨n', b1, b2, b3, b4⟩ := hg.core i n hi
    have hlt := lt_of_get b1
    have h2 := make_get h a f ks i hlt
    rw [b1] at h2
    exact ⟨_, h2, b2, b3, b4⟩
  · intro i n' hl hi c hc
    rcases make_inv hi with ⟨_, _, _, e⟩ | ⟨x, hx, _, _, e, _⟩
    · exact (hk c (e ▸ hc)).1
    · exact hg.above i x hl hx c (e ▸ hc)
  · intro p n hp _ c hc
    rcases make_inv hp with ⟨e1, _, e3, e4⟩ | ⟨x, hx, _, e3, e4, _⟩
    · obtain ⟨_, hlt, _⟩ := hk c (e4 ▸ hc)
      refine ⟨nofun, by omega, ?_⟩
      have h2 := make_get h a f ks c hlt
      rw [List.getElem?_eq_getElem hlt] at h2
      refine ⟨_, h2, fun hw => ?_⟩
      have : f ≠ .write ∧ c ∈ ks := ⟨e3 ▸ hw, e4 ▸ hc⟩
      show taken f ks h.length c _ = some p
      unfold taken
      rw [if_pos this, e1]
    · obtain ⟨_, hne, cn, hcn, hpar⟩ := ht.kid p x hx nofun c (e4 ▸ hc)
      refine ⟨nofun, hne, ?_⟩
      have hlt := lt_of_get hcn
      have h2 := make_get h a f ks c hlt
      rw [hcn] at h2
      refine ⟨_, h2, fun hw => ?_⟩
      have hnot : ¬ (f ≠ .write ∧ c ∈ ks) := fun ⟨_, hck⟩ => (hk c hck).2.2 p x hx (e4 ▸ hc)
      show taken f ks h.length c _ = some p
      unfold taken
      rw [if_neg hnot]
      exact hpar (e3 ▸ hw)
  · intro p q n m hp hq _ _ c hc hd
    rcases make_inv hp with ⟨e1, _, _, e4⟩ | ⟨x, hx, _, _, e4, _⟩
    · rcases make_inv hq with ⟨f1, _, _, f4⟩ | ⟨y, hy, _, _, f4, _⟩
      · rw [e1, f1]
      · exact absurd (f4 ▸ hd) ((hk c (e4 ▸ hc)).2.2 q y hy)
    · rcases make_inv hq with ⟨f1, _, _, f4⟩ | ⟨y, hy, _, _, f4, _⟩
      · exact absurd (e4 ▸ hc) ((hk c (f4 ▸ hd)).2.2 p x hx)
      · exact ht.one p q x y hx hy nofun nofun c (e4 ▸ hc) (f4 ▸ hd)
  · intro q n hq hm
    rcases make_inv hq with ⟨_, _, _, e4⟩ | ⟨x, hx, _, _, e4, _⟩
    · have := (hk _ (e4 ▸ hm)).2.1
      omega
    · obtain ⟨_, _, cn, hcn, _⟩ := ht.kid q x hx nofun _ (e4 ▸ hm)
      have := lt_of_get hcn
      omega

/-- The text of the node made last. -/
theorem make_source {h : Heap α} {a : α} {f : Form} {ks : List Nat} {d : Nat} {ts : List (Source α)} (hts : every (source h d) ks = some ts) :
    source (make h a f ks) (d + 1) h.length = some (.mk a ts) := by
  rw [source_step (make_new h a f ks)]
  have hmono : ∀ (r : Nat) (t : Source α), source h d r = some t → source (make h a f ks) d r = some t :=
    source_mono (fun i n hi => by
      have h2 := make_get h a f ks i (lt_of_get hi)
      rw [hi] at h2
      exact ⟨_, h2, rfl, rfl⟩) d
  rw [show every (source (make h a f ks) d) _ = some ts from every_mono hts fun k _ t => hmono k t]
  rfl

mutual
theorem Expr.build_ok : ∀ (e : Expr α) (h : Heap α), Trees h [] →
    Grow h (e.build h).2 ∧ Trees (e.build h).2 [] ∧ h.length ≤ (e.build h).1 ∧ (e.build h).1 < (e.build h).2.length ∧ Orphan (e.build h).2 (e.build h).1 ∧
    ∃ d, source (e.build h).2 d (e.build h).1 = some e.text
  | .mk src form kids, h, ht => by
    obtain ⟨g, t, hk, d, hd⟩ := Exprs.build_ok kids h ht
    obtain ⟨g', t', o⟩ := make_ok (a := src) (f := form) g t hk
    unfold Expr.build Expr.text
    dsimp only
    exact ⟨g', t', g.length, by rw [make_length]; omega, o, d + 1, make_source hd⟩
theorem Exprs.build_ok : ∀ (es : Exprs α) (h : Heap α), Trees h [] →
    Grow h (es.build h).2 ∧ Trees (es.build h).2 [] ∧ (∀ c ∈ (es.build h).1, h.length ≤ c ∧ c < (es.build h).2.length ∧ Orphan (es.build h).2 c) ∧
    ∃ d, every (source (es.build h).2 d) (es.build h).1 = some es.text
  | .nil, h, ht => by
    unfold Exprs.build Exprs.text
    exact ⟨Grow.refl h, ht, nofun, 0, rfl⟩
  | .cons e es, h, ht => by
    obtain ⟨g, t, h1, h2, o, d, hd⟩ := Expr.build_ok e h ht
    obtain ⟨g', t', hk, d', hd'⟩ := Exprs.build_ok es (e.build h).2 t
    unfold Exprs.build Exprs.text
    dsimp only
    refine ⟨g.trans g', t', ?_, max d d', ?_⟩
    · intro c hc
      rcases List.mem_cons.mp hc with rfl | hc
      · exact ⟨h1, Nat.lt_of_lt_of_le h2 g'.length, g'.orphan h2 o⟩
      · obtain ⟨a, b, c'⟩ := hk c hc
        exact ⟨Nat.le_trans g.length a, b, c'⟩
    · show ((source _ (max d d') _).bind fun c => (every (source _ (max d d')) _).map (c :: ·)) = _
      rw [source_le (Nat.le_max_left d d') (g'.source hd), every_mono hd' fun k _ t => source_le (Nat.le_max_right d d')]
      rfl
end

/-- A method of the program: its `_Invokable` and its text. -/
theorem load_ok : ∀ (ms : List (α × Expr α)) (h : Heap α), Trees h [] →
    Grow h (load h ms) ∧ Trees (load h ms) [] ∧
    ∀ m ∈ ms, ∃ (r : Nat) (n : Node α) (d : Nat), (load h ms)[r]? = some n ∧ n.form = .method ∧ source (load h ms) d r = some (.mk m.1 [m.2.text])
  | [], h, ht => ⟨Grow.refl h, ht, nofun⟩
  | (a, e) :: ms, h, ht => by
    obtain ⟨g, t, h1, h2, o, d, hd⟩ := Expr.build_ok e h ht
    have hk : ∀ c ∈ [(e.build h).1], h.length ≤ c ∧ c < (e.build h).2.length ∧ Orphan (e.build h).2 c := by
      intro c hc
      rw [List.mem_singleton.mp hc]
      exact ⟨h1, h2, o⟩
    obtain ⟨g', t', _⟩ := make_ok (a := a) (f := .method) g t hk
    obtain ⟨g2, t2, hms⟩ := load_ok ms (make (e.build h).2 a .method [(e.build h).1]) t'
    unfold load
    refine ⟨g'.trans g2, t2, ?_⟩
    intro m hm
    rcases List.mem_cons.mp hm with rfl | hm
    · have hnew := make_new (e.build h).2 a .method [(e.build h).1]
      obtain ⟨n', b1, _, b3, _⟩ := g2.core _ _ hnew
      have hs : every (source (e.build h).2 d) [(e.build h).1] = some [e.text] := by
        show ((source _ d _).bind fun c => (every (source _ d) []).map (c :: ·)) = _
        rw [hd]; rfl
      exact ⟨(e.build h).2.length, n', d + 1, b1, b3, g2.source (make_source hs)⟩
    · exact hms m hm

theorem trees_nil : Trees ([] : Heap α) [] where
  kid := fun p n hp => by simp at hp
  one := fun p q n m hp => by simp at hp

/-! ## Every node that runs has a parent -/

/-- All children have a parent, except those of an `UninitializedWriteNode`; all running nodes have one. -/
structure Adopted (s : State α) : Prop where
  kid : ∀ (p : Nat) (n : Node α), s.heap[p]? = some n → ∀ c ∈ n.kids, ∃ cn : Node α, s.heap[c]? = some cn ∧ (n.form ≠ .write → cn.parent.isSome = true)
  run : ∀ x ∈ s.stack, ∃ n : Node α, s.heap[x]? = some n ∧ n.parent.isSome = true

theorem Trees.adopted {h : Heap α} (t : Trees h []) : Adopted ⟨h, []⟩ where
  kid := fun p n hp c hc => by
    obtain ⟨_, _, cn, h1, h2⟩ := t.kid p n hp nofun c hc
    exact ⟨cn, h1, fun hw => by rw [h2 hw]; rfl⟩
  run := nofun

theorem taken_isSome {f : Form} {ks : List Nat} {m i : Nat} {p : Option Nat} (hp : p.isSome = true) : (taken f ks m i p).isSome = true := by
  unfold taken
  split
  · rfl
  · exact hp

theorem Specialized.inv {h h' : Heap α} {n m i : Nat} {x' : Node α} (S : Specialized h n m h') (hi : h'[i]? = some x') :
    (i = m ∧ x' = ⟨S.nd.src, .special, if m = S.p then swap n m S.nd.kids else S.nd.kids, some S.p⟩) ∨
    (∃ x : Node α, h[i]? = some x ∧ i ≠ m ∧ x' = { x with kids := if i = S.p then swap n m x.kids else x.kids, parent := taken .special S.nd.kids m i x.parent }) := by
  have hlt := lt_of_get hi
  rw [S.length] at hlt
  by_cases hl : i = m
  · subst hl
    exact .inl ⟨rfl, Option.some.inj (hi.symm.trans S.made)⟩
  · have hlt' : i < h.length := by
      have := S.new
      omega
    have hget := S.old i hlt'
    rw [List.getElem?_eq_getElem hlt'] at hget
    exact .inr ⟨h[i], List.getElem?_eq_getElem hlt', hl, Option.some.inj (hi.symm.trans hget)⟩

/-- The successor of an event, case by case. -/
theorem step_inv {s s' : State α} {o : Op} (hs : step s o = .ok s') :
    (∃ r n b bs, o = .enter r ∧ s.heap[r]? = some n ∧ n.form = .method ∧ n.kids = b :: bs ∧ s' = ⟨s.heap, b :: s.stack⟩) ∨
    (∃ i x xs n c, o = .child i ∧ s.stack = x :: xs ∧ s.heap[x]? = some n ∧ n.form ≠ .write ∧ c ∈ n.kids ∧ s' = ⟨s.heap, c :: s.stack⟩) ∨
    (∃ x xs m h', o = .specialize ∧ s.stack = x :: xs ∧ specialize s.heap x = .ok (m, h') ∧ s' = ⟨h', m :: xs⟩) ∨
    (∃ x xs, o = .leave ∧ s.stack = x :: xs ∧ s' = ⟨s.heap, xs⟩) := by
  cases o with
  | enter r =>
    unfold step at hs
    dsimp only at hs
    split at hs
    · nomatch hs
    · next n hn =>
      split at hs
      · next hf =>
        split at hs
        · next b bs hb =>
          cases hs
          exact .inl ⟨r, n, b, bs, rfl, hn, hf, hb, rfl⟩
        · nomatch hs
      · nomatch hs
  | child i =>
    unfold step at hs
    dsimp only at hs
    split at hs
    · nomatch hs
    · next x xs hx =>
      split at hs
      · nomatch hs
      · next n hn =>
        split at hs
        · nomatch hs
        · next hf =>
          split at hs
          · nomatch hs
          · next c hc =>
            cases hs
            exact .inr (.inl ⟨i, x, xs, n, c, rfl, hx, hn, hf, List.mem_of_getElem? hc, rfl⟩)
  | specialize =>
    unfold step at hs
    dsimp only at hs
    split at hs
    · nomatch hs
    · next x xs hx =>
      cases h1 : Nodes.specialize s.heap x with
      | error e => rw [h1] at hs; nomatch hs
      | ok r =>
        rw [h1] at hs
        cases hs
        exact .inr (.inr (.inl ⟨x, xs, r.1, r.2, rfl, hx, h1, rfl⟩))
  | leave =>
    unfold step at hs
    dsimp only at hs
    split at hs
    · nomatch hs
    · next x xs hx =>
      cases hs
      exact .inr (.inr (.inr ⟨x, xs, rfl, hx, rfl⟩))

theorem Adopted.step {s s' : State α} {o : Op} (A : Adopted s) (hs : step s o = .ok s') : Adopted s' := by
  rcases step_inv hs with ⟨r, n, b, bs, rfl, hn, hf, hb, rfl⟩ | ⟨i, x, xs, n, c, rfl, hx, hn, hf, hc, rfl⟩ | ⟨x, xs, m, h', rfl, hx, h1, rfl⟩ | ⟨x, xs, rfl, hx, rfl⟩
  · refine ⟨A.kid, fun y hy => ?_⟩
    rcases List.mem_cons.mp hy with rfl | hy
    · obtain ⟨cn, h1, h2⟩ := A.kid r n hn y (hb ▸ List.mem_cons_self ..)
      exact ⟨cn, h1, h2 (by rw [hf]; nofun)⟩
    · exact A.run y hy
  · refine ⟨A.kid, fun y hy => ?_⟩
    rcases List.mem_cons.mp hy with rfl | hy
    · obtain ⟨cn, h1, h2⟩ := A.kid x n hn y hc
      exact ⟨cn, h1, h2 hf⟩
    · exact A.run y hy
  · obtain ⟨S⟩ := specialize_ok h1
    have hold : ∀ (c : Nat) (cn : Node α), s.heap[c]? = some cn → ∃ cn' : Node α, h'[c]? = some cn' ∧ (cn.parent.isSome = true → cn'.parent.isSome = true) ∧
        (c ∈ S.nd.kids → cn'.parent.isSome = true) := by
      intro c cn hc
      have hget := S.old c (lt_of_get hc)
      rw [hc] at hget
      refine ⟨_, hget, fun h2 => taken_isSome h2, fun h2 => ?_⟩
      show (taken _ _ _ _ _).isSome = true
      unfold taken
      rw [if_pos ⟨nofun, h2⟩]; rfl
    have hswap : ∀ (q : Prop) [Decidable q] (ks : List Nat) (c : Nat), c ∈ (if q then swap x m ks else ks) → c = m ∨ c ∈ ks := by
      intro q _ ks c hc
      split at hc
      · rcases swap_mem hc with ⟨e, _⟩ | ⟨_, e⟩
        · exact .inl e
        · exact .inr e
      · exact .inr hc
    refine ⟨fun p y hp c hc => ?_, fun y hy => ?_⟩
    · rcases S.inv hp with ⟨rfl, rfl⟩ | ⟨z, hz, _, rfl⟩
      · rcases hswap _ _ c hc with rfl | hk
        · exact ⟨_, S.made, fun _ => rfl⟩
        · obtain ⟨cn, h2, _⟩ := A.kid x S.nd S.get c hk
          obtain ⟨cn', h3, _, h5⟩ := hold c cn h2
          exact ⟨cn', h3, fun _ => h5 hk⟩
      · rcases hswap _ _ c hc with rfl | hk
        · exact ⟨_, S.made, fun _ => rfl⟩
        · obtain ⟨cn, h2, h3⟩ := A.kid p z hz c hk
          obtain ⟨cn', h4, h5, _⟩ := hold c cn h2
          exact ⟨cn', h4, fun hw => h5 (h3 hw)⟩
    · rcases List.mem_cons.mp hy with rfl | hy
      · exact ⟨_, S.made, rfl⟩
      · obtain ⟨n, h2, h3⟩ := A.run y (hx ▸ List.mem_cons_of_mem _ hy)
        obtain ⟨n', h4, h5, _⟩ := hold y n h2
        exact ⟨n', h4, h5 h3⟩
  · exact ⟨A.kid, fun y hy => A.run y (hx ▸ List.mem_cons_of_mem _ hy)⟩

theorem Adopted.no_error {s : State α} {o : Op} (A : Adopted s) {e : Err} (hs : Nodes.step s o = .error e) : e = .other := by
  cases o with
  | enter r =>
    unfold Nodes.step at hs
    dsimp only at hs
    split at hs
    · cases hs; rfl
    · split at hs
      · split at hs
        · nomatch hs
        · cases hs; rfl
      · cases hs; rfl
  | child i =>
    unfold Nodes.step at hs
    dsimp only at hs
    split at hs
    · cases hs; rfl
    · split at hs
      · cases hs; rfl
      · split at hs
        · cases hs; rfl
        · split at hs
          · cases hs; rfl
          · nomatch hs
  | leave =>
    unfold Nodes.step at hs
    dsimp only at hs
    split at hs
    · cases hs; rfl
    · nomatch hs
  | specialize =>
    unfold Nodes.step at hs
    dsimp only at hs
    split at hs
    · cases hs; rfl
    · next x xs hx =>
      obtain ⟨n, h1, h2⟩ := A.run x (hx ▸ List.mem_cons_self ..)
      unfold Nodes.specialize at hs
      rw [h1] at hs
      dsimp only at hs
      split at hs
      · unfold replace at hs
        rw [make_get _ _ _ _ _ (lt_of_get h1), h1] at hs
        dsimp only [Option.map_some] at hs
        have h3 := taken_isSome (f := .special) (ks := n.kids) (m := s.heap.length) (i := x) h2
        cases h4 : taken .special n.kids s.heap.length x n.parent with
        | none => rw [h4] at h3; nomatch h3
        | some p => rw [h4] at hs; nomatch hs
      · cases hs; rfl

theorem Adopted.run_error (os : List Op) : ∀ {s : State α}, Adopted s → ∀ {e : Err}, Nodes.run s os = .error e → e = .other := by
  induction os with
  | nil => intro s _ e h; nomatch h
  | cons o os ih =>
    intro s A e h
    unfold Nodes.run at h
    cases h1 : Nodes.step s o with
    | error e' =>
      rw [h1] at h
      cases h
      exact A.no_error h1
    | ok m =>
      rw [h1] at h
      exact ih (A.step h1) h

/-! ## Runs without recursion -/

/-- The nodes that have been replaced are `dead`; nobody runs them or has them as a child. -/
structure Once (h0 : Heap α) (s : State α) (dead : List Nat) : Prop where
  trees : Trees s.heap dead
  run : ∀ x ∈ s.stack, x ∉ dead ∧ ∃ (n : Node α) (p : Nat) (pn : Node α), s.heap[x]? = some n ∧ n.parent = some p ∧ p ∉ dead ∧ s.heap[p]? = some pn ∧ x ∈ pn.kids
  nodup : dead.Nodup
  gone : ∀ x ∈ dead, ∃ n : Node α, h0[x]? = some n ∧ n.form.fresh = true
  old : ∀ (i : Nat) (n : Node α), s.heap[i]? = some n → n.form.fresh = true → ∃ n0 : Node α, h0[i]? = some n0 ∧ n0.form.fresh = true
  method : ∀ x ∈ dead, ∃ n : Node α, s.heap[x]? = some n ∧ n.form.fresh = true

theorem Once.start {h : Heap α} (t : Trees h []) : Once h ⟨h, []⟩ [] where
  trees := t
  run := nofun
  nodup := List.nodup_nil
  gone := nofun
  old := fun i n hi hf => ⟨n, hi, hf⟩
  method := nofun

theorem Once.step {h0 : Heap α} {s s' : State α} {dead : List Nat} {o : Op} (I : Once h0 s dead) (hd : s.stack.Nodup) (hs : step s o = .ok s') :
    ∃ dead', Once h0 s' dead' ∧ dead'.length = dead.length + (if o = .specialize then 1 else 0) := by
  rcases step_inv hs with ⟨r, n, b, bs, rfl, hn, hf, hb, rfl⟩ | ⟨i, x, xs, n, c, rfl, hx, hn, hf, hc, rfl⟩ | ⟨x, xs, m, h', rfl, hx, h1, rfl⟩ | ⟨x, xs, rfl, hx, rfl⟩
  · refine ⟨dead, ⟨I.trees, fun y hy => ?_, I.nodup, I.gone, I.old, I.method⟩, rfl⟩
    rcases List.mem_cons.mp hy with rfl | hy
    · have hr : r ∉ dead := fun hr => by
        obtain ⟨n', a, b⟩ := I.method r hr
        have : n' = n := Option.some.inj (a.symm.trans hn)
        rw [this, hf] at b
        nomatch b
      have hmem : y ∈ n.kids := hb ▸ List.mem_cons_self ..
      obtain ⟨h2, _, cn, h3, h4⟩ := I.trees.kid r n hn hr y hmem
      exact ⟨h2, cn, r, n, h3, h4 (by rw [hf]; nofun), hr, hn, hmem⟩
    · exact I.run y hy
  · refine ⟨dead, ⟨I.trees, fun y hy => ?_, I.nodup, I.gone, I.old, I.method⟩, rfl⟩
    rcases List.mem_cons.mp hy with rfl | hy
    · have hxd := (I.run x (hx ▸ List.mem_cons_self ..)).1
      obtain ⟨h2, _, cn, h3, h4⟩ := I.trees.kid x n hn hxd y hc
      exact ⟨h2, cn, x, n, h3, h4 hf, hxd, hn, hc⟩
    · exact I.run y hy
  · obtain ⟨S⟩ := specialize_ok h1
    obtain ⟨hxd, n, p, pn, hn, hp, hpd, hpn, hxp⟩ := I.run x (hx ▸ List.mem_cons_self ..)
    have hnd : n = S.nd := Option.some.inj (hn.symm.trans S.get)
    subst hnd
    have hxk : x ∉ S.nd.kids := fun hk => (I.trees.kid x S.nd hn hxd x hk).2.1 rfl
    have hSp : S.p = p := by
      have h2 := S.parent
      unfold taken at h2
      rw [if_neg (fun h => hxk h.2), hp] at h2
      exact (Option.some.inj h2).symm
    have hxm : x < m := by
      have := lt_of_get hn
      rw [S.new]; exact this
    have hpm : p ≠ m := by
      have := lt_of_get hpn
      rw [S.new]; omega
    have hmd : m ∉ dead := fun hm => by
      obtain ⟨n', a, _⟩ := I.method m hm
      have := lt_of_get a
      rw [S.new] at this
      omega
    have hpx : p ≠ x := fun e => by
      subst e
      exact (I.trees.kid p pn hpn hpd p hxp).2.1 rfl
    -- a child of a living node other than `x` is not a child of `x`
    have huniq : ∀ (q : Nat) (y : Node α) (c : Nat), s.heap[q]? = some y → q ∉ dead → q ≠ x → c ∈ y.kids → c ∉ S.nd.kids := by
      intro q y c hq hqd hqx hc hc'
      exact hqx (I.trees.one q x y S.nd hq hn hqd hxd c hc hc')
    have hget : ∀ (i : Nat) (y : Node α), s.heap[i]? = some y → h'[i]? = some { y with kids := if i = p then swap x m y.kids else y.kids, parent := taken .special S.nd.kids m i y.parent } := by
      intro i y hi
      have := S.old i (lt_of_get hi)
      rw [hi, hSp] at this
      exact this
    have hmade : h'[m]? = some ⟨S.nd.src, .special, S.nd.kids, some p⟩ := by
      have := S.made
      rw [hSp, if_neg (fun e => hpm e.symm)] at this
      exact this
    have hinv : ∀ (i : Nat) (y' : Node α), h'[i]? = some y' → (i = m ∧ y' = ⟨S.nd.src, .special, S.nd.kids, some p⟩) ∨
        (∃ y : Node α, s.heap[i]? = some y ∧ i ≠ m ∧ y' = { y with kids := if i = p then swap x m y.kids else y.kids, parent := taken .special S.nd.kids m i y.parent }) := by
      intro i y' hi
      have := S.inv hi
      rw [hSp, if_neg (fun e => hpm e.symm)] at this
      exact this
    have hkeep : ∀ c (q : Option Nat), c ∉ S.nd.kids → taken .special S.nd.kids m c q = q := by
      intro c q hc
      unfold taken
      rw [if_neg (fun h => hc h.2)]
    have htake : ∀ c (q : Option Nat), c ∈ S.nd.kids → taken .special S.nd.kids m c q = some m := by
      intro c q hc
      unfold taken
      rw [if_pos ⟨nofun, hc⟩]
    -- the children of a living node after the replacement
    have hkids : ∀ (i : Nat) (y : Node α), s.heap[i]? = some y → i ∉ dead → i ≠ x → ∀ c, c ∈ (if i = p then swap x m y.kids else y.kids) →
        (c = m ∧ i = p) ∨ (c ≠ x ∧ c ∈ y.kids) := by
      intro i y hi hid hix c hc
      by_cases hip : i = p
      · rw [if_pos hip] at hc
        rcases swap_mem hc with ⟨e, _⟩ | ⟨e1, e2⟩
        · exact .inl ⟨e, hip⟩
        · exact .inr ⟨e1, e2⟩
      · rw [if_neg hip] at hc
        refine .inr ⟨fun e => ?_, hc⟩
        subst e
        exact hip (I.trees.one i p y pn hi hpn hid hpd c hc hxp)
    have hmnew : ∀ (i : Nat) (y : Node α) (c : Nat), s.heap[i]? = some y → i ∉ dead → c ∈ y.kids → c ≠ m := by
      intro i y c hi hid hc e
      obtain ⟨_, _, cn, h2, _⟩ := I.trees.kid i y hi hid c hc
      have := lt_of_get h2
      rw [e, S.new] at this
      omega
    refine ⟨x :: dead, ⟨⟨?_, ?_⟩, ?_, ?_, ?_, ?_, ?_⟩, by simp⟩
    · intro q y' hq hqd c hc
      have hqx : q ≠ x := fun e => hqd (e ▸ List.mem_cons_self ..)
      have hqd' : q ∉ dead := fun e => hqd (List.mem_cons_of_mem _ e)
      rcases hinv q y' hq with ⟨rfl, rfl⟩ | ⟨y, hy, hqm, rfl⟩
      · obtain ⟨h2, h3, cn, h4, _⟩ := I.trees.kid x S.nd hn hxd c hc
        refine ⟨fun hm => ?_, hmnew x S.nd c hn hxd hc, _, hget c cn h4, fun _ => htake c _ hc⟩
        rcases List.mem_cons.mp hm with e | e
        · exact h3 e
        · exact h2 e
      · rcases hkids q y hy hqd' hqx c hc with ⟨rfl, rfl⟩ | ⟨hcx, hcy⟩
        · refine ⟨fun hm => ?_, fun e => hqm e.symm, _, hmade, fun _ => rfl⟩
          rcases List.mem_cons.mp hm with e | e
          · omega
          · exact hmd e
        · obtain ⟨h2, h3, cn, h4, h5⟩ := I.trees.kid q y hy hqd' c hcy
          refine ⟨fun hm => ?_, h3, _, hget c cn h4, fun hw => ?_⟩
          · rcases List.mem_cons.mp hm with e | e
            · exact hcx e
            · exact h2 e
          · show taken .special S.nd.kids m c cn.parent = some q
            rw [hkeep c _ (huniq q y c hy hqd' hqx hcy)]
            exact h5 hw
    · intro q r y' z' hq hr hqd hrd c hc hc'
      have hqx : q ≠ x := fun e => hqd (e ▸ List.mem_cons_self ..)
      have hqd' : q ∉ dead := fun e => hqd (List.mem_cons_of_mem _ e)
      have hrx : r ≠ x := fun e => hrd (e ▸ List.mem_cons_self ..)
      have hrd' : r ∉ dead := fun e => hrd (List.mem_cons_of_mem _ e)
      rcases hinv q y' hq with ⟨hqm, rfl⟩ | ⟨y, hy, hqm, rfl⟩
      · rcases hinv r z' hr with ⟨hrm, rfl⟩ | ⟨z, hz, hrm, rfl⟩
        · rw [hqm, hrm]
        · rcases hkids r z hz hrd' hrx c hc' with ⟨e, _⟩ | ⟨_, e⟩
          · exact absurd e (hmnew x S.nd c hn hxd hc)
          · exact absurd hc (huniq r z c hz hrd' hrx e)
      · rcases hinv r z' hr with ⟨hrm, rfl⟩ | ⟨z, hz, hrm, rfl⟩
        · rcases hkids q y hy hqd' hqx c hc with ⟨e, _⟩ | ⟨_, e⟩
          · exact absurd e (hmnew x S.nd c hn hxd hc')
          · exact absurd hc' (huniq q y c hy hqd' hqx e)
        · rcases hkids q y hy hqd' hqx c hc with ⟨e1, e2⟩ | ⟨_, e⟩
          · rcases hkids r z hz hrd' hrx c hc' with ⟨_, f2⟩ | ⟨_, f⟩
            · rw [e2, f2]
            · exact absurd e1 (hmnew r z c hz hrd' f)
          · rcases hkids r z hz hrd' hrx c hc' with ⟨f1, _⟩ | ⟨_, f⟩
            · exact absurd f1 (hmnew q y c hy hqd' e)
            · exact I.trees.one q r y z hy hz hqd' hrd' c e f
    · intro y hy
      rcases List.mem_cons.mp hy with rfl | hy
      · refine ⟨fun hm => ?_, _, p, _, hmade, rfl, fun hm => ?_, hget p pn hpn, ?_⟩
        · rcases List.mem_cons.mp hm with e | e
          · omega
          · exact hmd e
        · rcases List.mem_cons.mp hm with e | e
          · exact hpx e
          · exact hpd e
        · show y ∈ if p = p then swap x y pn.kids else pn.kids
          rw [if_pos rfl]
          exact new_swap hxp
      · obtain ⟨h2, yn, q, qn, h3, h4, h5, h6, h7⟩ := I.run y (hx ▸ List.mem_cons_of_mem _ hy)
        rw [hx] at hd
        have hyx : y ≠ x := fun e => (List.nodup_cons.mp hd).1 (e ▸ hy)
        have hyd : y ∉ x :: dead := fun hm => by
          rcases List.mem_cons.mp hm with e | e
          · exact hyx e
          · exact h2 e
        by_cases hqx : q = x
        · subst hqx
          have : qn = S.nd := Option.some.inj (h6.symm.trans hn)
          subst this
          refine ⟨hyd, _, m, _, hget y yn h3, htake y _ h7, fun hm => ?_, hmade, h7⟩
          rcases List.mem_cons.mp hm with e | e
          · omega
          · exact hmd e
        · refine ⟨hyd, _, q, _, hget y yn h3, ?_, fun hm => ?_, hget q qn h6, ?_⟩
          · show taken .special S.nd.kids m y yn.parent = some q
            rw [hkeep y _ (huniq q qn y h6 h5 hqx h7)]
            exact h4
          · rcases List.mem_cons.mp hm with e | e
            · exact hqx e
            · exact h5 e
          · show y ∈ if q = p then swap x m qn.kids else qn.kids
            by_cases hqp : q = p
            · rw [if_pos hqp]
              exact mem_swap h7 hyx
            · rw [if_neg hqp]
              exact h7
    · exact List.nodup_cons.mpr ⟨hxd, I.nodup⟩
    · intro y hy
      rcases List.mem_cons.mp hy with rfl | hy
      · exact I.old y S.nd hn S.fresh
      · exact I.gone y hy
    · intro i y' hi hf
      rcases hinv i y' hi with ⟨_, rfl⟩ | ⟨y, hy, _, rfl⟩
      · nomatch hf
      · exact I.old i y hy hf
    · intro y hy
      rcases List.mem_cons.mp hy with rfl | hy
      · exact ⟨_, hget y S.nd hn, S.fresh⟩
      · obtain ⟨n, h2, h3⟩ := I.method y hy
        exact ⟨_, hget y n h2, h3⟩
  · exact ⟨dead, ⟨I.trees, fun y hy => I.run y (hx ▸ List.mem_cons_of_mem _ hy), I.nodup, I.gone, I.old, I.method⟩, rfl⟩

theorem Once.plain {h0 : Heap α} (os : List Op) : ∀ {s : State α} {dead : List Nat}, Once h0 s dead → Plain s os →
    ∃ s' dead', Nodes.run s os = .ok s' ∧ Once h0 s' dead' ∧ dead'.length = dead.length + replacements os := by
  induction os with
  | nil => intro s dead I _; exact ⟨s, dead, rfl, I, rfl⟩
  | cons o os ih =>
    intro s dead I hp
    obtain ⟨hd, s1, h1, hp⟩ := hp
    obtain ⟨dead1, I1, hl⟩ := I.step hd h1
    obtain ⟨s2, dead2, h2, I2, hl2⟩ := ih I1 hp
    refine ⟨s2, dead2, ?_, I2, ?_⟩
    · show (Nodes.step s o).bind _ = _
      rw [h1]
      exact h2
    · rw [hl2, hl]
      unfold replacements
      rw [List.count_cons]
      by_cases ho : o = .specialize
      · rw [if_pos ho]
        simp [ho]
        omega
      · rw [if_neg ho]
        simp [ho]

/-- The positions of the nodes that can be specialised. -/
def freshRefs : List (Node α) → Nat → List Nat
  | [], _ => []
  | n :: ns, i => if n.form.fresh then i :: freshRefs ns (i + 1) else freshRefs ns (i + 1)

theorem freshRefs_length : ∀ (h : List (Node α)) (i : Nat), (freshRefs h i).length = unspecialized h := by
  intro h
  induction h with
  | nil => intro i; rfl
  | cons n ns ih =>
    intro i
    unfold freshRefs
    show _ = List.countP _ (n :: ns)
    rw [List.countP_cons]
    by_cases hf : n.form.fresh = true
    · rw [if_pos hf, if_pos hf, List.length_cons, ih]; rfl
    · rw [if_neg hf, if_neg hf, ih]; rfl

theorem mem_freshRefs : ∀ (h : List (Node α)) (i x : Nat) (n : Node α), h[x]? = some n → n.form.fresh = true → x + i ∈ freshRefs h i := by
  intro h
  induction h with
  | nil => intro i x n hx; simp at hx
  | cons y ys ih =>
    intro i x n hx hf
    unfold freshRefs
    cases x with
    | zero =>
      have : y = n := by simpa using hx
      subst this
      rw [if_pos hf]
      simp
    | succ x =>
      have hx' : ys[x]? = some n := by simpa using hx
      have h2 := ih (i + 1) x n hx' hf
      have h3 : x + 1 + i = x + (i + 1) := by omega
      rw [h3]
      split
      · exact List.mem_cons_of_mem _ h2
      · exact h2

theorem Once.bound {h0 : Heap α} {s : State α} {dead : List Nat} (I : Once h0 s dead) : dead.length ≤ unspecialized h0 := by
  rw [← freshRefs_length h0 0]
  refine I.nodup.length_le_of_subset fun x hx => ?_
  obtain ⟨n, h1, h2⟩ := I.gone x hx
  exact mem_freshRefs h0 0 x n h1 h2

end PySOM.Nodes

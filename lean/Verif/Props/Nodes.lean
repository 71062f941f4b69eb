import Verif.Lemmas.NodesRun
/-!
# C78: trees that rewrite themselves
-/
set_option autoImplicit false
namespace PySOM.Nodes
variable {α : Type}

/-- **C78, the program stays what it is.**  `ms` are the methods of a program.  Each has a tree, and whatever happens in a run - any calls, also
recursive ones, any replacements - the tree read from the method afterwards stands for the text of the method. -/
theorem C78_program (ms : List (α × Expr α)) (m : α × Expr α) (hm : m ∈ ms) :
    ∃ (r : Nat) (n : Node α) (d : Nat), (load [] ms)[r]? = some n ∧ n.form = .method ∧
      ∀ (ops : List Op) (s : State α), run ⟨load [] ms, []⟩ ops = .ok s → source s.heap d r = some (.mk m.1 [m.2.text]) := by
  obtain ⟨_, _, h⟩ := load_ok ms [] trees_nil
  obtain ⟨r, n, d, h1, h2, h3⟩ := h m hm
  exact ⟨r, n, d, h1, h2, fun ops s hs => run_source ops hs h3⟩

/-- **C78, the running node goes on as itself.**  In any heap, the node that takes the place of a running node stands for the same text, and every
other node stands for the text it stood for. -/
theorem C78_replacement (h h' : Heap α) (n m d : Nat) (hs : specialize h n = .ok (m, h')) :
    (∀ t, source h d n = some t → source h' d m = some t) ∧ (∀ r t, source h d r = some t → source h' d r = some t) := by
  obtain ⟨S⟩ := specialize_ok hs
  exact ⟨(S.source d).2, (S.source d).1⟩

/-- **C78, no replacement fails.**  No run of a program ends in the `AttributeError` of a node without a parent (`other`: the list of events is
none of this program). -/
theorem C78_no_error (ms : List (α × Expr α)) (ops : List Op) (e : Err) (h : run ⟨load [] ms, []⟩ ops = .error e) : e = .other :=
  Adopted.run_error ops (load_ok ms [] trees_nil).2.1.adopted h

/-- **C78, at most once.**  The full statement is that every expression of a program is specialised at most once, so that no run
replaces more nodes than there are expressions to specialise.  It holds for runs without recursion; for the others see `C78_violated`. -/
theorem C78_once_partial (ms : List (α × Expr α)) (ops : List Op) (h : Plain ⟨load [] ms, []⟩ ops) :
    replacements ops ≤ unspecialized (load [] ms) := by
  obtain ⟨s, dead, _, I, hl⟩ := (Once.start (load_ok ms [] trees_nil).2.1).plain ops h
  have := I.bound
  simp only [List.length_nil] at hl
  omega

/-- **C78, replaced for good.**  In a run without recursion the node that is replaced is a child of its parent, and its place is taken by the new
node: the slots of the parent that held the old node hold the new one, the others are unchanged. -/
theorem C78_in_place_partial (ms : List (α × Expr α)) (ops : List Op) (h : Plain ⟨load [] ms, []⟩ ops) :
    ∀ s, run ⟨load [] ms, []⟩ ops = .ok s → ∀ x xs m h', s.stack = x :: xs → specialize s.heap x = .ok (m, h') →
      ∃ (p : Nat) (n n' : Node α), s.heap[p]? = some n ∧ x ∈ n.kids ∧ h'[p]? = some n' ∧ n'.kids = n.kids.map fun c => if c = x then m else c := by
  intro s hs x xs m h' hx h1
  obtain ⟨s', dead, hs', I, _⟩ := (Once.start (load_ok ms [] trees_nil).2.1).plain ops h
  have he : s' = s := Except.ok.inj (hs'.symm.trans hs)
  subst he
  obtain ⟨S⟩ := specialize_ok h1
  obtain ⟨hxd, n, p, pn, hn, hp, hpd, hpn, hxp⟩ := I.run x (hx ▸ List.mem_cons_self ..)
  have hnd : n = S.nd := Option.some.inj (hn.symm.trans S.get)
  subst hnd
  have hxk : x ∉ S.nd.kids := fun hk => (I.trees.kid x S.nd hn hxd x hk).2.1 rfl
  have hSp : S.p = p := by
    have h2 := S.parent
    unfold taken at h2
    rw [if_neg (fun h => hxk h.2), hp] at h2
    exact (Option.some.inj h2).symm
  have hget := S.old p (lt_of_get hpn)
  rw [hpn, hSp] at hget
  exact ⟨p, pn, _, hpn, hxp, hget, if_pos rfl⟩

/-! ## A recursive program -/

/-- `m = ( self next foo: Later )`: a send with two parts, a receiver that may call the method again and a global. -/
def recursive : List (Nat × Expr Nat) := [(0, .mk 1 .send (.cons (.mk 2 .plain .nil) (.cons (.mk 3 .global .nil) .nil)))]

/-- The receiver calls the method before it answers; the global has no value yet, in either call. -/
def nested : List Op :=
  [.enter 3, .child 0, .enter 3, .child 0, .leave, .child 1, .leave, .specialize, .leave, .leave, .child 1, .leave, .specialize, .leave]

/-- A later call: the global has a value now. -/
def later : List Op := [.enter 3, .child 1, .specialize, .leave, .leave]

/-- `later`, `k` times. -/
def again : Nat → List Op
  | 0 => []
  | k + 1 => later ++ again k

/-- What the nested calls leave: the send of the tree is node 4, but the node of the global says that its parent is node 5. -/
structure Stale (s : State Nat) : Prop where
  idle : s.stack = []
  method : ∃ n, s.heap[3]? = some n ∧ n.form = .method ∧ n.kids = [4]
  send : ∃ n, s.heap[4]? = some n ∧ n.form = .special ∧ n.kids = [0, 1]
  global : ∃ n, s.heap[1]? = some n ∧ n.form = .global ∧ n.kids = [] ∧ n.parent = some 5
  long : 5 < s.heap.length

theorem Stale.later {s : State Nat} (S : Stale s) : ∃ s', run s later = .ok s' ∧ Stale s' := by
  obtain ⟨hi, ⟨n3, a1, a2, a3⟩, ⟨n4, b1, b2, b3⟩, ⟨n1, c1, c2, c3, c4⟩, hl⟩ := S
  have e1 : step s (.enter 3) = .ok ⟨s.heap, [4]⟩ := by
    simp [step, a1, a2, a3, hi]
  have e2 : step ⟨s.heap, [4]⟩ (.child 1) = .ok ⟨s.heap, [1, 4]⟩ := by
    simp [step, b1, b2, b3]
  cases hs : specialize s.heap 1 with
  | error e =>
    unfold specialize at hs
    rw [c1] at hs
    dsimp only at hs
    rw [if_pos (by rw [c2]; rfl)] at hs
    unfold replace at hs
    rw [make_get _ _ _ _ _ (lt_of_get c1), c1] at hs
    simp [taken, c3, c4, Except.map] at hs
  | ok r =>
    obtain ⟨m, h'⟩ := r
    have e3 : step ⟨s.heap, [1, 4]⟩ .specialize = .ok ⟨h', [m, 4]⟩ := by
      simp [step, hs, Except.map]
    refine ⟨⟨h', []⟩, ?_, ?_⟩
    · show (step s (.enter 3)).bind _ = _
      rw [e1]
      show (step _ (.child 1)).bind _ = _
      rw [e2]
      show (step _ .specialize).bind _ = _
      rw [e3]
      rfl
    · obtain ⟨T⟩ := specialize_ok hs
      have hnd : n1 = T.nd := Option.some.inj (c1.symm.trans T.get)
      subst hnd
      have hp : T.p = 5 := by
        have := T.parent
        rw [c3] at this
        simp [taken, c4] at this
        exact this.symm
      have hget : ∀ (i : Nat) (n : Node Nat), s.heap[i]? = some n → i ≠ 5 → h'[i]? = some n := by
        intro i n hn hne
        have := T.old i (lt_of_get hn)
        rw [hn, hp, c3] at this
        simpa [taken, hne] using this
      exact ⟨rfl, ⟨n3, hget 3 n3 a1 (by omega), a2, a3⟩, ⟨n4, hget 4 n4 b1 (by omega), b2, b3⟩,
        ⟨_, hget 1 _ c1 (by omega), c2, c3, c4⟩, by rw [T.length]; omega⟩

theorem run_append {s s' : State α} {a b : List Op} (h : run s a = .ok s') : run s (a ++ b) = run s' b := by
  induction a generalizing s with
  | nil => cases h; rfl
  | cons o a ih =>
    obtain ⟨m, h1, h2⟩ := run_cons h
    show (step s o).bind _ = _
    rw [h1]
    exact ih h2

/-- **C78 violated**: two nested calls specialise the send twice, and the second time is lost: the nodes of the tree say that their parent is a
node outside of it.  From then on the global is specialised again in every call, and the tree never changes: with two expressions to
specialise, runs replace nodes as often as one likes. -/
theorem C78_violated : unspecialized (load [] recursive) = 2 ∧
    ∀ k, ∃ s, run ⟨load [] recursive, []⟩ (nested ++ again k) = .ok s ∧ Stale s ∧ replacements (nested ++ again k) = k + 2 := by
  refine ⟨by decide, fun k => ?_⟩
  have h0 : ∃ s, run ⟨load [] recursive, []⟩ nested = .ok s ∧ Stale s := by
    refine ⟨_, rfl, ⟨rfl, ⟨_, rfl, rfl, rfl⟩, ⟨_, rfl, rfl, rfl⟩, ⟨_, rfl, rfl, rfl, rfl⟩, by decide⟩⟩
  obtain ⟨s0, h1, S0⟩ := h0
  have hk : ∀ k s, Stale s → ∃ s', run s (again k) = .ok s' ∧ Stale s' ∧ replacements (again k) = k := by
    intro k
    induction k with
    | zero => intro s S; exact ⟨s, rfl, S, rfl⟩
    | succ k ih =>
      intro s S
      obtain ⟨s1, a1, S1⟩ := S.later
      obtain ⟨s2, a2, S2, a3⟩ := ih s1 S1
      refine ⟨s2, (run_append a1).trans a2, S2, ?_⟩
      show List.count _ (later ++ again k) = _
      rw [List.count_append, show List.count Op.specialize (again k) = k from a3, show List.count Op.specialize later = 1 from by decide]
      omega
  obtain ⟨s, a1, S, a2⟩ := hk k s0 S0
  refine ⟨s, (run_append h1).trans a1, S, ?_⟩
  show List.count _ (nested ++ again k) = _
  rw [List.count_append, show List.count Op.specialize (again k) = k from a2, show List.count Op.specialize nested = 2 from by decide]
  omega

/-! ## Examples -/

/-- Two methods; the first one assigns a variable the answer of a send, in which the second one is called. -/
def twoMethods : List (Nat × Expr Nat) :=
  [(0, .mk 1 .write (.cons (.mk 2 .send (.cons (.mk 3 .read .nil) .nil)) .nil)), (4, .mk 5 .send (.cons (.mk 6 .read .nil) .nil))]

/-- The write is replaced first, then the read, then the send, which calls the second method. -/
def calls : List Op :=
  [.enter 3, .specialize, .child 0, .child 0, .specialize, .leave, .specialize, .enter 6, .child 0, .specialize, .leave, .specialize, .leave, .leave, .leave]

example : Plain ⟨load [] twoMethods, []⟩ calls ∧ replacements calls = 5 ∧ unspecialized (load [] twoMethods) = 5 := by
  refine ⟨?_, by decide, by decide⟩
  refine ⟨by decide, _, rfl, by decide, _, rfl, by decide, _, rfl, by decide, _, rfl, by decide, _, rfl, by decide, _, rfl, by decide, _, rfl, by decide, _, rfl,
    by decide, _, rfl, by decide, _, rfl, by decide, _, rfl, by decide, _, rfl, by decide, _, rfl, by decide, _, rfl, by decide, _, rfl, ?_⟩
  show List.Nodup _
  decide

/-- The value of the write has no parent until the write is replaced. -/
example : (load [] twoMethods)[1]? = some ⟨2, .send, [0], none⟩ ∧ specialize (load [] twoMethods) 1 = .error .attribute := ⟨by decide, by decide⟩

/-- The text of the first method, before and after. -/
example : source (load [] twoMethods) 4 3 = some (.mk 0 [.mk 1 [.mk 2 [.mk 3 []]]]) := rfl

/-- The second method while the first is running: not a recursion; the first method again: one. -/
example : ¬ Plain ⟨load [] twoMethods, []⟩ [.enter 3, .enter 3] := by
  rintro ⟨_, s, h1, _, s', h2, h3⟩
  cases h1
  cases h2
  exact absurd h3 (by show ¬ List.Nodup _; decide)

end PySOM.Nodes

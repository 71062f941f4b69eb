import Verif.Lemmas.ReferenceCompile
import Verif.Lemmas.AstRun
/-!
# Translations do what the source means
-/
set_option autoImplicit false
namespace PySOM.BC
open PySOM

theorem depth_false (v s : List Nat) (σ : Areas) : depth (⟨false, v, s⟩ :: σ) = depth σ := by
  unfold depth; rw [List.countP_cons]; rfl

section
variable {W E : Type}

/-- What is assumed about the world. -/
structure Plain (A : World Nat W E) (U : Sel → Nat → Src.Rel W E) : Prop where
  glob : ∀ n l, ¬ special n → U n l = Src.act A (.glob n)
  inc : ∀ v, Src.act A (.inc v) = Src.act A (.send "+".toList [v, .int 1])
  fuse : Src.IncFieldIsPlus A (Src.machine A)

/-- Returns never come back. -/
def Gone (A : World Nat W E) : Prop := ∀ l, 0 < l → ∀ v w u w', ¬ A (.nlr l v) w (.val u) w'

theorem ends_answered (R : Src.Rel W E) : answered R = ends R := by
  refine Src.rel_ext fun w r w' => ?_
  cases r <;> exact Iff.rfl

theorem ends_bind_congr (p : Src.Rel W E) {k k' : Val → Src.Rel W E} (h : ∀ v, ends (k v) = ends (k' v)) : ends (Src.bind p k) = ends (Src.bind p k') := by
  rw [ends_eq, ends_eq, Src.bind_assoc, Src.bind_assoc]
  exact congrArg (Src.bind p) (funext fun v => by rw [← ends_eq, ← ends_eq, h v])

theorem answer_bind (v : Val) (k : Val → Src.Rel W E) : Src.bind (Src.answer v) k = Src.answer v := by
  refine Src.rel_ext fun w r w' => ⟨?_, ?_⟩
  · rintro (⟨u, w1, ⟨h, _⟩, _⟩ | ⟨h, _⟩)
    · cases h
    · exact h
  · rintro ⟨rfl, rfl⟩
    exact .inr ⟨⟨rfl, rfl⟩, trivial⟩

theorem ends_bind_answer (p : Src.Rel W E) : ends (Src.bind p Src.answer) = ends p := by
  rw [ends_eq, ends_eq, Src.bind_assoc]
  exact congrArg (Src.bind p) (funext fun v => answer_bind v _)

variable {known : Sel → Bool} {A : World Nat W E} {U : Sel → Nat → Src.Rel W E} {err : Err → E}

theorem globNode_eval (hP : Plain A U) (l : Nat) (g : Sel) : (globNode known l g).exec A U err = Src.glob A g := by
  rw [Src.glob_eq]
  unfold globNode
  by_cases h1 : g = symNil
  · subst h1
    rw [if_neg (by decide), if_neg (by decide), if_pos rfl, if_pos rfl]; rfl
  · by_cases h2 : g = symTrue
    · rw [if_pos h2, if_neg h1, if_pos h2]; rfl
    · by_cases h3 : g = symFalse
      · rw [if_neg h2, if_pos h3, if_neg h1, if_neg h2, if_pos h3]; rfl
      · rw [if_neg h2, if_neg h3, if_neg h1, if_neg h1, if_neg h2, if_neg h3]
        by_cases h4 : known g = true
        · rw [if_pos h4]; rfl
        · rw [if_neg h4]
          exact hP.glob g l (fun h => h.elim h1 fun h => h.elim h2 h3)

/-! ## Assignments -/

theorem assigns_value (σ : Areas) (v : Val) (ts : List Tgt) (k : Val → Src.Rel W E) : Src.bind (assigns A σ v ts) k = Src.bind (assigns A σ v ts) fun _ => k v := by
  cases ts with
  | nil => simp only [assigns, Src.pure_bind]
  | cons t ts => simp only [assigns, Src.bind_assoc, Src.pure_bind]

theorem trTgt_exec (hP : Plain A U) {σ : Areas} {x n : Node} {t : Tgt} (h : trTgt σ x t n) :
    n.exec A U err = Src.bind (x.exec A U err) fun v => Src.bind (assign A σ v t) fun _ => Src.pure v := by
  rcases t with ⟨nm, _ | _, i, l⟩ | ⟨nm, i⟩
  · obtain ⟨s, j, hs, rfl⟩ := h
    simp only [assign, hs.whereIs, Node.exec]
  · simp only [trTgt] at h
    subst h
    simp only [assign, Node.exec]
  · rcases h with rfl | ⟨rfl, rfl⟩
    · simp only [assign, Node.exec]
    · simp only [assign, Node.exec, Src.bind_assoc]
      exact Src.rel_ext fun w r w' => hP.fuse i (depth σ) w r w'

theorem trTgts_exec (hP : Plain A U) {σ : Areas} {x : Node} : ∀ (ts : List Tgt) (n : Node), trTgts σ x ts n → n.exec A U err = Src.bind (x.exec A U err) fun v => assigns A σ v ts
  | [], n, h => by
    cases h
    exact (bind_pure _).symm
  | t :: ts, n, ⟨y, h1, h2⟩ => by
    rw [trTgt_exec hP h2, trTgts_exec hP ts y h1, Src.bind_assoc]
    exact congrArg (Src.bind _) (funext fun v => by rw [assigns_value]; rfl)

/-! ## Expressions -/

def Nodes.runs (A : World Nat W E) (U : Sel → Nat → Src.Rel W E) (err : Err → E) : Nodes → List (Src.Rel W E)
  | .nil => []
  | .cons n ns => n.exec A U err :: ns.runs A U err

theorem shape_choice {sel : Sel} {r : Ex SBlock} {as : Exs SBlock} {c : Control} (h : shape sel r as = some (.choice c)) : controls.lookup sel = some c := by
  unfold shape at h
  split at h
  · split at h <;> cases h
  · split at h
    · rename_i c' hc
      split at h
      · cases h; exact hc
      · cases h
    · cases h

theorem choice_exec {sel : Sel} {r : Ex SBlock} {as : Exs SBlock} {c : Control} {x n : Node} {xs : Nodes} (h : shape sel r as = some (.choice c)) (hn : trChoice sel x xs n) :
    n.exec A U err = c.eval err (x.exec A U err) (xs.runs A U err) := by
  have hc := shape_choice h
  rcases hn with ⟨k, a, hk, rfl, rfl⟩ | ⟨k, a, b, hk, rfl, rfl⟩
  · cases kind sel with
    | one k' c' ha hl hc' hb he =>
      rw [hk] at ha; cases ha
      rw [hc] at hc'; cases hc'
      exact (he _ _ _ _ _).symm
    | two k' c' ha => rw [hk] at ha; cases ha
    | «while» b ha => rw [hk] at ha; cases ha
    | none ha => rw [hk] at ha; cases ha
  · cases kind sel with
    | two k' c' ha hl hc' hb he =>
      rw [hk] at ha; cases ha
      rw [hc] at hc'; cases hc'
      exact (he _ _ _ _ _ _).symm
    | one k' c' ha => rw [hk] at ha; cases ha
    | «while» b ha => rw [hk] at ha; cases ha
    | none ha => rw [hk] at ha; cases ha

theorem tr_block_id {σ : Areas} {s : SBlock} {m : AMeth} (h : s.tr known σ m) : m.id = s.id := by
  obtain ⟨id, args, env, b⟩ := s
  simp only [SBlock.tr] at h
  obtain ⟨ns, _, ⟨_, rfl⟩ | ⟨_, t, _, rfl⟩⟩ := h <;> rfl

theorem retNode_exec (d : Nat) (x : Node) (hG : 0 < d → ∀ v w u w', ¬ A (.nlr d v) w (.val u) w') :
    (retNode d x).exec A U err = Src.bind (x.exec A U err) fun v => if d = 0 then Src.answer v else Src.bind (Src.act A (.nlr d v)) Src.answer := by
  unfold retNode
  by_cases h : d = 0
  · simp only [if_pos h, Node.exec]
  · simp only [if_neg h, Node.exec]
    exact congrArg (Src.bind _) (funext fun v => (nlr_answer (hG (Nat.pos_of_ne_zero h)) v).symm)

theorem body_eval_stmt (isBlock : Bool) (σ : Areas) (e : Ex SBlock) {rest : Body SBlock} (h : rest ≠ .done) :
    (Body.stmt e rest).eval known A err isBlock σ = Src.bind (e.eval known A err σ) fun _ => rest.eval known A err isBlock σ := by
  cases rest with
  | done => exact absurd rfl h
  | _ => simp only [Body.eval]

theorem body_tr_cons {isBlock : Bool} {σ : Areas} {b : Body SBlock} {ns : Nodes} (h : b.tr known isBlock σ ns) (hb : b ≠ .done) : ∃ y ys, ns = .cons y ys := by
  cases b with
  | done => exact absurd rfl hb
  | last e =>
    simp only [Body.tr] at h; obtain ⟨x, _, rfl⟩ := h
    split <;> exact ⟨_, _, rfl⟩
  | stmt e r => simp only [Body.tr] at h; obtain ⟨x, xs, _, _, rfl⟩ := h; exact ⟨_, _, rfl⟩
  | exit e => simp only [Body.tr] at h; obtain ⟨x, _, rfl⟩ := h; exact ⟨_, _, rfl⟩
  | exitSelf => simp only [Body.tr] at h; exact ⟨_, _, h⟩

section
variable {I D F C N : Prop}
mutual
theorem Ex.tr_exec (hP : Plain A U) (hN : N → Gone A) : ∀ (e : Ex SBlock) (inner : Bool) (σ : Areas) (n : Node), e.fair I D F C N inner → (0 < depth σ → inner = true) → e.tr known σ n →
    n.exec A U err = e.eval known A err σ
  | .lit (.val v), inner, σ, n, hf, hi, h => by simp only [Ex.tr] at h; subst h; simp only [Node.exec, Ex.eval, Src.lit]
  | .lit (.arr a), inner, σ, n, hf, hi, h => by simp only [Ex.tr] at h
  | .glob g, inner, σ, n, hf, hi, h => by
    simp only [Ex.tr] at h
    obtain ⟨l, rfl⟩ := h
    simp only [Ex.eval]
    exact globNode_eval hP l g
  | .var true i l, inner, σ, n, hf, hi, h => by
    simp only [Ex.tr] at h; subst h
    by_cases hi0 : i = 0
    · rw [if_pos hi0, hi0]; simp only [Node.exec, Ex.eval]
    · rw [if_neg hi0]; simp only [Node.exec, Ex.eval]
  | .var false i l, inner, σ, n, hf, hi, h => by
    simp only [Ex.tr] at h
    obtain ⟨s, j, hs, rfl⟩ := h
    simp only [Node.exec, Ex.eval, hs.whereIs]
  | .fld nm i, inner, σ, n, hf, hi, h => by simp only [Ex.tr] at h; subst h; simp only [Node.exec, Ex.eval]
  | .blk c s, inner, σ, n, hf, hi, h => by
    simp only [Ex.tr] at h
    obtain ⟨m, hm, rfl⟩ := h
    simp only [Node.exec, Ex.eval, tr_block_id hm]
  | .asg t ts e, inner, σ, n, hf, hi, h => by
    simp only [Ex.tr] at h
    obtain ⟨x, hx, h⟩ := h
    simp only [Ex.fair] at hf
    rw [trTgts_exec hP _ _ h, Ex.tr_exec hP hN e inner σ x hf.1 hi hx]
    simp only [Ex.eval]
  | .inc e, inner, σ, n, hf, hi, h => by
    simp only [Ex.tr] at h
    obtain ⟨x, hx, rfl⟩ := h
    simp only [Ex.fair] at hf
    simp only [Node.exec, Ex.eval, Ex.tr_exec hP hN e inner σ x hf hi hx, hP.inc]
  | .dec e, inner, σ, n, hf, hi, h => by
    simp only [Ex.tr] at h
    obtain ⟨x, hx, rfl⟩ := h
    simp only [Ex.fair] at hf
    simp only [Node.exec, Nodes.exec, Ex.eval, Ex.tr_exec hP hN e inner σ x hf.1 hi hx, Src.pure_bind]
  | .send sel r as, inner, σ, n, hf, hi, h => by
    simp only [Ex.tr] at h
    simp only [Ex.fair] at hf
    simp only [Ex.eval]
    split at h
    · rename_i c hs
      obtain ⟨x, xs, h1, h2, h3⟩ := h
      simp only [hs]
      rw [choice_exec hs h3, Ex.tr_exec hP hN r inner σ x hf.1 hi h1, Exs.trIn_exec hP hN as inner σ xs hf.2.1 hi h2]
    · rename_i b hs
      obtain ⟨x, y, h1, h2, rfl⟩ := h
      have h3 := Exs.trIn_exec hP hN as inner σ _ hf.2.1 hi h2
      simp only [hs]
      rw [← h3, ← Ex.trIn_exec hP hN r inner σ x hf.1 hi h1]
      rfl
    · rename_i hs
      obtain ⟨x, xs, h1, h2, rfl | ⟨rfl, rfl, rfl⟩⟩ := h <;> simp only [hs]
      · simp only [Node.exec]
        rw [Ex.tr_exec hP hN r inner σ x hf.1 hi h1]
        exact congrArg (Src.bind _) (funext fun v => Exs.tr_exec hP hN as inner σ xs _ hf.2.1 hi h2)
      · simp only [Node.exec]
        rw [Ex.tr_exec hP hN r inner σ x hf.1 hi h1]
        refine congrArg (Src.bind _) (funext fun v => ?_)
        rw [← Exs.tr_exec hP hN as inner σ _ _ hf.2.1 hi h2]
        simp only [Nodes.exec, Node.exec, Src.pure_bind, hP.inc]
  | .superSend sel r as, inner, σ, n, hf, hi, h => by
    simp only [Ex.tr] at h
    obtain ⟨x, xs, h1, h2, rfl⟩ := h
    simp only [Ex.fair] at hf
    simp only [Node.exec, Ex.eval]
    rw [Ex.tr_exec hP hN r inner σ x hf.1 hi h1]
    exact congrArg (Src.bind _) (funext fun v => Exs.tr_exec hP hN as inner σ xs _ hf.2 hi h2)
theorem Ex.trIn_exec (hP : Plain A U) (hN : N → Gone A) : ∀ (e : Ex SBlock) (inner : Bool) (σ : Areas) (n : Node), e.fair I D F C N inner → (0 < depth σ → inner = true) → e.trIn known σ n →
    n.exec A U err = e.inPlace known A err σ
  | .blk c s, inner, σ, n, hf, hi, h => by
    simp only [Ex.trIn] at h
    simp only [Ex.fair] at hf
    simp only [Ex.inPlace]
    exact SBlock.trIn_exec hP hN s σ n hf.1 (fun hd => hf.2 (hi hd)) h
  | .lit _, _, _, _, _, _, h => by simp only [Ex.trIn] at h
  | .glob _, _, _, _, _, _, h => by simp only [Ex.trIn] at h
  | .var _ _ _, _, _, _, _, _, h => by simp only [Ex.trIn] at h
  | .fld _ _, _, _, _, _, _, h => by simp only [Ex.trIn] at h
  | .asg _ _ _, _, _, _, _, _, h => by simp only [Ex.trIn] at h
  | .inc _, _, _, _, _, _, h => by simp only [Ex.trIn] at h
  | .dec _, _, _, _, _, _, h => by simp only [Ex.trIn] at h
  | .send _ _ _, _, _, _, _, _, h => by simp only [Ex.trIn] at h
  | .superSend _ _ _, _, _, _, _, _, h => by simp only [Ex.trIn] at h
theorem Exs.trIn_exec (hP : Plain A U) (hN : N → Gone A) : ∀ (es : Exs SBlock) (inner : Bool) (σ : Areas) (ns : Nodes), es.fair I D F C N inner → (0 < depth σ → inner = true) → es.trIn known σ ns →
    ns.runs A U err = es.inPlace known A err σ
  | .nil, inner, σ, ns, hf, hi, h => by simp only [Exs.trIn] at h; subst h; simp only [Nodes.runs, Exs.inPlace]
  | .cons e es, inner, σ, ns, hf, hi, h => by
    simp only [Exs.trIn] at h
    obtain ⟨x, xs, h1, h2, rfl⟩ := h
    simp only [Exs.fair] at hf
    simp only [Nodes.runs, Exs.inPlace, Ex.trIn_exec hP hN e inner σ x hf.1 hi h1, Exs.trIn_exec hP hN es inner σ xs hf.2 hi h2]
theorem Exs.tr_exec (hP : Plain A U) (hN : N → Gone A) : ∀ (es : Exs SBlock) (inner : Bool) (σ : Areas) (ns : Nodes) (k : List Val → Src.Rel W E), es.fair I D F C N inner →
    (0 < depth σ → inner = true) → es.tr known σ ns → ns.exec A U err k = es.eval known A err σ k
  | .nil, inner, σ, ns, k, hf, hi, h => by simp only [Exs.tr] at h; subst h; simp only [Nodes.exec, Exs.eval]
  | .cons e es, inner, σ, ns, k, hf, hi, h => by
    simp only [Exs.tr] at h
    obtain ⟨x, xs, h1, h2, rfl⟩ := h
    simp only [Exs.fair] at hf
    simp only [Nodes.exec, Exs.eval]
    rw [Ex.tr_exec hP hN e inner σ x hf.1 hi h1]
    exact congrArg (Src.bind _) (funext fun v => Exs.tr_exec hP hN es inner σ xs _ hf.2 hi h2)
theorem Body.tr_exec (hP : Plain A U) (hN : N → Gone A) : ∀ (b : Body SBlock) (inner : Bool) (σ : Areas) (ns : Nodes), b.fair I D F C N inner → (0 < depth σ → inner = true) →
    (0 < depth σ → b.throws true = true → N) → b.tr known true σ ns → ns.execSeq A U err = b.eval known A err true σ
  | .done, inner, σ, ns, hf, hi, hn, h => by simp only [Body.tr, if_true] at h; subst h; simp only [Nodes.execSeq, Body.eval, if_true]
  | .last e, inner, σ, ns, hf, hi, hn, h => by
    simp only [Body.tr, if_true] at h
    obtain ⟨x, hx, rfl⟩ := h
    simp only [Body.fair] at hf
    simp only [Nodes.execSeq, Body.eval, if_true]
    exact Ex.tr_exec hP hN e inner σ x hf hi hx
  | .stmt e rest, inner, σ, ns, hf, hi, hn, h => by
    simp only [Body.tr] at h
    obtain ⟨x, xs, hx, hr, rfl⟩ := h
    simp only [Body.fair] at hf
    have h1 := Ex.tr_exec hP hN e inner σ x hf.1 hi hx
    by_cases hd : rest = .done
    · subst hd
      simp only [Body.tr, if_true] at hr
      subst hr
      simp only [Nodes.execSeq, Body.eval, if_true]
      exact h1
    · have h2 := Body.tr_exec hP hN rest inner σ xs hf.2 hi (fun h1 h2 => hn h1 (by simp only [Body.throws, h2, Bool.or_true])) hr
      obtain ⟨y, ys, rfl⟩ := body_tr_cons hr hd
      rw [Nodes.execSeq_cons, body_eval_stmt _ _ _ hd, h1, h2]
  | .exit e, inner, σ, ns, hf, hi, hn, h => by
    simp only [Body.tr, if_true] at h
    obtain ⟨x, hx, rfl⟩ := h
    simp only [Body.fair] at hf
    simp only [Nodes.execSeq, Body.eval]
    rw [retNode_exec _ _ (fun hd => hN (hn hd rfl) _ hd), Ex.tr_exec hP hN e inner σ x hf hi hx]
    rfl
  | .exitSelf, inner, σ, ns, hf, hi, hn, h => by
    simp only [Body.tr, if_true] at h
    subst h
    simp only [Nodes.execSeq, Body.eval]
    rw [retNode_exec _ _ (fun hd => hN (hn hd rfl) _ hd)]
    simp only [Node.exec]
    rfl
theorem SBlock.trIn_exec (hP : Plain A U) (hN : N → Gone A) : ∀ (s : SBlock) (σ : Areas) (n : Node), s.fair I D F C N → (0 < depth σ → s.throws = true → N) → s.trIn known σ n →
    n.exec A U err = s.inPlace known A err σ
  | .mk id args env b, σ, n, hf, hn, h => by
    simp only [SBlock.trIn] at h
    obtain ⟨ns, h, rfl⟩ := h
    simp only [SBlock.fair] at hf
    simp only [SBlock.throws] at hn
    simp only [SBlock.inPlace]
    rw [seqNode_exec]
    exact Body.tr_exec hP hN b true _ ns hf.1 (fun _ => rfl) (fun hd => hn (by rwa [depth_false] at hd)) h
end

/-- The body of a block or method with an activation of its own. -/
theorem Body.tr_ends (hP : Plain A U) (hN : N → Gone A) (isBlock : Bool) : ∀ (b : Body SBlock) (inner : Bool) (σ : Areas) (ns : Nodes), b.fair I D F C N inner → (0 < depth σ → inner = true) →
    (isBlock = false → depth σ = 0) → b.tr known isBlock σ ns → ends (ns.execSeq A U err) = ends (b.eval known A err isBlock σ)
  | .done, inner, σ, ns, hf, hi, hn, h => by
    simp only [Body.tr] at h; subst h
    cases isBlock <;> simp only [Nodes.execSeq, Body.eval, if_true, Node.exec, Bool.false_eq_true, if_false]
  | .last e, inner, σ, ns, hf, hi, hn, h => by
    simp only [Body.tr] at h
    obtain ⟨x, hx, rfl⟩ := h
    simp only [Body.fair] at hf
    have h1 := Ex.tr_exec (err := err) hP hN e inner σ x hf hi hx
    cases isBlock <;> simp only [Nodes.execSeq, Body.eval, if_true, Node.exec, Bool.false_eq_true, if_false, h1]
  | .stmt e rest, inner, σ, ns, hf, hi, hn, h => by
    simp only [Body.tr] at h
    obtain ⟨x, xs, hx, hr, rfl⟩ := h
    simp only [Body.fair] at hf
    have h1 := Ex.tr_exec (err := err) hP hN e inner σ x hf.1 hi hx
    by_cases hd : rest = .done
    · subst hd
      simp only [Body.tr] at hr
      subst hr
      cases isBlock <;> simp only [Nodes.execSeq, Body.eval, if_true, Node.exec, Bool.false_eq_true, if_false, h1]
    · have h2 := Body.tr_ends hP hN isBlock rest inner σ xs hf.2 hi hn hr
      obtain ⟨y, ys, rfl⟩ := body_tr_cons hr hd
      rw [Nodes.execSeq_cons, body_eval_stmt _ _ _ hd, h1]
      exact ends_bind_congr _ fun _ => h2
  | .exit e, inner, σ, ns, hf, hi, hn, h => by
    simp only [Body.tr] at h
    obtain ⟨x, hx, rfl⟩ := h
    simp only [Body.fair] at hf
    have h1 := Ex.tr_exec (err := err) hP hN e inner σ x hf hi hx
    simp only [Nodes.execSeq, Body.eval]
    cases isBlock with
    | false =>
      simp only [Bool.false_eq_true, if_false]
      rw [h1, ← ends_bind_answer]
      exact ends_bind_congr _ fun v => by simp only [returns, hn rfl, if_true]
    | true =>
      simp only [if_true, retNode]
      by_cases hd : depth σ = 0
      · simp only [if_pos hd, Node.exec, h1]
        exact ends_bind_congr _ fun v => by simp only [returns, hd, if_true]
      · simp only [if_neg hd, Node.exec, h1]
        exact ends_bind_congr _ fun v => by simp only [returns, if_neg hd, ends_bind_answer]
  | .exitSelf, inner, σ, ns, hf, hi, hn, h => by
    simp only [Body.tr] at h
    subst h
    simp only [Nodes.execSeq, Body.eval]
    cases isBlock with
    | false =>
      simp only [Bool.false_eq_true, if_false, Node.exec]
      rw [hn rfl, ← ends_bind_answer]
      exact ends_bind_congr _ fun v => by simp only [returns, hn rfl, if_true]
    | true =>
      simp only [if_true, retNode]
      by_cases hd : depth σ = 0
      · simp only [if_pos hd, Node.exec]
        exact ends_bind_congr _ fun v => by simp only [returns, hd, if_true]
      · simp only [if_neg hd, Node.exec]
        exact ends_bind_congr _ fun v => by simp only [returns, if_neg hd, ends_bind_answer]
end

/-! ## Trees without returns -/

mutual
theorem Ex.tr_noRet (hP : Plain A U) : ∀ (e : Ex SBlock) (σ : Areas) (n : Node), (0 < depth σ ∨ e.throws = false) → e.tr known σ n → NoRet (n.exec A U err)
  | .lit (.val v), σ, n, hd, h => by simp only [Ex.tr] at h; subst h; simp only [Node.exec]; exact .pure _
  | .lit (.arr a), σ, n, hd, h => by simp only [Ex.tr] at h
  | .glob g, σ, n, hd, h => by
    simp only [Ex.tr] at h
    obtain ⟨l, rfl⟩ := h
    rw [globNode_eval hP, Src.glob_eq]
    exact .ite (.pure _) (.ite (.pure _) (.ite (.pure _) (.act _ _)))
  | .var true i l, σ, n, hd, h => by
    simp only [Ex.tr] at h; subst h
    split <;> simp only [Node.exec] <;> exact .act _ _
  | .var false i l, σ, n, hd, h => by
    simp only [Ex.tr] at h
    obtain ⟨s, j, hs, rfl⟩ := h
    simp only [Node.exec]; exact .act _ _
  | .fld nm i, σ, n, hd, h => by simp only [Ex.tr] at h; subst h; simp only [Node.exec]; exact .act _ _
  | .blk c s, σ, n, hd, h => by
    simp only [Ex.tr] at h
    obtain ⟨m, hm, rfl⟩ := h
    simp only [Node.exec]; exact .act _ _
  | .asg t ts e, σ, n, hd, h => by
    simp only [Ex.tr] at h
    obtain ⟨x, hx, h⟩ := h
    simp only [Ex.throws] at hd
    rw [trTgts_exec hP _ _ h]
    refine (Ex.tr_noRet hP e σ x hd hx).bind fun v => ?_
    have wr : ∀ t, NoRet (assign A σ v t) := fun t => by
      rcases t with ⟨nm, _ | _, i, l⟩ | ⟨nm, i⟩ <;> simp only [assign]
      · split
        · exact .act _ _
        · exact fun _ _ _ h => h
      · exact .act _ _
      · exact .act _ _
    generalize t :: ts = us
    induction us with
    | nil => exact .pure _
    | cons t ts ih => exact .bind ih fun _ => .bind (wr t) fun _ => .pure _
  | .inc e, σ, n, hd, h => by
    simp only [Ex.tr] at h
    obtain ⟨x, hx, rfl⟩ := h
    simp only [Ex.throws] at hd
    simp only [Node.exec]
    exact (Ex.tr_noRet hP e σ x hd hx).bind fun _ => .act _ _
  | .dec e, σ, n, hd, h => by
    simp only [Ex.tr] at h
    obtain ⟨x, hx, rfl⟩ := h
    simp only [Ex.throws] at hd
    simp only [Node.exec, Nodes.exec]
    exact (Ex.tr_noRet hP e σ x hd hx).bind fun _ => .bind (.pure _) fun _ => .act _ _
  | .send sel r as, σ, n, hd, h => by
    simp only [Ex.tr] at h
    simp only [Ex.throws, Bool.or_eq_false_iff] at hd
    have hd1 := hd.imp id (·.1)
    have hd2 := hd.imp id (·.2)
    split at h
    · obtain ⟨x, xs, h1, h2, ⟨k, a, _, rfl, rfl⟩ | ⟨k, a, b, _, rfl, rfl⟩⟩ := h
      · have := Exs.trIn_noRet hP as σ _ hd2 h2
        simp only [Node.exec]
        exact .inl1 k (Ex.tr_noRet hP r σ x hd1 h1) (this _ (by simp only [Nodes.runs]; exact List.mem_cons_self))
      · have := Exs.trIn_noRet hP as σ _ hd2 h2
        simp only [Node.exec]
        exact .inl2 k (Ex.tr_noRet hP r σ x hd1 h1) (this _ (by simp only [Nodes.runs]; exact List.mem_cons_self))
          (this _ (by simp only [Nodes.runs]; exact List.mem_cons_of_mem _ List.mem_cons_self))
    · obtain ⟨x, y, h1, h2, rfl⟩ := h
      have := Exs.trIn_noRet hP as σ _ hd2 h2
      simp only [Node.exec]
      exact .whileNode (Ex.trIn_noRet hP r σ x hd1 h1) (this _ (by simp only [Nodes.runs]; exact List.mem_cons_self))
    · obtain ⟨x, xs, h1, h2, rfl | ⟨rfl, rfl, rfl⟩⟩ := h
      · simp only [Node.exec]
        exact (Ex.tr_noRet hP r σ x hd1 h1).bind fun v => Exs.tr_noRet hP as σ xs _ hd2 h2 fun _ => .act _ _
      · simp only [Node.exec]
        exact (Ex.tr_noRet hP r σ x hd1 h1).bind fun v => .act _ _
  | .superSend sel r as, σ, n, hd, h => by
    simp only [Ex.tr] at h
    obtain ⟨x, xs, h1, h2, rfl⟩ := h
    simp only [Ex.throws, Bool.or_eq_false_iff] at hd
    simp only [Node.exec]
    exact (Ex.tr_noRet hP r σ x (hd.imp id (·.1)) h1).bind fun v => Exs.tr_noRet hP as σ xs _ (hd.imp id (·.2)) h2 fun _ => .act _ _
theorem Ex.trIn_noRet (hP : Plain A U) : ∀ (e : Ex SBlock) (σ : Areas) (n : Node), (0 < depth σ ∨ e.throws = false) → e.trIn known σ n → NoRet (n.exec A U err)
  | .blk c s, σ, n, hd, h => by
    simp only [Ex.trIn] at h
    simp only [Ex.throws] at hd
    exact SBlock.trIn_noRet hP s σ n hd h
  | .lit _, _, _, _, h => by simp only [Ex.trIn] at h
  | .glob _, _, _, _, h => by simp only [Ex.trIn] at h
  | .var _ _ _, _, _, _, h => by simp only [Ex.trIn] at h
  | .fld _ _, _, _, _, h => by simp only [Ex.trIn] at h
  | .asg _ _ _, _, _, _, h => by simp only [Ex.trIn] at h
  | .inc _, _, _, _, h => by simp only [Ex.trIn] at h
  | .dec _, _, _, _, h => by simp only [Ex.trIn] at h
  | .send _ _ _, _, _, _, h => by simp only [Ex.trIn] at h
  | .superSend _ _ _, _, _, _, h => by simp only [Ex.trIn] at h
theorem Exs.trIn_noRet (hP : Plain A U) : ∀ (es : Exs SBlock) (σ : Areas) (ns : Nodes), (0 < depth σ ∨ es.throws = false) → es.trIn known σ ns → ∀ R ∈ ns.runs A U err, NoRet R
  | .nil, σ, ns, hd, h => by simp only [Exs.trIn] at h; subst h; exact fun _ h => nomatch h
  | .cons e es, σ, ns, hd, h => by
    simp only [Exs.trIn] at h
    obtain ⟨x, xs, h1, h2, rfl⟩ := h
    simp only [Exs.throws, Bool.or_eq_false_iff] at hd
    intro R hR
    simp only [Nodes.runs] at hR
    rcases List.mem_cons.mp hR with rfl | hR
    · exact Ex.trIn_noRet hP e σ x (hd.imp id (·.1)) h1
    · exact Exs.trIn_noRet hP es σ xs (hd.imp id (·.2)) h2 R hR
theorem Exs.tr_noRet (hP : Plain A U) : ∀ (es : Exs SBlock) (σ : Areas) (ns : Nodes) (k : List Val → Src.Rel W E), (0 < depth σ ∨ es.throws = false) → es.tr known σ ns → (∀ vs, NoRet (k vs)) →
    NoRet (ns.exec A U err k)
  | .nil, σ, ns, k, hd, h, hk => by simp only [Exs.tr] at h; subst h; simp only [Nodes.exec]; exact hk _
  | .cons e es, σ, ns, k, hd, h, hk => by
    simp only [Exs.tr] at h
    obtain ⟨x, xs, h1, h2, rfl⟩ := h
    simp only [Exs.throws, Bool.or_eq_false_iff] at hd
    simp only [Nodes.exec]
    exact (Ex.tr_noRet hP e σ x (hd.imp id (·.1)) h1).bind fun v => Exs.tr_noRet hP es σ xs _ (hd.imp id (·.2)) h2 fun vs => hk _
theorem Body.tr_noRet (hP : Plain A U) : ∀ (isBlock : Bool) (b : Body SBlock) (σ : Areas) (ns : Nodes), (0 < depth σ ∨ b.throws isBlock = false) → b.tr known isBlock σ ns →
    NoRet (ns.execSeq A U err)
  | isBlock, .done, σ, ns, hd, h => by
    simp only [Body.tr] at h; subst h
    cases isBlock <;> simp only [Nodes.execSeq, Node.exec, if_true, Bool.false_eq_true, if_false]
    · exact .act _ _
    · exact .pure _
  | isBlock, .last e, σ, ns, hd, h => by
    simp only [Body.tr] at h
    obtain ⟨x, hx, rfl⟩ := h
    simp only [Body.throws] at hd
    have h1 := Ex.tr_noRet hP e σ x hd hx
    cases isBlock <;> simp only [Nodes.execSeq, Node.exec, if_true, Bool.false_eq_true, if_false]
    · exact h1.bind fun _ => .act _ _
    · exact h1
  | isBlock, .stmt e rest, σ, ns, hd, h => by
    simp only [Body.tr] at h
    obtain ⟨x, xs, hx, hr, rfl⟩ := h
    simp only [Body.throws, Bool.or_eq_false_iff] at hd
    have h1 := Ex.tr_noRet hP e σ x (hd.imp id (·.1)) hx
    have h2 := Body.tr_noRet hP isBlock rest σ xs (hd.imp id (·.2)) hr
    cases xs with
    | nil => simp only [Nodes.execSeq]; exact h1
    | cons y ys => rw [Nodes.execSeq_cons]; exact h1.bind fun _ => h2
  | isBlock, .exit e, σ, ns, hd, h => by
    simp only [Body.tr] at h
    obtain ⟨x, hx, rfl⟩ := h
    simp only [Body.throws, Bool.or_eq_false_iff] at hd
    have h1 := Ex.tr_noRet hP e σ x (hd.imp id (·.2)) hx
    simp only [Nodes.execSeq]
    cases isBlock with
    | false => simpa only [Bool.false_eq_true, if_false] using h1
    | true =>
      have hd : 0 < depth σ := hd.resolve_right fun h => nomatch h.1
      simp only [if_true, retNode, if_neg (Nat.ne_of_gt hd), Node.exec]
      exact h1.bind fun _ => .act _ _
  | isBlock, .exitSelf, σ, ns, hd, h => by
    simp only [Body.tr] at h
    subst h
    simp only [Body.throws] at hd
    simp only [Nodes.execSeq]
    cases isBlock with
    | false => simp only [Bool.false_eq_true, if_false, Node.exec]; exact .act _ _
    | true =>
      have hd : 0 < depth σ := hd.resolve_right fun h => nomatch h
      simp only [if_true, retNode, if_neg (Nat.ne_of_gt hd), Node.exec]
      exact .bind (.act _ _) fun _ => .act _ _
theorem SBlock.trIn_noRet (hP : Plain A U) : ∀ (s : SBlock) (σ : Areas) (n : Node), (0 < depth σ ∨ s.throws = false) → s.trIn known σ n → NoRet (n.exec A U err)
  | .mk id args env b, σ, n, hd, h => by
    simp only [SBlock.trIn] at h
    obtain ⟨ns, h, rfl⟩ := h
    simp only [SBlock.throws] at hd
    rw [seqNode_exec]
    exact Body.tr_noRet hP true b _ ns (by rwa [depth_false]) h
end

/-! ## Activations -/

/-- A block that was translated in the scopes `σ` does what it means there. -/
theorem SBlock.tr_run {I D F C N : Prop} (hP : Plain A U) (hN : N → Gone A) {s : SBlock} {σ : Areas} {m : AMeth} (hf : s.fair I D F C N) (hσ : 0 < σ.countP (·.frame)) (h : s.tr known σ m) :
    m.run A U err = s.eval known A err σ := by
  obtain ⟨id, args, env, b⟩ := s
  simp only [SBlock.tr] at h
  simp only [SBlock.fair] at hf
  simp only [SBlock.eval, SBlock.scope]
  obtain ⟨ns, h, hm⟩ := h
  have hd : 0 < depth (⟨true, env, env ++ b.hoist⟩ :: σ) := by unfold depth; rw [List.countP_cons]; simpa using hσ
  have h1 := Body.tr_ends (err := err) hP hN true b true _ ns hf.1 (fun _ => rfl) (fun h => nomatch h) h
  have h2 := Body.tr_noRet (err := err) hP true b _ ns (.inl hd) h
  rw [← seqNode_exec] at h1 h2
  rw [ends_answered, ← h1]
  rcases hm with ⟨_, rfl⟩ | ⟨hp, t, ht, rfl⟩
  · exact answers_false h2
  · exact triv_run ht ((body_triv_plain h hd).2 hp) err
end
end PySOM.BC

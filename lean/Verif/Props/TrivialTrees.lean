import Verif.Model.TrivialTrees
import Verif.Props.Trivial
/-!
# C35 for the AST interpreter

Which methods and blocks become trivial methods, and that calling them does what executing their trees would do.
-/
set_option autoImplicit false
namespace PySOM.BC
open PySOM

section
variable {W E : Type}

/-! ## What is recognised -/

/-- The trivial method for an expression whose value is answered, in a method (`lvl = 0`) or in a block. -/
def Ex.atriv (known : Sel → Bool) (alloc : LitTs → Val) (lvl : Nat) : Ex SBlock → Option ATriv
  | .lit (.val v) => some (.lit v)
  | .lit (.arr es) => some (.lit (alloc es))
  | .glob n => some (if n = symTrue then .lit .tru else if n = symFalse then .lit .fls else if n = symNil then .lit .nil else if known n then .globK n else .globU n lvl)
  | .fld _ i => some (.fldRead i lvl)
  | .asg (.fld _ i) [] (.var true j _) => if lvl = 0 ∧ j ≠ 0 then some (.fldWrite i j) else none
  | _ => none

/-- The trivial method for a statement after which a method answers itself: an assignment of an argument to a field. -/
def Ex.atrivSet : Ex SBlock → Option ATriv
  | .asg (.fld _ i) [] (.var true j _) => if j ≠ 0 then some (.fldWrite i j) else none
  | _ => none

/-- The trivial method for a body, if it is one. -/
def Body.atriv (known : Sel → Bool) (alloc : LitTs → Val) (isBlock : Bool) (lvl : Nat) : Body SBlock → Option ATriv
  | .done => if isBlock then some (.lit .nil) else none
  | .last e => if isBlock then e.atriv known alloc lvl else e.atrivSet
  | .exit e => if isBlock then none else e.atriv known alloc lvl
  | .stmt e .done => if isBlock then e.atriv known alloc lvl else e.atrivSet
  | .stmt e .exitSelf => if isBlock then none else e.atrivSet
  | .stmt e (.exit (.var true 0 0)) => if isBlock then none else e.atrivSet
  | _ => none

theorem globNode_trivial (known : Sel → Bool) (lvl : Nat) (n : Sel) :
    (globNode known lvl n).triv = some (if n = symTrue then .lit .tru else if n = symFalse then .lit .fls else if n = symNil then .lit .nil else if known n then .globK n else .globU n lvl) := by
  unfold globNode
  repeat' split
  all_goals rfl

/-- A read of an argument. -/
def Node.argOf : Node → Option Nat
  | .readArg j _ => some j
  | _ => none

def Ex.argOf : Ex SBlock → Option Nat
  | .var true j _ => if j = 0 then none else some j
  | _ => none

/-- `self` of the method itself. -/
def Node.isSelf : Node → Bool
  | .self 0 => true
  | _ => false

def Ex.isSelf : Ex SBlock → Bool
  | .var true 0 0 => true
  | _ => false

/-- A store of an argument into a field of the method's own `self`. -/
def Node.setOf : Node → Option ATriv
  | .fldW i 0 e => match e.argOf with
    | some j => some (.fldWrite i j)
    | none => none
  | _ => none

/-- Sends have none of the shapes. -/
structure Node.Other (n : Node) : Prop where
  triv : n.triv = none
  argOf : n.argOf = none
  isSelf : n.isSelf = false
  setOf : n.setOf = none

theorem sendNode_other {known : Sel → Bool} {lvl : Nat} {sel : Sel} {r n : Node} {as : Nodes} {env env' : List Nat} (h : sendNode known lvl sel r as env = .ok (n, env')) : n.Other := by
  unfold sendNode at h
  split at h
  · obtain ⟨x, _, h⟩ := except_bind_ok h
    cases h
    exact ⟨rfl, rfl, rfl, rfl⟩
  · obtain ⟨x, _, h⟩ := except_bind_ok h
    obtain ⟨y, _, h⟩ := except_bind_ok h
    cases h
    exact ⟨rfl, rfl, rfl, rfl⟩
  · obtain ⟨x, _, h⟩ := except_bind_ok h
    obtain ⟨y, _, h⟩ := except_bind_ok h
    cases h
    exact ⟨rfl, rfl, rfl, rfl⟩
  · obtain ⟨x, hx, h⟩ := except_bind_ok h
    cases h
    unfold plainSend at hx
    split at hx
    · split at hx
      all_goals first | cases hx; exact ⟨rfl, rfl, rfl, rfl⟩ | cases hx
    · cases hx; exact ⟨rfl, rfl, rfl, rfl⟩

theorem globNode_forms (known : Sel → Bool) (lvl : Nat) (n : Sel) : (globNode known lvl n).argOf = none ∧ (globNode known lvl n).isSelf = false ∧ (globNode known lvl n).setOf = none := by
  unfold globNode
  repeat' split
  all_goals exact ⟨rfl, rfl, rfl⟩

theorem writeNode_shape {chain : List (List Nat)} {lvl : Nat} {e n : Node} {t : Tgt} (h : writeNode chain lvl e t = .ok n) :
    n.argOf = none ∧ n.isSelf = false ∧
      (∀ i, (∃ s, t = .fld s i) → lvl = 0 → ∀ j l, e = .readArg j l → n.triv = some (.fldWrite i j) ∧ n.setOf = some (.fldWrite i j)) ∧
      ((∀ i s, t ≠ .fld s i) ∨ lvl ≠ 0 ∨ e.argOf = none → n.triv = none ∧ n.setOf = none) := by
  cases t with
  | var nm a i l =>
    cases a with
    | true => cases h; exact ⟨rfl, rfl, fun _ ⟨_, h⟩ => (nomatch h), fun _ => ⟨rfl, rfl⟩⟩
    | false =>
      obtain ⟨x, _, h⟩ := except_bind_ok h
      cases h; exact ⟨rfl, rfl, fun _ ⟨_, h⟩ => (nomatch h), fun _ => ⟨rfl, rfl⟩⟩
  | fld s i =>
    have key : ∀ e : Node, n = .fldW i lvl e → n.argOf = none ∧ n.isSelf = false ∧
      (∀ i', (∃ s', Tgt.fld s i = .fld s' i') → lvl = 0 → ∀ j l, e = .readArg j l → n.triv = some (.fldWrite i' j) ∧ n.setOf = some (.fldWrite i' j)) ∧
      ((∀ i' s', Tgt.fld s i ≠ .fld s' i') ∨ lvl ≠ 0 ∨ e.argOf = none → n.triv = none ∧ n.setOf = none) := by
      clear h
      rintro e rfl
      refine ⟨rfl, rfl, ?_, ?_⟩
      · rintro i' ⟨s', h⟩ rfl j l rfl
        cases h
        exact ⟨rfl, rfl⟩
      · rintro (h | h | h)
        · exact absurd rfl (h i s)
        · cases lvl with
          | zero => exact absurd rfl h
          | succ k => exact ⟨rfl, rfl⟩
        · cases lvl with
          | zero => cases e <;> first | exact ⟨rfl, rfl⟩ | cases h
          | succ k => exact ⟨rfl, rfl⟩
    simp only [writeNode] at h
    split at h
    · split at h
      · cases h; exact ⟨rfl, rfl, fun _ _ _ _ _ h => (nomatch h), fun _ => ⟨rfl, rfl⟩⟩
      · cases h; exact key _ rfl
    · cases h; exact key _ rfl

theorem writeNodes_other {chain : List (List Nat)} {lvl : Nat} {e n : Node} {t : Tgt} {ts : List Tgt} (h : writeNodes chain lvl e (t :: ts) = .ok n) : n.argOf = none ∧ n.isSelf = false := by
  obtain ⟨x, _, h⟩ := except_bind_ok h
  exact ⟨(writeNode_shape h).1, (writeNode_shape h).2.1⟩

theorem ex_argOf {known : Sel → Bool} {alloc : LitTs → Val} {outer : List (List Nat)} {e : Ex SBlock} {env env' : List Nat} {n : Node} (h : e.ast known alloc outer env = .ok (n, env')) :
    n.argOf = e.argOf ∧ n.isSelf = e.isSelf := by
  cases e with
  | lit l => cases l <;> (simp only [Ex.ast] at h; cases h; exact ⟨rfl, rfl⟩)
  | glob m => simp only [Ex.ast] at h; cases h; exact ⟨(globNode_forms ..).1, (globNode_forms ..).2.1⟩
  | var a i l =>
    cases a with
    | true =>
      simp only [Ex.ast] at h; cases h
      by_cases hi : i = 0
      · subst hi
        cases l <;> exact ⟨rfl, rfl⟩
      · rw [if_neg hi]
        refine ⟨(if_neg hi).symm, ?_⟩
        cases i with
        | zero => exact absurd rfl hi
        | succ i => rfl
    | false =>
      simp only [Ex.ast] at h
      obtain ⟨x, _, h⟩ := except_bind_ok h
      cases h; exact ⟨rfl, rfl⟩
  | fld s i => simp only [Ex.ast] at h; cases h; exact ⟨rfl, rfl⟩
  | blk c m =>
    simp only [Ex.ast] at h
    obtain ⟨x, _, h⟩ := except_bind_ok h
    cases h; exact ⟨rfl, rfl⟩
  | asg t ts e =>
    simp only [Ex.ast] at h
    obtain ⟨x, _, h⟩ := except_bind_ok h
    obtain ⟨y, hy, h⟩ := except_bind_ok h
    cases h; exact writeNodes_other hy
  | inc e =>
    simp only [Ex.ast] at h
    obtain ⟨x, _, h⟩ := except_bind_ok h
    cases h; exact ⟨rfl, rfl⟩
  | dec e =>
    simp only [Ex.ast] at h
    obtain ⟨x, _, h⟩ := except_bind_ok h
    cases h; exact ⟨rfl, rfl⟩
  | send s r as =>
    simp only [Ex.ast] at h
    obtain ⟨x, _, h⟩ := except_bind_ok h
    obtain ⟨y, _, h⟩ := except_bind_ok h
    have := sendNode_other h
    exact ⟨this.argOf, this.isSelf⟩
  | superSend s r as =>
    simp only [Ex.ast] at h
    obtain ⟨x, _, h⟩ := except_bind_ok h
    obtain ⟨y, _, h⟩ := except_bind_ok h
    cases h; exact ⟨rfl, rfl⟩

theorem ex_triv {known : Sel → Bool} {alloc : LitTs → Val} {outer : List (List Nat)} {e : Ex SBlock} {env env' : List Nat} {n : Node} (h : e.ast known alloc outer env = .ok (n, env')) :
    n.triv = e.atriv known alloc outer.length ∧ n.setOf = if outer.length = 0 then e.atrivSet else none := by
  have hn : ∀ x : Option ATriv, x = none → (if outer.length = 0 then x else none) = none := by rintro x rfl; split <;> rfl
  cases e with
  | lit l => cases l <;> (simp only [Ex.ast] at h; cases h; exact ⟨rfl, (hn _ rfl).symm⟩)
  | glob m => simp only [Ex.ast] at h; cases h; exact ⟨globNode_trivial .., (globNode_forms ..).2.2.trans (hn _ rfl).symm⟩
  | var a i l =>
    cases a with
    | true =>
      simp only [Ex.ast] at h; cases h
      by_cases hi : i = 0
      · rw [if_pos hi]; exact ⟨rfl, (hn _ rfl).symm⟩
      · rw [if_neg hi]; exact ⟨rfl, (hn _ rfl).symm⟩
    | false =>
      simp only [Ex.ast] at h
      obtain ⟨x, _, h⟩ := except_bind_ok h
      cases h; exact ⟨rfl, (hn _ rfl).symm⟩
  | fld s i => simp only [Ex.ast] at h; cases h; exact ⟨rfl, (hn _ rfl).symm⟩
  | blk c m =>
    simp only [Ex.ast] at h
    obtain ⟨x, _, h⟩ := except_bind_ok h
    cases h; exact ⟨rfl, (hn _ rfl).symm⟩
  | asg t ts e =>
    simp only [Ex.ast] at h
    obtain ⟨⟨n1, env1⟩, h1, h⟩ := except_bind_ok h
    obtain ⟨y, hy, h⟩ := except_bind_ok h
    cases h
    obtain ⟨m, hm, hw⟩ := except_bind_ok hy
    obtain ⟨_, _, h3, h4⟩ := writeNode_shape hw
    cases t with
    | var nm a i l =>
      obtain ⟨h5, h6⟩ := h4 (.inl fun _ _ h => nomatch h)
      exact ⟨h5, h6.trans (hn _ rfl).symm⟩
    | fld s i =>
      cases ts with
      | cons t ts =>
        obtain ⟨h5, h6⟩ := h4 (.inr (.inr (writeNodes_other hm).1))
        exact ⟨h5, h6.trans (hn _ rfl).symm⟩
      | nil =>
        cases hm
        by_cases hl : outer.length = 0
        · have ha := (ex_argOf h1).1
          have no : e.argOf = none → (Ex.asg (.fld s i) [] e).atriv known alloc outer.length = none ∧ (Ex.asg (.fld s i) [] e).atrivSet = none := by
            intro he
            cases e with
            | var a j l =>
              cases a with
              | true =>
                have hj : j = 0 := Classical.byContradiction fun hj => by simp [Ex.argOf, hj] at he
                simp [Ex.atriv, Ex.atrivSet, hj]
              | false => exact ⟨rfl, rfl⟩
            | _ => exact ⟨rfl, rfl⟩
          cases he : e.argOf with
          | none =>
            obtain ⟨h5, h6⟩ := h4 (.inr (.inr (ha.trans he)))
            obtain ⟨h7, h8⟩ := no he
            exact ⟨h5.trans h7.symm, h6.trans (hn _ h8).symm⟩
          | some j =>
            rw [he] at ha
            obtain ⟨l, rfl⟩ : ∃ l, n1 = .readArg j l := by
              cases n1 with
              | readArg j' l => cases ha; exact ⟨l, rfl⟩
              | _ => cases ha
            obtain ⟨h5, h6⟩ := h3 i ⟨s, rfl⟩ hl j l rfl
            cases e with
            | var a j' l' =>
              cases a with
              | false => cases he
              | true =>
                simp only [Ex.argOf] at he
                split at he
                · cases he
                · rename_i hj
                  cases he
                  refine ⟨h5.trans ?_, h6.trans ?_⟩
                  · simp [Ex.atriv, hl, hj]
                  · simp [Ex.atrivSet, hl, hj]
            | _ => cases he
        · obtain ⟨h5, h6⟩ := h4 (.inr (.inl hl))
          refine ⟨h5.trans ?_, h6.trans ?_⟩
          · cases e with
            | var a j l => cases a <;> simp [Ex.atriv, hl]
            | _ => rfl
          · rw [if_neg hl]
  | inc e =>
    simp only [Ex.ast] at h
    obtain ⟨x, _, h⟩ := except_bind_ok h
    cases h; exact ⟨rfl, (hn _ rfl).symm⟩
  | dec e =>
    simp only [Ex.ast] at h
    obtain ⟨x, _, h⟩ := except_bind_ok h
    cases h; exact ⟨rfl, (hn _ rfl).symm⟩
  | send s r as =>
    simp only [Ex.ast] at h
    obtain ⟨x, _, h⟩ := except_bind_ok h
    obtain ⟨y, _, h⟩ := except_bind_ok h
    have := sendNode_other h
    exact ⟨this.triv, this.setOf.trans (hn _ rfl).symm⟩
  | superSend s r as =>
    simp only [Ex.ast] at h
    obtain ⟨x, _, h⟩ := except_bind_ok h
    obtain ⟨y, _, h⟩ := except_bind_ok h
    cases h; exact ⟨rfl, (hn _ rfl).symm⟩

theorem pair_triv (e e' : Node) : (Node.seq (.cons e (.cons e' .nil))).triv = if e'.isSelf then e.setOf else none := by
  cases e' with
  | self l =>
    cases l with
    | zero =>
      show _ = e.setOf
      cases e with
      | fldW i l e =>
        cases l with
        | zero => cases e <;> rfl
        | succ l => rfl
      | _ => rfl
    | succ l =>
      show _ = none
      cases e with
      | fldW i l e =>
        cases l with
        | zero => cases e <;> rfl
        | succ l => rfl
      | _ => rfl
  | _ =>
    show _ = none
    cases e with
    | fldW i l e =>
      cases l with
      | zero => cases e <;> rfl
      | succ l => rfl
    | _ => rfl

theorem more_triv (e e' e'' : Node) (es : Nodes) : (Node.seq (.cons e (.cons e' (.cons e'' es)))).triv = none := by
  cases e with
  | fldW i l e =>
    cases l with
    | zero => cases e <;> first | rfl | (cases e' <;> first | rfl | (rename_i l; cases l <;> rfl))
    | succ l => rfl
  | _ => rfl

theorem pair_of {known : Sel → Bool} {alloc : LitTs → Val} {outer : List (List Nat)} {e : Ex SBlock} {env env' : List Nat} {n n' : Node} (h : e.ast known alloc outer env = .ok (n, env')) :
    (Node.seq (.cons n (.cons n' .nil))).triv = if n'.isSelf ∧ outer.length = 0 then e.atrivSet else none := by
  rw [pair_triv, (ex_triv h).2]
  by_cases h1 : n'.isSelf = true <;> by_cases h2 : outer.length = 0 <;> simp [h1, h2]

/-- There is at least one expression in a body, except in an empty block. -/
theorem body_nil {known : Sel → Bool} {alloc : LitTs → Val} {isBlock : Bool} {outer : List (List Nat)} {b : Body SBlock} {env env' : List Nat} (h : b.ast known alloc isBlock outer env = .ok (.nil, env')) :
    isBlock = true ∧ b = .done := by
  cases b <;> cases isBlock <;> simp only [Body.ast] at h
  all_goals first | exact ⟨rfl, rfl⟩ | (cases h; done) | skip
  all_goals (obtain ⟨x, _, h⟩ := except_bind_ok h; first | (cases h; done) | skip)
  all_goals (obtain ⟨y, _, h⟩ := except_bind_ok h; cases h)

/-- **C35**, the tree of a body is recognised exactly if the body has one of the forms of `Body.atriv`. -/
theorem trivial_body {known : Sel → Bool} {alloc : LitTs → Val} {isBlock : Bool} {outer : List (List Nat)} {b : Body SBlock} {env env' : List Nat} {es : Nodes}
    (hb : isBlock = true ↔ outer.length ≠ 0) (h : b.ast known alloc isBlock outer env = .ok (es, env')) : (seqNode es).triv = b.atriv known alloc isBlock outer.length := by
  cases b with
  | done => cases isBlock <;> (simp only [Body.ast] at h; cases h; rfl)
  | last e =>
    simp only [Body.ast] at h
    obtain ⟨⟨n, env1⟩, h1, h⟩ := except_bind_ok h
    cases isBlock with
    | true => cases h; exact (ex_triv h1).1
    | false =>
      cases h
      have h0 : outer.length = 0 := Classical.byContradiction fun h => nomatch hb.2 h
      refine (pair_of h1).trans ?_
      rw [if_pos ⟨rfl, h0⟩]; rfl
  | exit e =>
    simp only [Body.ast] at h
    obtain ⟨⟨n, env1⟩, h1, h⟩ := except_bind_ok h
    cases isBlock with
    | true => cases h; rfl
    | false => cases h; exact (ex_triv h1).1
  | exitSelf => cases isBlock <;> (simp only [Body.ast] at h; cases h; rfl)
  | stmt e rest =>
    simp only [Body.ast] at h
    obtain ⟨⟨n, env1⟩, h1, h⟩ := except_bind_ok h
    obtain ⟨⟨es1, env2⟩, h2, h⟩ := except_bind_ok h
    cases h
    cases isBlock with
    | true =>
      have h0 : outer.length ≠ 0 := hb.1 rfl
      cases es1 with
      | nil => obtain ⟨_, rfl⟩ := body_nil h2; exact (ex_triv h1).1
      | cons n' es2 =>
        have : rest ≠ .done := by rintro rfl; simp only [Body.ast] at h2; cases h2
        have hr : (Body.stmt e rest).atriv known alloc true outer.length = none := by
          cases rest with
          | done => exact absurd rfl this
          | exit x => cases x with
            | var a i l => cases a <;> cases i <;> cases l <;> rfl
            | _ => rfl
          | _ => rfl
        rw [hr]
        cases es2 with
        | nil => refine (pair_of h1).trans ?_; rw [if_neg fun h => h0 h.2]
        | cons n2 es3 => exact more_triv ..
    | false =>
      have h0 : outer.length = 0 := Classical.byContradiction fun h => nomatch hb.2 h
      cases es1 with
      | nil => exact nomatch (body_nil h2).1
      | cons n' es2 =>
        cases rest with
        | done => simp only [Body.ast] at h2; cases h2; refine (pair_of h1).trans ?_; rw [if_pos ⟨rfl, h0⟩]; rfl
        | exitSelf => simp only [Body.ast] at h2; cases h2; refine (pair_of h1).trans ?_; rw [if_pos ⟨rfl, h0⟩]; rfl
        | last x =>
          simp only [Body.ast] at h2
          obtain ⟨y, _, h2⟩ := except_bind_ok h2
          cases h2
          exact more_triv ..
        | exit x =>
          simp only [Body.ast] at h2
          obtain ⟨⟨y, env3⟩, hx, h2⟩ := except_bind_ok h2
          cases h2
          refine (pair_of h1).trans ?_
          rw [(ex_argOf hx).2]
          cases x with
          | var a i l => cases a <;> cases i <;> cases l <;> first | (rw [if_pos ⟨rfl, h0⟩]; rfl) | (rw [if_neg (fun h => nomatch h.1)]; rfl)
          | _ => rw [if_neg (fun h => nomatch h.1)]; rfl
        | stmt x y =>
          simp only [Body.ast] at h2
          obtain ⟨z, _, h2⟩ := except_bind_ok h2
          obtain ⟨⟨es3, env3⟩, hy, h2⟩ := except_bind_ok h2
          cases h2
          cases es3 with
          | nil => exact nomatch (body_nil hy).1
          | cons n3 es4 => exact more_triv ..

/-- A body that is recognised has no `^` in a block. -/
theorem atriv_throws {known : Sel → Bool} {alloc : LitTs → Val} {b : Body SBlock} {t : ATriv} (h : b.atriv known alloc false 0 = some t) : b.throws false = false := by
  have he : ∀ {e : Ex SBlock} {t}, e.atriv known alloc 0 = some t → e.throws = false := by
    intro e t h
    cases e with
    | asg t ts e =>
      cases t with
      | var => cases h
      | fld s i =>
        cases ts with
        | cons => cases h
        | nil => cases e with
          | var => simp only [Ex.throws]
          | _ => cases h
    | lit => simp only [Ex.throws]
    | glob => simp only [Ex.throws]
    | fld => simp only [Ex.throws]
    | _ => cases h
  have hs : ∀ {e : Ex SBlock} {t}, e.atrivSet = some t → e.throws = false := by
    intro e t h
    cases e with
    | asg t ts e =>
      cases t with
      | var => cases h
      | fld s i =>
        cases ts with
        | cons => cases h
        | nil => cases e with
          | var => simp only [Ex.throws]
          | _ => cases h
    | _ => cases h
  cases b with
  | done => cases h
  | last e => simp only [Body.throws]; exact hs h
  | exit e => simp only [Body.throws, Bool.false_or]; exact he h
  | exitSelf => cases h
  | stmt e rest =>
    cases rest with
    | done => simp only [Body.throws, Bool.or_false]; exact hs h
    | exitSelf => simp only [Body.throws, Bool.or_false]; exact hs h
    | exit x =>
      cases x with
      | var a i l =>
        cases a <;> cases i <;> cases l <;> first | (cases h; done) | (simp only [Body.throws, Ex.throws, Bool.or_false]; exact hs h)
      | _ => cases h
    | _ => cases h

/-- **C35**, what is recognised by the AST compiler: a method is replaced by a trivial one exactly if its body is one of the forms of `Body.atriv`, with the literal, global, field
and argument that occur in the source. -/
theorem C35_recognised_trees {known : Sel → Bool} {alloc : LitTs → Val} {s : SMethod} {m : AMethod} (h : s.ast known alloc = .ok m) (t : ATriv) :
    m = .triv t ↔ s.body.atriv known alloc false 0 = some t := by
  unfold SMethod.ast at h
  obtain ⟨⟨es, env⟩, h1, h⟩ := except_bind_ok h
  have ht := trivial_body (outer := []) (by decide) h1
  dsimp only at h
  split at h
  · rename_i hth
    cases h
    refine ⟨fun h => (nomatch h), fun h => ?_⟩
    rw [atriv_throws h] at hth
    cases hth
  · split at h
    · rename_i t' h2
      cases h
      rw [← show _ = s.body.atriv known alloc false 0 from ht, h2]
      exact ⟨fun h => by cases h; rfl, fun h => by cases h; rfl⟩
    · rename_i h2
      cases h
      rw [← show _ = s.body.atriv known alloc false 0 from ht, h2]
      exact ⟨fun h => (nomatch h), fun h => (nomatch h)⟩

/-- The same for blocks, which are inside of something. -/
theorem C35_recognised_blocks {known : Sel → Bool} {alloc : LitTs → Val} {outer : List (List Nat)} (ho : outer ≠ []) {id : Nat} {args : List Nat} {env : List Nat} {b : Body SBlock} {m : AMeth}
    (h : (SBlock.mk id args env b).ast known alloc outer = .ok m) (t : ATriv) : m = .triv id t ↔ b.atriv known alloc true outer.length = some t := by
  simp only [SBlock.ast] at h
  obtain ⟨⟨es, env'⟩, h1, h⟩ := except_bind_ok h
  have ht := trivial_body (outer := outer) ⟨fun _ => fun h => ho (List.length_eq_zero_iff.1 h), fun _ => rfl⟩ h1
  dsimp only at h
  rw [← ht]
  split at h
  · rename_i t' h2
    cases h
    rw [h2]
    exact ⟨fun h => by cases h; rfl, fun h => by cases h; rfl⟩
  · rename_i h2
    cases h
    rw [h2]
    exact ⟨fun h => (nomatch h), fun h => (nomatch h)⟩

/-! ## What they do -/

/-- The outcome of an action as that of an expression. -/
def Res.ofAct : Res E → Src.Res E
  | .val v => .val v
  | .exc e => .exc e

/-- `_UninitializedGlobalReadNode` (`global_read_node.py:38-45`) in an activation with the receiver `rcvr`: the global, or what the `self` that is `l` contexts out says about it. -/
def ReadsUnknown (K : Core W E) (args : List Val) (U : Sel → Nat → Src.Rel W E) : Prop :=
  ∀ n l rcvr w r w', args.head? = some rcvr → (U n l w r w' ↔ ∃ r0 : Res E, r = r0.ofAct ∧
    match K.global w n with
    | some v => r0 = .val v ∧ w' = w
    | none => K.on (K.selfAt w rcvr l) (fun o => K.unknown o n) w r0 w')

/-- `R` does as a method what `P` does. -/
def SameCall (R : Src.Rel W E) (P : W → Res E → W → Prop) (w : W) : Prop :=
  (∀ v w', R w (.ret v) w' ↔ P w (.val v) w') ∧ ∀ e w', R w (.exc e) w' ↔ P w (.exc e) w'

theorem answers_same {R : Src.Rel W E} {P : W → Res E → W → Prop} {w : W} (err : Err → E) (h : ∀ r w', R w r w' ↔ ∃ r0 : Res E, r = r0.ofAct ∧ P w r0 w') : SameCall (answers false err R) P w := by
  refine ⟨fun v w' => ?_, fun e w' => ?_⟩
  · show R w (.val v) w' ∨ (false = true ∧ _) ↔ _
    rw [h]
    constructor
    · rintro (⟨r0, h1, h2⟩ | ⟨h1, _⟩)
      · cases r0 <;> cases h1; exact h2
      · cases h1
    · exact fun h => .inl ⟨.val v, rfl, h⟩
  · show R w (.exc e) w' ∨ (false = false ∧ e = err .other ∧ ∃ v, R w (.ret v) w') ↔ _
    rw [h]
    constructor
    · rintro (⟨r0, h1, h2⟩ | ⟨_, _, v, h1⟩)
      · cases r0 <;> cases h1; exact h2
      · obtain ⟨r0, h1, _⟩ := (h _ _).1 h1
        cases r0 <;> cases h1
    · exact fun h => .inl ⟨.exc e, rfl, h⟩

theorem act_same {A : World Nat W E} {a : Act Nat} {w : W} {P : W → Res E → W → Prop} (h : ∀ r w', A a w r w' ↔ P w r w') (r : Src.Res E) (w' : W) :
    Src.act A a w r w' ↔ ∃ r0 : Res E, r = r0.ofAct ∧ P w r0 w' := by
  constructor
  · rintro (⟨v, rfl, h1⟩ | ⟨e, rfl, h1⟩)
    · exact ⟨.val v, rfl, (h _ _).1 h1⟩
    · exact ⟨.exc e, rfl, (h _ _).1 h1⟩
  · rintro ⟨r0, rfl, h1⟩
    cases r0 with
    | val v => exact .inl ⟨v, rfl, (h _ _).2 h1⟩
    | exc e => exact .inr ⟨e, rfl, (h _ _).2 h1⟩

/-- Reading an argument changes nothing. -/
theorem arg_bind {K : Core W E} {args : List Val} {A : World Nat W E} (hA : Activation K args A) {j : Nat} {v : Val} (hv : args[j]? = some v) (k : Val → Src.Rel W E) (w : W) (r : Src.Res E) (w' : W) :
    Src.bind (Src.act A (.rdVar true j 0)) k w r w' ↔ k v w r w' := by
  constructor
  · rintro (⟨x, w1, ⟨y, h1, h2⟩ | ⟨e, h1, _⟩, h3⟩ | ⟨⟨y, h1, _⟩ | ⟨e, h1, h2⟩, hs⟩)
    · cases h1
      obtain ⟨h4, rfl⟩ := (hA.arg _ _ _ _ _ hv).1 h2
      cases h4
      exact h3
    · cases h1
    · rw [h1] at hs; exact hs.elim
    · exact nomatch ((hA.arg _ _ _ _ _ hv).1 h2).1
  · exact fun h => .inl ⟨v, w, .inl ⟨v, rfl, (hA.arg _ _ _ _ _ hv).2 ⟨rfl, rfl⟩⟩, h⟩

/-- The argument that is stored. -/
theorem fldWrite_invoke (K : Core W E) {args : List Val} {rcvr v : Val} {j : Nat} (i : Nat) (hr : args.head? = some rcvr) (hl : args.length ≤ 3) (hj : j ≠ 0) (hv : args[j]? = some v) :
    (ATriv.fldWrite i j).invoke K args = K.setAndAnswer rcvr i v := by
  unfold ATriv.invoke
  rw [if_neg (by omega)]
  match args, hr, hl, hv with
  | [x], hr, _, hv => obtain ⟨j, rfl⟩ := Nat.exists_eq_succ_of_ne_zero hj; cases hv
  | [x, a], hr, _, hv =>
    match j, hj with
    | 1, _ => cases hr; cases hv; rfl
    | j + 2, _ => cases hv
  | [x, a, b], hr, _, hv =>
    match j, hj with
    | 1, _ => cases hr; cases hv; rfl
    | 2, _ => cases hr; cases hv; rfl
    | j + 3, _ => cases hv
  | _ :: _ :: _ :: _ :: _, _, hl, _ => simp only [List.length_cons] at hl; omega

theorem setter_same {K : Core W E} {args : List Val} {A : World Nat W E} {U : Sel → Nat → Src.Rel W E} {err : Err → E} (hA : Activation K args A) {rcvr v : Val} {i j : Nat} (hr : args.head? = some rcvr)
    (hl : args.length ≤ 3) (hj : j ≠ 0) (hv : args[j]? = some v) (w : W) :
    SameCall (answers false err ((Node.seq (.cons (.fldW i 0 (.readArg j 0)) (.cons (.self 0) .nil))).exec A U err)) ((ATriv.fldWrite i j).invoke K args) w := by
  rw [fldWrite_invoke K i hr hl hj hv]
  refine answers_same err fun r w' => ?_
  have h0 : args[0]? = some rcvr := by rw [← List.head?_eq_getElem?]; exact hr
  have hw : ∀ r w', A (.wrFld i 0 v) w r w' ↔ K.setFld rcvr i v w r w' := fun r w' => hA.wrFld i 0 rcvr v w r w' hr
  simp only [Node.exec, Nodes.execSeq, Src.bind_assoc, Src.pure_bind]
  rw [arg_bind hA hv]
  constructor
  · rintro (⟨u, w1, ⟨x, h1, h2⟩ | ⟨e, h1, _⟩, ⟨y, rfl, h3⟩ | ⟨e, rfl, h3⟩⟩ | ⟨⟨x, rfl, h2⟩ | ⟨e, rfl, h2⟩, hs⟩)
    · obtain ⟨h4, rfl⟩ := (hA.arg _ _ _ _ _ h0).1 h3
      cases h4
      exact ⟨.val rcvr, rfl, .inl ⟨x, (hw _ _).1 h2, rfl⟩⟩
    · exact nomatch ((hA.arg _ _ _ _ _ h0).1 h3).1
    · cases h1
    · cases h1
    · exact hs.elim
    · exact ⟨.exc e, rfl, .inr ⟨e, (hw _ _).1 h2, rfl⟩⟩
  · rintro ⟨r0, rfl, ⟨u, h1, rfl⟩ | ⟨e, h1, rfl⟩⟩
    · exact .inl ⟨u, w', .inl ⟨u, rfl, (hw _ _).2 h1⟩, .inl ⟨rcvr, rfl, (hA.arg _ _ _ _ _ h0).2 ⟨rfl, rfl⟩⟩⟩
    · exact .inr ⟨.inr ⟨e, rfl, (hw _ _).2 h1⟩, trivial⟩

/-- All but setters. -/
theorem value_same {known : Sel → Bool} {alloc : LitTs → Val} {outer : List (List Nat)} {e : Ex SBlock} {env env' : List Nat} {n : Node} {t : ATriv} {K : Core W E} {args : List Val} {A : World Nat W E}
    {U : Sel → Nat → Src.Rel W E} {err : Err → E} (h : e.ast known alloc outer env = .ok (n, env')) (ht : e.atriv known alloc outer.length = some t) (hs : e.atrivSet = none) (hA : Activation K args A)
    (hU : ReadsUnknown K args U) {rcvr : Val} (hr : args.head? = some rcvr) (hl : args.length ≤ 3) (w : W) (hk : ∀ n, known n = true → K.global w n ≠ none) :
    SameCall (answers false err (n.exec A U err)) (t.invoke K args) w := by
  obtain ⟨as, rfl⟩ : ∃ as, args = rcvr :: as := by
    cases args with
    | nil => cases hr
    | cons x xs => cases hr; exact ⟨xs, rfl⟩
  have lit : ∀ v, SameCall (answers false err ((Node.lit v).exec A U err)) ((ATriv.lit v).invoke K (rcvr :: as)) w := by
    intro v
    refine answers_same err fun r w' => ?_
    unfold ATriv.invoke
    rw [if_neg (by omega)]
    show (r = .val v ∧ w' = w) ↔ ∃ r0 : Res E, r = r0.ofAct ∧ r0 = .val v ∧ w' = w
    exact ⟨fun ⟨h1, h2⟩ => ⟨.val v, h1, rfl, h2⟩, fun ⟨r0, h1, h2, h3⟩ => ⟨by rw [h1, h2]; rfl, h3⟩⟩
  cases e with
  | lit l =>
    cases l <;> (simp only [Ex.ast] at h; cases h; cases ht; exact lit _)
  | glob m =>
    simp only [Ex.ast] at h
    cases h
    simp only [Ex.atriv, Option.some.injEq] at ht
    unfold globNode
    subst ht
    split
    · exact lit _
    · split
      · exact lit _
      · split
        · exact lit _
        · split
          · rename_i hm
            refine answers_same err fun r w' => ?_
            unfold ATriv.invoke
            rw [if_neg (by omega)]
            refine act_same (fun r w' => (hA.glob m rcvr w r w' rfl).trans ?_) r w'
            dsimp only
            cases hg : K.global w m with
            | none => exact absurd hg (hk m hm)
            | some v => exact Iff.rfl
          · refine answers_same err fun r w' => ?_
            unfold ATriv.invoke
            rw [if_neg (by omega)]
            exact hU m outer.length rcvr w r w' rfl
  | fld s i =>
    simp only [Ex.ast] at h
    cases h
    cases ht
    refine answers_same err fun r w' => ?_
    unfold ATriv.invoke
    rw [if_neg (by omega)]
    refine act_same (fun r w' => (hA.rdFld i outer.length rcvr w r w' rfl).trans ?_) r w'
    rw [← C35_outer_self]
    exact Iff.rfl
  | asg t ts e =>
    cases t with
    | var => cases ht
    | fld s i =>
      cases ts with
      | cons => cases ht
      | nil => cases e with
        | var a j l =>
          cases a with
          | false => cases ht
          | true =>
            simp only [Ex.atriv, Ex.atrivSet] at ht hs
            split at ht
            · rename_i hj; rw [if_pos hj.2] at hs; cases hs
            · cases ht
        | _ => cases ht
  | _ => cases ht

/-- **C35** for the AST interpreter (partial): calling a trivial method does what executing the tree of the method would do (`AMethod.ast env false`).  Missing: `^ f := x`, which is made a setter and answers
the receiver (`C34_violated_setter`), and methods with three or more arguments, which cannot be called (`C35_violated_trees`).  A global that was known when the method was compiled still has a value. -/
theorem C35_trees_partial {known : Sel → Bool} {alloc : LitTs → Val} {s : SMethod} {t : ATriv} {es : Nodes} {env : List Nat} (h : s.ast known alloc = .ok (.triv t))
    (hes : s.body.ast known alloc false [] s.env = .ok (es, env)) (hx : ∀ e, s.body = .exit e → e.atrivSet = none) {K : Core W E} {args : List Val} {A : World Nat W E} {U : Sel → Nat → Src.Rel W E}
    {err : Err → E} (hA : Activation K args A) (hU : ReadsUnknown K args U) (hne : args ≠ []) (hl : args.length ≤ 3) (ha : s.body.argsOK args.length) (w : W) (hk : ∀ n, known n = true → K.global w n ≠ none) :
    (∀ v w', (AMethod.ast env false (seqNode es)).run A U err w (.ret v) w' ↔ t.invoke K args w (.val v) w') ∧
    (∀ e w', (AMethod.ast env false (seqNode es)).run A U err w (.exc e) w' ↔ t.invoke K args w (.exc e) w') := by
  show SameCall (answers false err ((seqNode es).exec A U err)) (t.invoke K args) w
  have ht := (C35_recognised_trees h t).1 rfl
  obtain ⟨rcvr, hr⟩ : ∃ rcvr, args.head? = some rcvr := by
    cases args with
    | nil => exact absurd rfl hne
    | cons x xs => exact ⟨x, rfl⟩
  have set : ∀ {e : Ex SBlock} {n : Node} {env env' : List Nat}, e.atrivSet = some t → e.ast known alloc [] env = .ok (n, env') → (∀ x y j l, e = .asg x y (.var true j l) → l = 0 ∧ j < args.length) →
      SameCall (answers false err ((Node.seq (.cons n (.cons (.self 0) .nil))).exec A U err)) (t.invoke K args) w := by
    intro e n env env' h1 h2 h3
    cases e with
    | asg t ts e =>
      cases t with
      | var => cases h1
      | fld s i =>
        cases ts with
        | cons => cases h1
        | nil => cases e with
          | var a j l =>
            cases a with
            | false => cases h1
            | true =>
              simp only [Ex.atrivSet] at h1
              split at h1
              · rename_i hj
                cases h1
                obtain ⟨rfl, hj'⟩ := h3 _ _ _ _ rfl
                simp only [Ex.ast, if_neg hj] at h2
                cases h2
                exact setter_same hA hr hl hj (List.getElem?_eq_getElem hj') w
              · cases h1
          | _ => cases h1
    | _ => cases h1
  cases hbody : s.body with
  | done => rw [hbody] at ht; cases ht
  | exitSelf => rw [hbody] at ht; cases ht
  | last e =>
    rw [hbody] at ht hes ha
    simp only [Body.ast] at hes
    obtain ⟨⟨n, env1⟩, h1, h2⟩ := except_bind_ok hes
    cases h2
    exact set ht h1 (by rintro x y j l rfl; exact ha)
  | exit e =>
    rw [hbody] at ht hes
    simp only [Body.ast] at hes
    obtain ⟨⟨n, env1⟩, h1, h2⟩ := except_bind_ok hes
    cases h2
    exact value_same h1 ht (hx e hbody) hA hU hr hl w hk
  | stmt e rest =>
    rw [hbody] at ht hes ha
    simp only [Body.ast] at hes
    obtain ⟨⟨n, env1⟩, h1, hes1⟩ := except_bind_ok hes
    obtain ⟨⟨es1, env2⟩, h2, hes2⟩ := except_bind_ok hes1
    cases hes2
    have h3 : ∀ x y j l, e = .asg x y (.var true j l) → l = 0 ∧ j < args.length := by rintro x y j l rfl; exact ha
    cases rest with
    | done => simp only [Body.ast] at h2; cases h2; exact set ht h1 h3
    | exitSelf => simp only [Body.ast] at h2; cases h2; exact set ht h1 h3
    | exit x =>
      cases x with
      | var a i l =>
        cases a with
        | false => cases ht
        | true => match i, l, ht, h2 with
          | 0, 0, ht, h2 =>
            simp only [Body.ast, Ex.ast] at h2
            cases h2
            exact set ht h1 h3
      | _ => cases ht
    | _ => cases ht

/-- **C35** for blocks of the AST interpreter (partial): the same. -/
theorem C35_blocks_partial {known : Sel → Bool} {alloc : LitTs → Val} {outer : List (List Nat)} (ho : outer ≠ []) {id : Nat} {bargs env env' : List Nat} {b : Body SBlock} {t : ATriv} {es : Nodes}
    (h : (SBlock.mk id bargs env b).ast known alloc outer = .ok (.triv id t)) (hes : b.ast known alloc true outer env = .ok (es, env')) {K : Core W E} {args : List Val} {A : World Nat W E}
    {U : Sel → Nat → Src.Rel W E} {err : Err → E} (hA : Activation K args A) (hU : ReadsUnknown K args U) (hne : args ≠ []) (hl : args.length ≤ 3) (w : W) (hk : ∀ n, known n = true → K.global w n ≠ none) :
    (∀ v w', (AMeth.ast id bargs env' (seqNode es)).run A U err w (.ret v) w' ↔ t.invoke K args w (.val v) w') ∧
    (∀ e w', (AMeth.ast id bargs env' (seqNode es)).run A U err w (.exc e) w' ↔ t.invoke K args w (.exc e) w') := by
  show SameCall (answers false err ((seqNode es).exec A U err)) (t.invoke K args) w
  have ht := (C35_recognised_blocks ho h t).1 rfl
  have hlen : outer.length ≠ 0 := fun h => ho (List.length_eq_zero_iff.1 h)
  obtain ⟨rcvr, hr⟩ : ∃ rcvr, args.head? = some rcvr := by
    cases args with
    | nil => exact absurd rfl hne
    | cons x xs => exact ⟨x, rfl⟩
  have val : ∀ {e : Ex SBlock} {n : Node} {env env' : List Nat}, e.ast known alloc outer env = .ok (n, env') → e.atriv known alloc outer.length = some t →
      SameCall (answers false err (n.exec A U err)) (t.invoke K args) w := by
    intro e n env env' h1 h2
    refine value_same h1 h2 ?_ hA hU hr hl w hk
    cases e with
    | asg t ts e =>
      cases t with
      | var => cases h2
      | fld s i =>
        cases ts with
        | cons => cases h2
        | nil => cases e with
          | var a j l =>
            cases a with
            | false => cases h2
            | true =>
              simp only [Ex.atriv] at h2
              rw [if_neg fun h => hlen h.1] at h2
              cases h2
          | _ => cases h2
    | _ => rfl
  cases b with
  | done =>
    simp only [Body.ast, if_true] at hes
    cases hes
    exact value_same (known := known) (alloc := alloc) (outer := outer) (e := .lit (.val .nil)) (env := env) (env' := env) (n := .lit .nil) (by simp only [Ex.ast]) ht rfl hA hU hr hl w hk
  | exitSelf => cases ht
  | exit e => cases ht
  | last e =>
    simp only [Body.ast] at hes
    obtain ⟨⟨n, env1⟩, h1, h2⟩ := except_bind_ok hes
    cases h2
    exact val h1 ht
  | stmt e rest =>
    simp only [Body.ast] at hes
    obtain ⟨⟨n, env1⟩, h1, hes1⟩ := except_bind_ok hes
    obtain ⟨⟨es1, env2⟩, h2, hes2⟩ := except_bind_ok hes1
    cases hes2
    cases rest with
    | done => simp only [Body.ast, if_true] at h2; cases h2; exact val h1 ht
    | exit x => cases x with
      | var a i l => cases a <;> cases i <;> cases l <;> cases ht
      | _ => cases ht
    | _ => cases ht

/-- **C35**, violated in the AST interpreter: `a: x b: y c: z = ( ^ 3 )` is made a trivial method, and calling it fails, where executing its tree answers 3. -/
theorem C35_violated_trees (K : Core W E) (A : World Nat W E) (U : Sel → Nat → Src.Rel W E) (err : Err → E) (r a b c : Val) (w : W) :
    ∃ s : SMethod, s.ast (fun _ => false) (fun _ => .nil) = .ok (.triv (.lit (.int 3))) ∧ (AMethod.ast [] false (.lit (.int 3))).run A U err w (.ret (.int 3)) w ∧
      ∀ r0 w', (ATriv.lit (.int 3)).invoke K [r, a, b, c] w r0 w' → r0 = .exc K.bad :=
  ⟨⟨[some 1, some 2, some 3, some 4], [], .exit (.lit (.val (.int 3)))⟩, rfl, .inl ⟨rfl, rfl⟩, fun _ _ h => h.1⟩

/-- `ATriv.run`, the way in which trivial methods are run in the theorems about whole programs (C34, C64, C66, C69), is what the entry points do. -/
theorem C35_trees_run {t : ATriv} {K : Core W E} {args : List Val} {A : World Nat W E} {U : Sel → Nat → Src.Rel W E} (hA : Activation K args A) (hU : ReadsUnknown K args U) (hne : args ≠ [])
    (hl : args.length ≤ 3) (hj : ∀ i j, t = .fldWrite i j → j ≠ 0 ∧ j < args.length) (w : W) (hk : ∀ n, t = .globK n → K.global w n ≠ none) :
    (∀ v w', t.run A U w (.ret v) w' ↔ t.invoke K args w (.val v) w') ∧ (∀ e w', t.run A U w (.exc e) w' ↔ t.invoke K args w (.exc e) w') := by
  obtain ⟨rcvr, as, rfl⟩ : ∃ rcvr as, args = rcvr :: as := by
    cases args with
    | nil => exact absurd rfl hne
    | cons x xs => exact ⟨x, xs, rfl⟩
  cases t with
  | lit v =>
    unfold ATriv.invoke
    rw [if_neg (by omega)]
    refine ⟨fun x w' => ?_, fun e w' => ?_⟩
    · show (Src.Res.ret x = .ret v ∧ w' = w) ↔ (Res.val x = .val v ∧ w' = w)
      simp only [Src.Res.ret.injEq, Res.val.injEq]
    · show (Src.Res.exc e = .ret v ∧ w' = w) ↔ (Res.exc e = .val v ∧ w' = w)
      exact ⟨fun h => (nomatch h.1), fun h => (nomatch h.1)⟩
  | globK n =>
    unfold ATriv.invoke
    rw [if_neg (by omega)]
    have hg : ∀ r w', A (.glob n) w r w' ↔ match K.global w n with
      | some v => r = .val v ∧ w' = w
      | none => K.fails w r w' := by
      intro r w'
      refine (hA.glob n rcvr w r w' rfl).trans ?_
      cases hg : K.global w n with
      | none => exact absurd hg (hk n rfl)
      | some v => exact Iff.rfl
    exact ⟨fun v w' => (act_answer.1 v w').trans (hg _ _), fun e w' => (act_answer.2 e w').trans (hg _ _)⟩
  | globU n l =>
    unfold ATriv.invoke
    rw [if_neg (by omega)]
    have hu := fun r w' => hU n l rcvr w r w' rfl
    refine ⟨fun v w' => ⟨?_, fun h => .inl ⟨v, w', (hu _ _).2 ⟨.val v, rfl, h⟩, rfl, rfl⟩⟩, fun e w' => ⟨?_, fun h => .inr ⟨(hu _ _).2 ⟨.exc e, rfl, h⟩, trivial⟩⟩⟩
    · rintro (⟨x, w1, h1, h2, rfl⟩ | ⟨h1, _⟩)
      · cases h2
        obtain ⟨r0, h3, h4⟩ := (hu _ _).1 h1
        cases r0 <;> cases h3
        exact h4
      · obtain ⟨r0, h3, _⟩ := (hu _ _).1 h1
        cases r0 <;> cases h3
    · rintro (⟨x, w1, h1, h2, rfl⟩ | ⟨h1, _⟩)
      · cases h2
      · obtain ⟨r0, h3, h4⟩ := (hu _ _).1 h1
        cases r0 <;> cases h3
        exact h4
  | fldRead i l =>
    unfold ATriv.invoke
    rw [if_neg (by omega)]
    have hg : ∀ r w', A (.rdFld i l) w r w' ↔ K.on (K.selfAt w rcvr l) (fun o => K.getFld o i) w r w' := by
      intro r w'
      rw [C35_outer_self]
      exact hA.rdFld i l rcvr w r w' rfl
    exact ⟨fun v w' => (act_answer.1 v w').trans (hg _ _), fun e w' => (act_answer.2 e w').trans (hg _ _)⟩
  | fldWrite i j =>
    obtain ⟨hj0, hj1⟩ := hj i j rfl
    rw [fldWrite_invoke K i rfl hl hj0 (List.getElem?_eq_getElem hj1)]
    exact set_answer hA rfl (List.getElem?_eq_getElem hj1) (fun _ => Src.bind (Src.act A .self) Src.answer) (fun _ => rfl)

/-- The hypotheses are met: `setX: x y: y = ( f := y )` is a setter; so are those of the other theorems, for every system of objects. -/
example (K : Core W E) (rcvr a b : Val) : let s : SMethod := ⟨[some 1, some 2, some 3], [], .last (.asg (.fld "f".toList 0) [] (.var true 2 0))⟩
    s.ast (fun _ => false) (fun _ => .nil) = .ok (.triv (.fldWrite 0 2)) ∧ (∀ e, s.body = .exit e → e.atrivSet = none) ∧ s.body.argsOK 3 ∧
    Activation (M := Nat) K [rcvr, a, b] (activationOf K [rcvr, a, b]) ∧ ∃ U, ReadsUnknown K [rcvr, a, b] U :=
  ⟨rfl, fun _ h => (nomatch h), ⟨rfl, by decide⟩, activation K _, fun n l w r w' => ∃ r0 : Res E, r = r0.ofAct ∧
    match K.global w n with
    | some v => r0 = .val v ∧ w' = w
    | none => K.on (K.selfAt w rcvr l) (fun o => K.unknown o n) w r0 w', fun _ _ _ _ _ _ h => by cases h; exact Iff.rfl⟩

/-- `[ f ]` in a method is a trivial block, one context away from `self`. -/
example : (SBlock.mk 1 [9] [] (.last (.fld "f".toList 0))).ast (fun _ => false) (fun _ => .nil) [[]] = .ok (.triv 1 (.fldRead 0 1)) := rfl

end
end PySOM.BC

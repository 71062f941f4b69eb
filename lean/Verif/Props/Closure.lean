import Verif.Lemmas.ClosureStep
/-!
# C61: inlining blocks cannot be observed
-/
set_option autoImplicit false
namespace PySOM.Clo

mutual
theorem Ex.fine_of_bare (e : Ex) : ∀ (lp : Bool) (sc D : List Var), e.scoped sc → e.bare lp → e.fine lp sc [] D := by
  intro lp sc D hs hb
  cases e with
  | atom _ => trivial
  | self => trivial
  | var x => exact .inl hs
  | asg x e => exact ⟨e.fine_of_bare lp sc D hs.1 hb, .inl hs.2⟩
  | fld _ => trivial
  | fldW _ e => exact e.fine_of_bare lp sc D hs hb
  | blk as ls b => exact ⟨b.fine_of_bare false _ [] hs.1 hb, hs.2⟩
  | new _ => trivial
  | send _ _ r as => exact ⟨r.fine_of_bare lp sc D hs.1 hb.1, as.fine_of_bare lp sc _ hs.2 hb.2⟩
  | inl1 _ r ls b =>
    refine ⟨r.fine_of_bare lp sc D hs.1 hb.1, ?_⟩
    have h2 := hb.2.1
    cases lp with
    | false => exact b.fine_of_bare false _ _ hs.2 hb.2.2
    | true =>
      cases h2 rfl
      exact ⟨b.fine_of_bare true sc _ hs.2 hb.2.2, fun x h => nomatch h⟩
  | inl2 _ r ls1 b1 ls2 b2 =>
    refine ⟨r.fine_of_bare lp sc D hs.1 hb.1, ?_⟩
    have h2 := hb.2.1
    cases lp with
    | false => exact ⟨b1.fine_of_bare false _ _ hs.2.1 hb.2.2.1, b2.fine_of_bare false _ _ hs.2.2 hb.2.2.2⟩
    | true =>
      cases (h2 rfl).1
      cases (h2 rfl).2
      exact ⟨⟨b1.fine_of_bare true sc _ hs.2.1 hb.2.2.1, fun x h => nomatch h⟩, ⟨b2.fine_of_bare true sc _ hs.2.2 hb.2.2.2, fun x h => nomatch h⟩⟩
  | «while» _ lc c lb b =>
    cases hb.1.1
    cases hb.1.2
    exact ⟨⟨c.fine_of_bare true sc D hs.1 hb.2.1, fun x h => nomatch h⟩, ⟨b.fine_of_bare true sc D hs.2 hb.2.2, fun x h => nomatch h⟩⟩
  | seq e1 e2 => exact ⟨e1.fine_of_bare lp sc D hs.1 hb.1, e2.fine_of_bare lp sc _ hs.2 hb.2⟩
  | ret e => exact e.fine_of_bare lp sc D hs hb
theorem Exs.fine_of_bare (es : Exs) : ∀ (lp : Bool) (sc D : List Var), es.scoped sc → es.bare lp → es.fine lp sc [] D := by
  intro lp sc D hs hb
  cases es with
  | nil => trivial
  | cons e es => exact ⟨e.fine_of_bare lp sc D hs.1 hb.1, es.fine_of_bare lp sc _ hs.2 hb.2⟩
end

theorem plain_rel {f : Map} {v : Value} (h : v.plain) : VRel f v v := by
  cases v with
  | atom a => exact .atom a
  | obj a => exact .obj a
  | clo => exact h.elim

theorem plain_all {f : Map} (vs : List Value) (h : ∀ v ∈ vs, v.plain) : All2 (VRel f) vs vs := by
  induction vs with
  | nil => exact .nil
  | cons v vs ih => exact .cons (plain_rel (h v (List.mem_cons_self ..))) (ih fun w hw => h w (List.mem_cons_of_mem _ hw))

/-- C61.  Full statement: in every program, evaluating with the blocks of conditionals and loops inlined gives the same
outcome, the same objects and the same calls of primitives as evaluating every block as a block.

Proved for programs whose variables that are declared in blocks inlined into a loop are assigned before they are read and are
not used by blocks that are not inlined; the full statement is false (`C61_violated_fresh`, `C61_violated_shared`).  Either
both do not end within `n` levels of evaluation or both end with the same outcome. -/
theorem C61_inlining_partial (P : Prog) (hP : ∀ c sel m, P.meth c sel = some m → m.fine) (m : Meth) (hm : m.fine)
    (self : Value) (vs : List Value) (st : State) (hself : self.plain) (hvs : ∀ v ∈ vs, v.plain)
    (hst : ∀ o ∈ st.objs, ∀ v ∈ o.2, v.plain) (n : Nat) :
    seen (run P false n m self vs st) = seen (run P true n m self vs st) := by
  have hrel : StRel (fun _ => none) st st := by
    refine ⟨fun _ _ h => (nomatch h), fun _ _ _ h => (nomatch h), ?_, rfl, rfl⟩
    generalize st.objs = os at hst
    induction os with
    | nil => exact .nil
    | cons o os ih => exact .cons ⟨rfl, plain_all o.2 (hst o (List.mem_cons_self ..))⟩ (ih fun p hp => hst p (List.mem_cons_of_mem _ hp))
  exact seen_sim (invoke_sim (eval_sim P hP n) hrel [] hm (plain_rel hself) (plain_all vs hvs))

/-- Inlining cannot be observed in programs whose loops declare no variables. -/
theorem C61_no_loop_variables (P : Prog) (hP : ∀ c sel m, P.meth c sel = some m → m.scoped ∧ m.bare) (m : Meth) (hm : m.scoped ∧ m.bare)
    (self : Value) (vs : List Value) (st : State) (hself : self.plain) (hvs : ∀ v ∈ vs, v.plain)
    (hst : ∀ o ∈ st.objs, ∀ v ∈ o.2, v.plain) (n : Nat) :
    seen (run P false n m self vs st) = seen (run P true n m self vs st) :=
  C61_inlining_partial P (fun c sel m' h => (Ex.blk m'.args m'.locals m'.body).fine_of_bare false [] [] (hP c sel m' h).1 (hP c sel m' h).2) m
    ((Ex.blk m.args m.locals m.body).fine_of_bare false [] [] hm.1 hm.2) self vs st hself hvs hst n

/-! ## Examples -/

/-- The answer of a run, if it is an atom. -/
def answer (r : Res) : Option Atom :=
  match r.1 with
  | .val (.atom a) => some a
  | _ => none

namespace Ex1

def plus : Sel := ['+']
def less : Sel := ['<']
def isNil : Sel := ['i', 's', 'N', 'i', 'l']
def value : Sel := ['v', 'a', 'l', 'u', 'e']
def value1 : Sel := ['v', 'a', 'l', 'u', 'e', ':']

def prim (sel : Sel) (a : Atom) (as : List Atom) : Option Atom :=
  match a, as with
  | .int i, [.int j] => if sel = plus then some (.int (i + j)) else if sel = less then some (if i < j then .tru else .fls) else none
  | a, [] => if sel = isNil then some (if a = .nil then .tru else .fls) else none
  | _, _ => none

def int (i : Int) : Ex := .atom (.int i)
def send1 (r : Ex) (sel : Sel) (a : Ex) : Ex := .send none sel r (.cons a .nil)
def send0 (r : Ex) (sel : Sel) : Ex := .send none sel r .nil

def prog : Prog := ⟨fun _ _ => none, fun _ => 0, prim, fun _ => 0, 1⟩
def start : State := ⟨[], [], [], 0⟩

/-- `sumTo: n = ( | i acc add | i := 0. acc := 0. add := [:k | (k < 100) ifTrue: [ | t | t := acc + k. acc := t ] ].
[i < n] whileTrue: [ | next | next := i + 1. add value: next. i := next ].
(acc < 100) ifTrue: [ | r | r := [acc]. ^ r value ]. ^ 0 )` -/
def sumTo : Meth where
  args := [9]
  locals := [0, 1, 2]
  body :=
    .seq (.asg 0 (int 0)) <| .seq (.asg 1 (int 0)) <|
    .seq (.asg 2 (.blk [3] [] (.inl1 (.ifBool true) (send1 (.var 3) less (int 100)) [4]
      (.seq (.asg 4 (send1 (.var 1) plus (.var 3))) (.asg 1 (.var 4)))))) <|
    .seq (.while true [] (send1 (.var 0) less (.var 9)) [6]
      (.seq (.asg 6 (send1 (.var 0) plus (int 1))) (.seq (send1 (.var 2) value1 (.var 6)) (.asg 0 (.var 6))))) <|
    .seq (.inl1 (.ifBool true) (send1 (.var 1) less (int 100)) [7] (.seq (.asg 7 (.blk [] [] (.var 1))) (.ret (send0 (.var 7) value)))) <|
    .ret (int 0)

theorem sumTo_fine : sumTo.fine := by
  simp [sumTo, Meth.fine, Ex.fine, Exs.fine, blockFine, Ex.after, Exs.after, Ex.hoist, Exs.hoist, send1, send0, int]

/-- The method answers 1 + 2 + 3, with blocks and inlined. -/
example : answer (run prog true 30 sumTo .nil [.atom (.int 3)] start) = some (.int 6) := by decide +kernel

example : seen (run prog false 30 sumTo .nil [.atom (.int 3)] start) = seen (run prog true 30 sumTo .nil [.atom (.int 3)] start) :=
  C61_inlining_partial prog (fun _ _ _ h => nomatch h) sumTo sumTo_fine .nil _ start trivial (by simp [Value.plain]) (by simp [start]) 30

/-- `countTo: n = ( | i | i := 0. [i < n] whileTrue: [ i := i + 1 ]. (i < 5) ifTrue: [ | b | b := [i]. ^ b value ] ifFalse: [ ^ nil ] )` -/
def countTo : Meth where
  args := [9]
  locals := [0]
  body :=
    .seq (.asg 0 (int 0)) <|
    .seq (.while true [] (send1 (.var 0) less (.var 9)) [] (.asg 0 (send1 (.var 0) plus (int 1)))) <|
    .inl2 (.ifElse true) (send1 (.var 0) less (int 5)) [1] (.seq (.asg 1 (.blk [] [] (.var 0))) (.ret (send0 (.var 1) value))) [] (.ret (.atom .nil))

theorem countTo_ok : countTo.scoped ∧ countTo.bare := by
  simp [countTo, Meth.scoped, Meth.bare, Ex.scoped, Exs.scoped, Ex.bare, Exs.bare, Ex.hoist, Exs.hoist, send1, send0, int]

example : answer (run prog false 30 countTo .nil [.atom (.int 3)] start) = some (.int 3) := by decide +kernel

example (n : Nat) (k : Int) : seen (run prog false n countTo .nil [.atom (.int k)] start) = seen (run prog true n countTo .nil [.atom (.int k)] start) :=
  C61_no_loop_variables prog (fun _ _ _ h => nomatch h) countTo countTo_ok .nil _ start trivial (by simp [Value.plain]) (by simp [start]) n

/-- `( | i r | i := 0. r := 0. [i < 2] whileTrue: [ | t | t isNil ifTrue: [ r := r + 1 ]. t := 1. i := i + 1 ]. ^ r )` -/
def fresh : Meth where
  args := []
  locals := [0, 1]
  body :=
    .seq (.asg 0 (int 0)) <| .seq (.asg 1 (int 0)) <|
    .seq (.while true [] (send1 (.var 0) less (int 2)) [2]
      (.seq (.inl1 (.ifBool true) (send0 (.var 2) isNil) [] (.asg 1 (send1 (.var 1) plus (int 1))))
        (.seq (.asg 2 (int 1)) (.asg 0 (send1 (.var 0) plus (int 1)))))) <|
    .ret (.var 1)

/-- `( | i b | i := 0. [i < 2] whileTrue: [ | t | t := i. b isNil ifTrue: [ b := [t] ]. i := i + 1 ]. ^ b value )`, where
`b isNil` is `b ifNil:`. -/
def shared : Meth where
  args := []
  locals := [0, 1]
  body :=
    .seq (.asg 0 (int 0)) <|
    .seq (.while true [] (send1 (.var 0) less (int 2)) [2]
      (.seq (.asg 2 (.var 0))
        (.seq (.inl1 .ifNil (.var 1) [] (.asg 1 (.blk [] [] (.var 2)))) (.asg 0 (send1 (.var 0) plus (int 1)))))) <|
    .ret (send0 (.var 1) value)

end Ex1

/-- A variable of the body of a loop is nil at the start of each iteration if the body is a block, but keeps its value from the
iteration before if it is inlined: the method `fresh` counts 2 iterations with nil, or 1. -/
theorem C61_violated_fresh :
    answer (run Ex1.prog false 30 Ex1.fresh .nil [] Ex1.start) = some (.int 2) ∧
    answer (run Ex1.prog true 30 Ex1.fresh .nil [] Ex1.start) = some (.int 1) := by
  decide +kernel

/-- A block made in an iteration of a loop keeps the variables of that iteration if the body is a block, but shares them with
the later iterations if it is inlined. -/
theorem C61_violated_shared :
    answer (run Ex1.prog false 30 Ex1.shared .nil [] Ex1.start) = some (.int 0) ∧
    answer (run Ex1.prog true 30 Ex1.shared .nil [] Ex1.start) = some (.int 1) := by
  decide +kernel

end PySOM.Clo

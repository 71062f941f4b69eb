import Verif.Model.Site
import Verif.Props.Numeric
/-!
# C50: call sites that specialise themselves

The node of a call site is replaced after its first execution.  Theorems about every history of executions of one call site, also overlapping ones (recursion): which
node executes, and that it does what sending the message does as long as receiver and arguments are of the kinds it was made for.
-/
set_option autoImplicit false
namespace PySOM.Site
open PySOM PySOM.BC PySOM.Cond

section
variable {W E : Type}

namespace Spec

/-- The kinds of objects, without what they contain. -/
inductive Tag where
  | int | dbl | block | bool | other
  deriving DecidableEq, Repr

/-- The kind of a value. -/
def tag (S : Sys W E) (v : Val) : Tag :=
  if v = .tru ∨ v = .fls then .bool else
  match S.kind v with
  | .int _ => .int
  | .dbl _ _ => .dbl
  | .block => .block
  | .other => .other

/-- Two executions look alike: receiver and arguments are of the same kinds. -/
def Alike (S : Sys W E) (r r' : Val) (as as' : List Val) : Prop := tag S r = tag S r' ∧ as.map (tag S) = as'.map (tag S)

/-- `lo`, `lo + step`, …: `m` numbers. -/
def numbers (lo step : Int) : Nat → List Int
  | 0 => []
  | m + 1 => lo :: numbers (lo + step) step m

/-- The block is evaluated with the numbers in order. -/
def evalEach (S : Sys W E) (block : Val) : List Int → Src.Rel W E
  | [] => Src.pure .nil
  | i :: is => Src.bind (S.invoke block [.int i]) fun _ => evalEach S block is

/-- The block for `lo`, `lo + step`, … as long as `cont`; the answer is the receiver, unless an evaluation of the block does not give a value. -/
def counting (S : Sys W E) (cont : Int → Bool) (step lo : Int) (rcvr block : Val) : Src.Rel W E := fun w r w' =>
  ∃ (m : Nat) (w1 : W), (∀ i ∈ numbers lo step m, cont i = true) ∧ evalEach S block (numbers lo step m) w (.val .nil) w1 ∧
    ((cont (lo + m * step) = false ∧ r = .val rcvr ∧ w' = w1) ∨ (cont (lo + m * step) = true ∧ S.invoke block [.int (lo + m * step)] w1 r w' ∧ r.stops))

/-- An argument of a conditional: blocks are evaluated, everything else is answered. -/
def chosen (S : Sys W E) (v : Val) : Src.Rel W E := fun w r w' => (S.kind v = .block ∧ S.invoke v [] w r w') ∨ (S.kind v ≠ .block ∧ r = .val v ∧ w' = w)

/-- The messages that sites specialise for do what they do in the class library: the loops of Integer evaluate the block, and the conditionals of true and false
evaluate (or answer) one argument. -/
structure Standard (S : Sys W E) : Prop where
  toInt : ∀ lo hi b, S.kind b = .block → S.send "to:do:".toList (.int lo) [.int hi, b] = counting S (fun i => decide (i ≤ hi)) 1 lo (.int lo) b
  toDbl : ∀ lo n leI geI b, S.obj n = .dbl leI geI → S.kind b = .block → S.send "to:do:".toList (.int lo) [.obj n, b] = counting S leI 1 lo (.int lo) b
  byInt : ∀ lo hi st b, S.kind b = .block → S.send "to:by:do:".toList (.int lo) [.int hi, .int st, b] = counting S (fun i => decide (i ≤ hi)) st lo (.int lo) b
  byDbl : ∀ lo n leI geI st b, S.obj n = .dbl leI geI → S.kind b = .block →
    S.send "to:by:do:".toList (.int lo) [.obj n, .int st, b] = counting S leI st lo (.int lo) b
  downInt : ∀ hi lo b, S.kind b = .block → S.send "downTo:do:".toList (.int hi) [.int lo, b] = counting S (fun i => decide (lo ≤ i)) (-1) hi (.int hi) b
  downDbl : ∀ hi n leI geI b, S.obj n = .dbl leI geI → S.kind b = .block → S.send "downTo:do:".toList (.int hi) [.obj n, b] = counting S geI (-1) hi (.int hi) b
  ifElseT : ∀ a b, S.send "ifTrue:ifFalse:".toList .tru [a, b] = chosen S a
  ifElseF : ∀ a b, S.send "ifTrue:ifFalse:".toList .fls [a, b] = chosen S b
  ifTrueT : ∀ a, S.send "ifTrue:".toList .tru [a] = chosen S a
  ifTrueF : ∀ a, S.send "ifTrue:".toList .fls [a] = Src.pure .nil
  ifFalseT : ∀ a, S.send "ifFalse:".toList .tru [a] = Src.pure .nil
  ifFalseF : ∀ a, S.send "ifFalse:".toList .fls [a] = chosen S a

/-- `(rcvr, args)` is one of the executions in a history. -/
def Ran (es : List Ev) (rcvr : Val) (args : List Val) : Prop := Ev.run rcvr args ∈ es

end Spec

open Spec

theorem chosen_eq (S : Sys W E) (v : Val) : S.valueIfBlock v = chosen S v := by
  refine funext fun w => funext fun r => funext fun w' => propext ?_
  unfold Sys.valueIfBlock chosen
  cases h : S.kind v with
  | block => exact ⟨fun h => .inl ⟨rfl, h⟩, fun h => h.elim (fun h => h.2) fun h => absurd rfl h.1⟩
  | _ => exact ⟨fun h => .inr ⟨(fun h => nomatch h), h⟩, fun h => h.elim (fun h => nomatch h.1) fun h => h.2⟩

theorem numbers_last (lo step : Int) (m : Nat) : (lo + step) + m * step = lo + (m + 1 : Nat) * step := by
  rw [Int.natCast_add, Int.add_mul]
  omega

theorem count_counting {S : Sys W E} {cont : Int → Bool} {step lo : Int} {block : Val} {w w' : W} {r : Src.Res E} (h : Count cont step (fun i => S.invoke block [.int i]) lo w r w') :
    ∃ (m : Nat) (w1 : W), (∀ i ∈ numbers lo step m, cont i = true) ∧ evalEach S block (numbers lo step m) w (.val .nil) w1 ∧
      ((cont (lo + m * step) = false ∧ r = .val .nil ∧ w' = w1) ∨ (cont (lo + m * step) = true ∧ S.invoke block [.int (lo + m * step)] w1 r w' ∧ r.stops)) := by
  induction h with
  | exit i w hc => exact ⟨0, w, (fun _ h => nomatch h), ⟨rfl, rfl⟩, .inl ⟨by simpa using hc, rfl, rfl⟩⟩
  | stop i w w1 r hc hb hr => exact ⟨0, w, (fun _ h => nomatch h), ⟨rfl, rfl⟩, .inr ⟨by simpa using hc, by simpa using hb, hr⟩⟩
  | next i w w1 w2 v r hc hb hn ih =>
    obtain ⟨m, w3, h1, h2, h3⟩ := ih
    rw [numbers_last] at h3
    refine ⟨m + 1, w3, fun j hj => ?_, .inl ⟨v, w1, hb, h2⟩, h3⟩
    rcases List.mem_cons.mp hj with rfl | hj
    · exact hc
    · exact h1 j hj

theorem counting_count {S : Sys W E} {cont : Int → Bool} {step : Int} {block : Val} {w1 w' : W} {r : Src.Res E} : ∀ (m : Nat) (lo : Int) (w : W),
    (∀ i ∈ numbers lo step m, cont i = true) → evalEach S block (numbers lo step m) w (.val .nil) w1 →
    ((cont (lo + m * step) = false ∧ r = .val .nil ∧ w' = w1) ∨ (cont (lo + m * step) = true ∧ S.invoke block [.int (lo + m * step)] w1 r w' ∧ r.stops)) →
    Count cont step (fun i => S.invoke block [.int i]) lo w r w'
  | 0, lo, w, _, h2, h3 => by
    obtain ⟨_, rfl⟩ := h2
    have hz : lo + ((0 : Nat) : Int) * step = lo := by simp
    rw [hz] at h3
    rcases h3 with ⟨h, rfl, rfl⟩ | ⟨h, hb, hr⟩
    · exact .exit lo _ h
    · exact .stop lo _ _ _ h hb hr
  | m + 1, lo, w, h1, h2, h3 => by
    rcases h2 with ⟨v, w2, hb, h2⟩ | ⟨_, h⟩
    · rw [← numbers_last] at h3
      exact .next lo w w2 w' v r (h1 lo (List.mem_cons_self ..)) hb (counting_count m (lo + step) w2 (fun i hi => h1 i (List.mem_cons_of_mem _ hi)) h2 h3)
    · exact h.elim

/-- **C50**: the loops of the specialised nodes count: the block is evaluated with the receiver and then with numbers that differ by the step, as long as the test holds. -/
theorem C50_loop_counts (S : Sys W E) (cont : Int → Bool) (step lo : Int) (rcvr block : Val) : S.loop cont step lo rcvr block = counting S cont step lo rcvr block := by
  refine funext fun w => funext fun r => funext fun w' => propext ⟨fun h => ?_, fun h => ?_⟩
  · rcases h with ⟨v, w1, h1, rfl, rfl⟩ | ⟨h1, hr⟩
    · obtain ⟨m, w2, h2, h3, ⟨h4, _, rfl⟩ | ⟨_, _, h4⟩⟩ := count_counting h1
      · exact ⟨m, _, h2, h3, .inl ⟨h4, rfl, rfl⟩⟩
      · exact h4.elim
    · obtain ⟨m, w2, h2, h3, ⟨_, rfl, _⟩ | h4⟩ := count_counting h1
      · exact hr.elim
      · exact ⟨m, w2, h2, h3, .inr h4⟩
  · obtain ⟨m, w2, h2, h3, ⟨h4, rfl, rfl⟩ | h4⟩ := h
    · exact .inl ⟨.nil, w', counting_count m lo w h2 h3 (.inl ⟨h4, rfl, rfl⟩), rfl, rfl⟩
    · exact .inr ⟨counting_count m lo w h2 h3 (.inr h4), h4.2.2⟩

/-- Nodes of a site are not yet initialised, or were made for an execution. -/
def Origin (S : Sys W E) (sel : Sel) (es : List Ev) (nd : Node) : Prop := nd = .uninit ∨ ∃ r as, Ran es r as ∧ nd = S.specialize sel r as

theorem Origin.mono {S : Sys W E} {sel : Sel} {es es' : List Ev} {nd : Node} (h : ∀ e ∈ es, e ∈ es') (ho : Origin S sel es nd) : Origin S sel es' nd := by
  rcases ho with h1 | ⟨r, as, h1, h2⟩
  · exact .inl h1
  · exact .inr ⟨r, as, h _ h1, h2⟩

/-- The invariant of a site. -/
def Inv (S : Sys W E) (sel : Sel) (es : List Ev) (s : St) : Prop := Origin S sel es s.node ∧ ∀ p ∈ s.open_, Origin S sel es p.1

theorem Inv.step {S : Sys W E} {sel : Sel} {es : List Ev} {s : St} (h : Inv S sel es s) (e : Ev) : Inv S sel (es ++ [e]) (S.step sel s e).1 := by
  have hm : ∀ x ∈ es, x ∈ es ++ [e] := fun x hx => List.mem_append_left _ hx
  obtain ⟨h1, h2⟩ := h
  cases e with
  | enter =>
    refine ⟨h1.mono hm, fun p hp => ?_⟩
    rcases List.mem_cons.mp hp with rfl | hp
    · exact h1.mono hm
    · exact (h2 p hp).mono hm
  | leave => exact ⟨h1.mono hm, fun p hp => (h2 p (List.mem_of_mem_tail hp)).mono hm⟩
  | run r as =>
    have hr : Ran (es ++ [Ev.run r as]) r as := List.mem_append_right _ (List.mem_singleton.mpr rfl)
    simp only [Sys.step]
    split
    · exact ⟨h1.mono hm, fun p hp => (h2 p hp).mono hm⟩
    · rename_i nd g rest ho
      have h3 : ∀ p ∈ rest, Origin S sel (es ++ [Ev.run r as]) p.1 := fun p hp => (h2 p (ho ▸ List.mem_cons_of_mem _ hp)).mono hm
      split
      · split
        · exact ⟨.inr ⟨r, as, hr, rfl⟩, h3⟩
        · exact ⟨h1.mono hm, h3⟩
      · exact ⟨h1.mono hm, h3⟩

theorem Sys.after_append (S : Sys W E) (sel : Sel) (es : List Ev) (e : Ev) : ∀ s, S.after sel (es ++ [e]) s = (S.step sel (S.after sel es s) e).1 := by
  induction es with
  | nil => exact fun s => rfl
  | cons e' es ih => exact fun s => ih _

theorem Inv.after (S : Sys W E) (sel : Sel) (es : List Ev) : Inv S sel es (S.after sel es St.init) := by
  have h : ∀ (rs : List Ev), Inv S sel rs.reverse (S.after sel rs.reverse St.init) := by
    intro rs
    induction rs with
    | nil => exact ⟨.inl rfl, fun p hp => nomatch hp⟩
    | cons e rs ih =>
      rw [List.reverse_cons, Sys.after_append]
      exact ih.step e
  have := h es.reverse
  rwa [List.reverse_reverse] at this

/-- **C50**: whatever has happened at a call site, the node that executes a send was made for an execution of this site: this one or an earlier one. -/
theorem C50_origin (S : Sys W E) (sel : Sel) (es : List Ev) (rcvr : Val) (args : List Val) (nd : Node)
    (h : (S.step sel (S.after sel es St.init) (.run rcvr args)).2 = some nd) :
    ∃ r as, ((r = rcvr ∧ as = args) ∨ Ran es r as) ∧ nd = S.specialize sel r as := by
  have hi := Inv.after S sel es
  generalize S.after sel es St.init = s at h hi
  simp only [Sys.step] at h
  split at h
  · cases h
  · rename_i n g rest ho
    split at h
    · refine ⟨rcvr, args, .inl ⟨rfl, rfl⟩, ?_⟩
      split at h <;> exact (Option.some.inj h).symm
    · rename_i hne
      cases h
      rcases hi.2 (nd, g) (ho ▸ List.mem_cons_self) with h1 | ⟨r, as, h1, h2⟩
      · exact absurd h1 hne
      · exact ⟨r, as, .inr h1, h2⟩

theorem kind_int {S : Sys W E} {v : Val} {i : Int} (h : S.kind v = .int i) (ho : ∀ n j, S.obj n ≠ .int j) : v = .int i := by
  cases v with
  | int j => simp only [Sys.kind, Kind.int.injEq] at h; rw [h]
  | obj n => exact absurd h (ho n i)
  | nil => cases h
  | tru => cases h
  | fls => cases h
  | sym s => cases h

theorem kind_dbl {S : Sys W E} {v : Val} {le ge : Int → Bool} (h : S.kind v = .dbl le ge) : ∃ n, v = .obj n ∧ S.obj n = .dbl le ge := by
  cases v with
  | obj n => exact ⟨n, rfl, h⟩
  | _ => cases h

theorem tag_int {S : Sys W E} {v : Val} : tag S v = .int ↔ ∃ i, S.kind v = .int i := by
  unfold tag
  split
  · rename_i h
    constructor
    · intro h'; cases h'
    · rintro ⟨i, hi⟩; rcases h with rfl | rfl <;> cases hi
  · cases hk : S.kind v <;> simp

theorem tag_dbl {S : Sys W E} {v : Val} : tag S v = .dbl ↔ ∃ l g, S.kind v = .dbl l g := by
  unfold tag
  split
  · rename_i h
    constructor
    · intro h'; cases h'
    · rintro ⟨i, j, hi⟩; rcases h with rfl | rfl <;> cases hi
  · cases hk : S.kind v <;> simp

theorem tag_block {S : Sys W E} {v : Val} : tag S v = .block ↔ S.kind v = .block := by
  unfold tag
  split
  · rename_i h
    constructor
    · intro h'; cases h'
    · intro hi; rcases h with rfl | rfl <;> cases hi
  · cases hk : S.kind v <;> simp

theorem tag_bool {S : Sys W E} {v : Val} : tag S v = .bool ↔ v = .tru ∨ v = .fls := by
  unfold tag
  split
  · rename_i h; simp [h]
  · rename_i h
    cases hk : S.kind v <;> simp <;> exact not_or.mp h

/-! ## What the nodes were made for -/

theorem canToInt_iff {S : Sys W E} {sel : Sel} {r : Val} {a b : Val} {rest : List Val} :
    S.canToInt sel r (a :: b :: rest) = true ↔ tag S r = .int ∧ tag S a = .int ∧ tag S b = .block ∧ sel = "to:do:".toList := by
  rw [tag_int, tag_int, tag_block]
  simp only [Sys.canToInt]
  generalize "to:do:".toList = s
  cases S.kind a <;> cases S.kind r <;> cases S.kind b <;> simp

theorem canToDbl_iff {S : Sys W E} {sel : Sel} {r : Val} {a b : Val} {rest : List Val} :
    S.canToDbl sel r (a :: b :: rest) = true ↔ tag S r = .int ∧ tag S a = .dbl ∧ tag S b = .block ∧ sel = "to:do:".toList := by
  rw [tag_int, tag_dbl, tag_block]
  simp only [Sys.canToDbl]
  generalize "to:do:".toList = s
  cases S.kind a <;> cases S.kind r <;> cases S.kind b <;> simp

theorem canDownInt_iff {S : Sys W E} {sel : Sel} {r : Val} {a b : Val} {rest : List Val} :
    S.canDownInt sel r (a :: b :: rest) = true ↔ tag S r = .int ∧ tag S a = .int ∧ tag S b = .block ∧ sel = "downTo:do:".toList := by
  rw [tag_int, tag_int, tag_block]
  simp only [Sys.canDownInt]
  generalize "downTo:do:".toList = s
  cases S.kind a <;> cases S.kind r <;> cases S.kind b <;> simp

theorem canDownDbl_iff {S : Sys W E} {sel : Sel} {r : Val} {a b : Val} {rest : List Val} :
    S.canDownDbl sel r (a :: b :: rest) = true ↔ tag S r = .int ∧ tag S a = .dbl ∧ tag S b = .block ∧ sel = "downTo:do:".toList := by
  rw [tag_int, tag_dbl, tag_block]
  simp only [Sys.canDownDbl]
  generalize "downTo:do:".toList = s
  cases S.kind a <;> cases S.kind r <;> cases S.kind b <;> simp

theorem canByInt_iff {S : Sys W E} {sel : Sel} {r : Val} {a b c : Val} :
    S.canByInt sel r [a, b, c] = true ↔ tag S r = .int ∧ tag S a = .int ∧ tag S b = .int ∧ tag S c = .block ∧ sel = "to:by:do:".toList := by
  rw [tag_int, tag_int, tag_int, tag_block]
  simp only [Sys.canByInt]
  generalize "to:by:do:".toList = s
  cases S.kind a <;> cases S.kind r <;> cases S.kind b <;> cases S.kind c <;> simp

theorem canByDbl_iff {S : Sys W E} {sel : Sel} {r : Val} {a b c : Val} :
    S.canByDbl sel r [a, b, c] = true ↔ tag S r = .int ∧ tag S a = .dbl ∧ tag S b = .int ∧ tag S c = .block ∧ sel = "to:by:do:".toList := by
  rw [tag_int, tag_dbl, tag_int, tag_block]
  simp only [Sys.canByDbl]
  generalize "to:by:do:".toList = s
  cases S.kind a <;> cases S.kind r <;> cases S.kind b <;> cases S.kind c <;> simp

theorem canIfElse_iff {S : Sys W E} {sel : Sel} {r : Val} {as : List Val} :
    canIfElse sel r as = true ↔ tag S r = .bool ∧ as.length = 2 ∧ sel = "ifTrue:ifFalse:".toList := by
  rw [tag_bool]
  simp only [canIfElse, Bool.and_eq_true, Bool.or_eq_true, decide_eq_true_eq]
  grind

theorem canIf_iff {S : Sys W E} {sel : Sel} {r : Val} {as : List Val} :
    canIf sel r as = true ↔ tag S r = .bool ∧ as.length = 1 ∧ (sel = "ifTrue:".toList ∨ sel = "ifFalse:".toList) := by
  rw [tag_bool]
  simp only [canIf, Bool.and_eq_true, Bool.or_eq_true, decide_eq_true_eq]
  grind

/-- Which node is made depends only on the kinds. -/
theorem specialize_alike {S : Sys W E} (sel : Sel) {r r' : Val} {as as' : List Val} (h : Alike S r r' as as') : S.specialize sel r as = S.specialize sel r' as' := by
  obtain ⟨hr, ha⟩ := h
  have hlen : as.length = as'.length := by simpa using congrArg List.length ha
  have e7 : canIfElse sel r as = canIfElse sel r' as' := by rw [Bool.eq_iff_iff, canIfElse_iff (S := S), canIfElse_iff (S := S), hr, hlen]
  have e8 : canIf sel r as = canIf sel r' as' := by rw [Bool.eq_iff_iff, canIf_iff (S := S), canIf_iff (S := S), hr, hlen]
  match as, as', ha, hlen with
  | [], [], _, _ => rfl
  | [a], [a'], ha, _ =>
    simp only [Sys.specialize, Sys.canToInt, Sys.canToDbl, Sys.canByInt, Sys.canByDbl, Sys.canDownInt, Sys.canDownDbl, e7, e8, reduceCtorEq]
  | a :: b :: rest, a' :: b' :: rest', ha, hlen =>
    simp only [List.map_cons, List.cons.injEq] at ha
    have e1 : S.canToInt sel r (a :: b :: rest) = S.canToInt sel r' (a' :: b' :: rest') := by
      rw [Bool.eq_iff_iff, canToInt_iff, canToInt_iff, hr, ha.1, ha.2.1]
    have e2 : S.canToDbl sel r (a :: b :: rest) = S.canToDbl sel r' (a' :: b' :: rest') := by
      rw [Bool.eq_iff_iff, canToDbl_iff, canToDbl_iff, hr, ha.1, ha.2.1]
    have e5 : S.canDownInt sel r (a :: b :: rest) = S.canDownInt sel r' (a' :: b' :: rest') := by
      rw [Bool.eq_iff_iff, canDownInt_iff, canDownInt_iff, hr, ha.1, ha.2.1]
    have e6 : S.canDownDbl sel r (a :: b :: rest) = S.canDownDbl sel r' (a' :: b' :: rest') := by
      rw [Bool.eq_iff_iff, canDownDbl_iff, canDownDbl_iff, hr, ha.1, ha.2.1]
    have e34 : S.canByInt sel r (a :: b :: rest) = S.canByInt sel r' (a' :: b' :: rest') ∧ S.canByDbl sel r (a :: b :: rest) = S.canByDbl sel r' (a' :: b' :: rest') := by
      match rest, rest', ha.2.2, hlen with
      | [], [], _, _ => exact ⟨rfl, rfl⟩
      | [c], [c'], hc, _ =>
        simp only [List.map_cons, List.map_nil, List.cons.injEq, and_true] at hc
        constructor
        · rw [Bool.eq_iff_iff, canByInt_iff, canByInt_iff, hr, ha.1, ha.2.1, hc]
        · rw [Bool.eq_iff_iff, canByDbl_iff, canByDbl_iff, hr, ha.1, ha.2.1, hc]
      | _ :: _ :: _, _ :: _ :: _, _, _ => exact ⟨rfl, rfl⟩
    simp only [Sys.specialize, e1, e2, e34.1, e34.2, e5, e6, e7, e8, reduceCtorEq]

theorem doLoop_int {S : Sys W E} {down : Bool} {lo hi st : Int} {b : Val} (hb : S.kind b = .block) :
    S.doLoop false down (.int lo) (.int hi) (.int st) b = S.loop (fun i => if down then decide (hi ≤ i) else decide (i ≤ hi)) st lo (.int lo) b := by
  unfold Sys.doLoop
  rw [hb]
  rfl

theorem doLoop_dbl {S : Sys W E} {down : Bool} {lo st : Int} {n : Nat} {l g : Int → Bool} {b : Val} (hb : S.kind b = .block) (hd : S.obj n = .dbl l g) :
    S.doLoop true down (.int lo) (.obj n) (.int st) b = S.loop (if down then g else l) st lo (.int lo) b := by
  unfold Sys.doLoop
  have hd' : S.kind (.obj n) = .dbl l g := hd
  rw [hb, hd']
  rfl

/-- The node made for an execution does what the message does. -/
theorem exec_fresh {S : Sys W E} (hS : Standard S) (ho : ∀ n j, S.obj n ≠ .int j) (sel : Sel) (r : Val) (as : List Val)
    (hn : as.length + 1 = Sym.numberOfSignatureArguments sel) : S.exec sel r as (S.specialize sel r as) = S.send sel r as := by
  have n1 : Sym.numberOfSignatureArguments "to:do:".toList = 3 := by decide +kernel
  have n2 : Sym.numberOfSignatureArguments "downTo:do:".toList = 3 := by decide +kernel
  simp only [Sys.specialize]
  split
  · rfl
  split
  · rename_i _ h
    match as, h with
    | a :: b :: rest, h =>
      obtain ⟨h1, h2, h3, rfl⟩ := canToInt_iff.mp h
      rw [n1] at hn
      obtain rfl : rest = [] := List.length_eq_zero_iff.mp (by simpa using hn)
      obtain ⟨i, hi⟩ := tag_int.mp h1
      obtain ⟨j, hj⟩ := tag_int.mp h2
      obtain rfl := kind_int hi ho
      obtain rfl := kind_int hj ho
      rw [hS.toInt i j b (tag_block.mp h3), ← C50_loop_counts]
      exact doLoop_int (tag_block.mp h3)
  split
  · rename_i _ h
    match as, h with
    | a :: b :: rest, h =>
      obtain ⟨h1, h2, h3, rfl⟩ := canToDbl_iff.mp h
      rw [n1] at hn
      obtain rfl : rest = [] := List.length_eq_zero_iff.mp (by simpa using hn)
      obtain ⟨i, hi⟩ := tag_int.mp h1
      obtain ⟨l, g, hj⟩ := tag_dbl.mp h2
      obtain rfl := kind_int hi ho
      obtain ⟨n, rfl, hd⟩ := kind_dbl hj
      rw [hS.toDbl i n l g b hd (tag_block.mp h3), ← C50_loop_counts]
      exact doLoop_dbl (tag_block.mp h3) hd
  split
  · rename_i _ h
    match as, h with
    | [a, b, c], h =>
      obtain ⟨h1, h2, h3, h4, rfl⟩ := canByInt_iff.mp h
      obtain ⟨i, hi⟩ := tag_int.mp h1
      obtain ⟨j, hj⟩ := tag_int.mp h2
      obtain ⟨k, hk⟩ := tag_int.mp h3
      obtain rfl := kind_int hi ho
      obtain rfl := kind_int hj ho
      obtain rfl := kind_int hk ho
      rw [hS.byInt i j k c (tag_block.mp h4), ← C50_loop_counts]
      exact doLoop_int (tag_block.mp h4)
  split
  · rename_i _ h
    match as, h with
    | [a, b, c], h =>
      obtain ⟨h1, h2, h3, h4, rfl⟩ := canByDbl_iff.mp h
      obtain ⟨i, hi⟩ := tag_int.mp h1
      obtain ⟨l, g, hj⟩ := tag_dbl.mp h2
      obtain ⟨k, hk⟩ := tag_int.mp h3
      obtain rfl := kind_int hi ho
      obtain ⟨n, rfl, hd⟩ := kind_dbl hj
      obtain rfl := kind_int hk ho
      rw [hS.byDbl i n l g k c hd (tag_block.mp h4), ← C50_loop_counts]
      exact doLoop_dbl (tag_block.mp h4) hd
  split
  · rename_i _ h
    match as, h with
    | a :: b :: rest, h =>
      obtain ⟨h1, h2, h3, rfl⟩ := canDownInt_iff.mp h
      rw [n2] at hn
      obtain rfl : rest = [] := List.length_eq_zero_iff.mp (by simpa using hn)
      obtain ⟨i, hi⟩ := tag_int.mp h1
      obtain ⟨j, hj⟩ := tag_int.mp h2
      obtain rfl := kind_int hi ho
      obtain rfl := kind_int hj ho
      rw [hS.downInt i j b (tag_block.mp h3), ← C50_loop_counts]
      exact doLoop_int (tag_block.mp h3)
  split
  · rename_i _ h
    match as, h with
    | a :: b :: rest, h =>
      obtain ⟨h1, h2, h3, rfl⟩ := canDownDbl_iff.mp h
      rw [n2] at hn
      obtain rfl : rest = [] := List.length_eq_zero_iff.mp (by simpa using hn)
      obtain ⟨i, hi⟩ := tag_int.mp h1
      obtain ⟨l, g, hj⟩ := tag_dbl.mp h2
      obtain rfl := kind_int hi ho
      obtain ⟨n, rfl, hd⟩ := kind_dbl hj
      rw [hS.downDbl i n l g b hd (tag_block.mp h3), ← C50_loop_counts]
      exact doLoop_dbl (tag_block.mp h3) hd
  split
  · rename_i _ h
    obtain ⟨h1, h2, rfl⟩ := (canIfElse_iff (S := S)).mp h
    match as, h2 with
    | [a, b], _ =>
      rcases tag_bool.mp h1 with rfl | rfl
      · rw [hS.ifElseT, ← chosen_eq]; simp only [Sys.exec, if_true]
      · rw [hS.ifElseF, ← chosen_eq]; simp only [Sys.exec, if_true, reduceCtorEq, if_false]
  split
  · rename_i _ h
    obtain ⟨h1, h2, h3⟩ := (canIf_iff (S := S)).mp h
    match as, h2 with
    | [a], _ =>
      have hne : ¬ "ifFalse:".toList = "ifTrue:".toList := by decide
      rcases tag_bool.mp h1 with rfl | rfl <;> rcases h3 with rfl | rfl
      · rw [hS.ifTrueT, ← chosen_eq]; simp only [Sys.exec, decide_true, boolVal, if_true]
      · rw [hS.ifFalseT]; simp only [Sys.exec, decide_eq_false hne, boolVal, if_true, reduceCtorEq, if_false, false_or, Bool.false_eq_true]
      · rw [hS.ifTrueF]; simp only [Sys.exec, decide_true, boolVal, if_true, reduceCtorEq, if_false, true_or]
      · rw [hS.ifFalseF, ← chosen_eq]; simp only [Sys.exec, decide_eq_false hne, boolVal, if_true, reduceCtorEq, if_false, false_or, Bool.false_eq_true]
  · rfl

/-- **C50** (partial): after any history of executions of a call site, also overlapping ones, an execution does what sending the message does, if every earlier execution had a receiver
and arguments of the same kinds.  Missing: executions with other kinds (`C50_violated_if`, `C50_violated_loop`) and systems in which the messages of Integer, true and false
have been redefined (`C50_violated_redefined`). -/
theorem C50_transparent_partial {S : Sys W E} (hS : Standard S) (ho : ∀ n j, S.obj n ≠ .int j) (sel : Sel) (es : List Ev) (rcvr : Val) (args : List Val) (nd : Node)
    (hn : args.length + 1 = Sym.numberOfSignatureArguments sel) (hk : ∀ r as, Ran es r as → Alike S r rcvr as args)
    (h : (S.step sel (S.after sel es St.init) (.run rcvr args)).2 = some nd) : S.exec sel rcvr args nd = S.send sel rcvr args := by
  obtain ⟨r, as, h1, rfl⟩ := C50_origin S sel es rcvr args nd h
  have ha : Alike S r rcvr as args := by
    rcases h1 with ⟨rfl, rfl⟩ | h1
    · exact ⟨rfl, rfl⟩
    · exact hk r as h1
  rw [specialize_alike sel ha]
  exact exec_fresh hS ho sel rcvr args hn

/-- **C50**: for all messages but those of counting loops and conditionals an execution does what sending the message does, whatever the earlier executions were like. -/
theorem C50_other_messages {S : Sys W E} (sel : Sel) (hs : sel ∉ ["to:do:", "to:by:do:", "downTo:do:", "ifTrue:ifFalse:", "ifTrue:", "ifFalse:"].map String.toList)
    (es : List Ev) (rcvr : Val) (args : List Val) (nd : Node)
    (h : (S.step sel (S.after sel es St.init) (.run rcvr args)).2 = some nd) : S.exec sel rcvr args nd = S.send sel rcvr args := by
  obtain ⟨r, as, _, rfl⟩ := C50_origin S sel es rcvr args nd h
  simp only [List.map_cons, List.map_nil, List.mem_cons, List.not_mem_nil, or_false, not_or] at hs
  obtain ⟨s1, s2, s3, s4, s5, s6⟩ := hs
  have e7 : canIfElse sel r as = false := Bool.eq_false_iff.mpr fun h => s4 ((canIfElse_iff (S := S)).mp h).2.2
  have e8 : canIf sel r as = false := Bool.eq_false_iff.mpr fun h => ((canIf_iff (S := S)).mp h).2.2.elim s5 s6
  have e : S.canToInt sel r as = false ∧ S.canToDbl sel r as = false ∧ S.canByInt sel r as = false ∧ S.canByDbl sel r as = false ∧ S.canDownInt sel r as = false ∧
      S.canDownDbl sel r as = false := by
    match as with
    | [] => exact ⟨rfl, rfl, rfl, rfl, rfl, rfl⟩
    | [a] => exact ⟨rfl, rfl, rfl, rfl, rfl, rfl⟩
    | a :: b :: rest =>
      refine ⟨Bool.eq_false_iff.mpr fun h => s1 (canToInt_iff.mp h).2.2.2, Bool.eq_false_iff.mpr fun h => s1 (canToDbl_iff.mp h).2.2.2, ?_, ?_,
        Bool.eq_false_iff.mpr fun h => s3 (canDownInt_iff.mp h).2.2.2, Bool.eq_false_iff.mpr fun h => s3 (canDownDbl_iff.mp h).2.2.2⟩
      · match rest with
        | [c] => exact Bool.eq_false_iff.mpr fun h => s2 (canByInt_iff.mp h).2.2.2.2
        | [] => rfl
        | _ :: _ :: _ => rfl
      · match rest with
        | [c] => exact Bool.eq_false_iff.mpr fun h => s2 (canByDbl_iff.mp h).2.2.2.2
        | [] => rfl
        | _ :: _ :: _ => rfl
  have : S.specialize sel r as = .send := by
    obtain ⟨e1, e2, e3, e4, e5, e6⟩ := e
    simp only [Sys.specialize, e1, e2, e3, e4, e5, e6, e7, e8, Bool.false_eq_true, if_false, ite_self]
  rw [this]
  rfl

/-- The first execution of a site, when it is not recursive. -/
theorem first_run (S : Sys W E) (sel : Sel) (r r' : Val) (as as' : List Val) (h : S.specialize sel r as ≠ .uninit) :
    (S.step sel (S.after sel [.enter, .run r as, .enter] St.init) (.run r' as')).2 = some (S.specialize sel r as) := by
  simp only [Sys.after, Sys.step, St.init, if_true, if_neg h]

/-- **C50** is violated by conditionals: a site that has seen a boolean fails with an AssertionError for every other receiver, whatever its class defines. -/
theorem C50_violated_if (S : Sys W E) (b : Bool) (a c : Val) (rcvr : Val) (hr : rcvr ≠ .tru ∧ rcvr ≠ .fls) :
    (∃ nd, (S.step "ifTrue:ifFalse:".toList (S.after "ifTrue:ifFalse:".toList [.enter, .run (boolVal b) [a, c], .enter] St.init) (.run rcvr [a, c])).2 = some nd ∧
      S.exec "ifTrue:ifFalse:".toList rcvr [a, c] nd = S.fails .assertion) ∧
    (∃ nd, (S.step "ifTrue:".toList (S.after "ifTrue:".toList [.enter, .run (boolVal b) [a], .enter] St.init) (.run rcvr [a])).2 = some nd ∧
      S.exec "ifTrue:".toList rcvr [a] nd = S.fails .assertion) := by
  have hb : tag S (boolVal b) = .bool := tag_bool.mpr (by cases b; exact .inr rfl; exact .inl rfl)
  have hk : ∀ i, S.kind (boolVal b) ≠ .int i := by cases b <;> (intro i h; cases h)
  constructor
  · have hs : S.specialize "ifTrue:ifFalse:".toList (boolVal b) [a, c] = .ifElse := by
      have e1 : S.canToInt "ifTrue:ifFalse:".toList (boolVal b) [a, c] = false := Bool.eq_false_iff.mpr fun h => absurd (canToInt_iff.mp h).1 (by rw [hb]; simp)
      have e2 : S.canToDbl "ifTrue:ifFalse:".toList (boolVal b) [a, c] = false := Bool.eq_false_iff.mpr fun h => absurd (canToDbl_iff.mp h).1 (by rw [hb]; simp)
      have e5 : S.canDownInt "ifTrue:ifFalse:".toList (boolVal b) [a, c] = false := Bool.eq_false_iff.mpr fun h => absurd (canDownInt_iff.mp h).1 (by rw [hb]; simp)
      have e6 : S.canDownDbl "ifTrue:ifFalse:".toList (boolVal b) [a, c] = false := Bool.eq_false_iff.mpr fun h => absurd (canDownDbl_iff.mp h).1 (by rw [hb]; simp)
      have e7 : canIfElse "ifTrue:ifFalse:".toList (boolVal b) [a, c] = true := (canIfElse_iff (S := S)).mpr ⟨hb, rfl, rfl⟩
      simp only [Sys.specialize, e1, e2, e5, e6, e7, Sys.canByInt, Sys.canByDbl, if_true, reduceCtorEq, if_false, Bool.false_eq_true]
    refine ⟨_, first_run S _ _ _ _ _ (by rw [hs]; simp), ?_⟩
    rw [hs]
    simp only [Sys.exec, if_neg hr.1, if_neg hr.2]
  · have hs : S.specialize "ifTrue:".toList (boolVal b) [a] = .ifOne true := by
      have e7 : canIfElse "ifTrue:".toList (boolVal b) [a] = false := rfl
      have e8 : canIf "ifTrue:".toList (boolVal b) [a] = true := (canIf_iff (S := S)).mpr ⟨hb, rfl, .inl rfl⟩
      simp only [Sys.specialize, Sys.canToInt, Sys.canToDbl, Sys.canByInt, Sys.canByDbl, Sys.canDownInt, Sys.canDownDbl, e7, e8, if_true, reduceCtorEq, if_false, Bool.false_eq_true,
        decide_true]
    refine ⟨_, first_run S _ _ _ _ _ (by rw [hs]; simp), ?_⟩
    rw [hs]
    have hbt : boolVal true = .tru := rfl
    simp only [Sys.exec, hbt, if_neg hr.1, hr.1, hr.2, or_self, if_false]

/-- **C50** is violated by counting loops: a site that has counted from an Integer to an Integer fails with an AttributeError for every receiver that is not an Integer and
for every limit that is not one (a Double, for which a new site works). -/
theorem C50_violated_loop (S : Sys W E) (lo hi : Int) (b : Val) (hb : S.kind b = .block) (rcvr limit : Val)
    (h : (∀ i, S.kind rcvr ≠ .int i) ∨ (∀ i, S.kind limit ≠ .int i)) :
    ∃ nd, (S.step "to:do:".toList (S.after "to:do:".toList [.enter, .run (.int lo) [.int hi, b], .enter] St.init) (.run rcvr [limit, b])).2 = some nd ∧
      S.exec "to:do:".toList rcvr [limit, b] nd = S.fails .attribute := by
  have hs : S.specialize "to:do:".toList (.int lo) [.int hi, b] = .toInt := by
    have e1 : S.canToInt "to:do:".toList (.int lo) [.int hi, b] = true := canToInt_iff.mpr ⟨tag_int.mpr ⟨lo, rfl⟩, tag_int.mpr ⟨hi, rfl⟩, tag_block.mpr hb, rfl⟩
    simp only [Sys.specialize, e1, if_true, reduceCtorEq, if_false]
  refine ⟨_, first_run S _ _ _ _ _ (by rw [hs]; simp), ?_⟩
  rw [hs]
  simp only [Sys.exec, Sys.doLoop, hb]
  rcases h with h | h
  · cases hk : S.kind rcvr with
    | int i => exact absurd hk (h i)
    | _ => rfl
  · cases hk : S.kind limit with
    | int i => exact absurd hk (h i)
    | _ => cases S.kind rcvr <;> rfl

/-- **C50** is violated when `to:do:` is redefined: the specialised node runs its own loop; the send is not made. -/
theorem C50_violated_redefined (S : Sys W E) (lo hi : Int) (b : Val) (hb : S.kind b = .block) (hsend : S.send "to:do:".toList (.int lo) [.int hi, b] = Src.pure (.int 42))
    (h : hi < lo) (hlo : lo ≠ 42) (w : W) :
    ∃ nd, (S.step "to:do:".toList (S.after "to:do:".toList [.enter] St.init) (.run (.int lo) [.int hi, b])).2 = some nd ∧
      ∀ r w', S.exec "to:do:".toList (.int lo) [.int hi, b] nd w r w' → r ≠ .val (.int 42) ∧ ¬ S.send "to:do:".toList (.int lo) [.int hi, b] w r w' := by
  have hs : S.specialize "to:do:".toList (.int lo) [.int hi, b] = .toInt := by
    have e1 : S.canToInt "to:do:".toList (.int lo) [.int hi, b] = true := canToInt_iff.mpr ⟨tag_int.mpr ⟨lo, rfl⟩, tag_int.mpr ⟨hi, rfl⟩, tag_block.mpr hb, rfl⟩
    simp only [Sys.specialize, e1, if_true, reduceCtorEq, if_false]
  refine ⟨.toInt, ?_, ?_⟩
  · simp only [Sys.after, Sys.step, St.init, if_true, hs]
  · intro r w' hx
    have hr : r = .val (.int lo) := by
      have hx : S.loop (fun i => if false = true then decide (hi ≤ i) else decide (i ≤ hi)) 1 lo (.int lo) b w r w' := doLoop_int hb ▸ hx
      rcases hx with ⟨v, w1, _, h2, _⟩ | ⟨hc, hst⟩
      · exact h2
      · generalize hcont : (fun i => if false = true then decide (hi ≤ i) else decide (i ≤ hi)) = cont at hc
        have hf : cont lo = false := by rw [← hcont]; simp; omega
        cases hc with
        | exit => exact hst.elim
        | stop _ _ _ _ hc' => rw [hf] at hc'; cases hc'
        | next _ _ _ _ _ _ hc' => rw [hf] at hc'; cases hc'
    subst hr
    refine ⟨fun e => ?_, fun e => ?_⟩
    · injection e with e; injection e with e; exact hlo e
    · rw [hsend] at e
      have := e.1
      injection this with e; injection e with e; exact hlo e

/-- **C50** (partial), increments (`int_inc_node.py:12-14`): the node `e + 1` answers what the message `+ 1` of numbers answers.  Missing: other receivers (they fail), and
numbers whose `+` is redefined; see `C33`. -/
theorem C50_increment_partial {F : Type} (p : Platform) (fo : Num.FloatOps F) (a : Num.Num F) (h1 : fo.ofInt 1 = .ok fo.one) :
    Num.primInc p fo a = Num.primAdd p fo a (.int 1) := Num.C07_increment_agrees p fo a h1

/-! ## A system -/

/-- Blocks are objects 0 to 9; block `k` adds the argument and `k` to a counter, and block 7 raises.  Everything else answers nil. -/
def sampleInvoke (b : Val) (as : List Val) : Src.Rel Int String := fun w r w' =>
  match b, as with
  | .obj 7, _ => r = .exc "seven" ∧ w' = w
  | .obj k, [.int i] => r = .val .nil ∧ w' = w + i + k
  | .obj k, _ => r = .val (.int k) ∧ w' = w + 1
  | _, _ => False

def sampleObj (n : Nat) : Kind :=
  if n < 10 then .block else if n = 10 then .dbl (fun i => decide (2 * i ≤ 5)) (fun i => decide (5 ≤ 2 * i)) else .other

/-- A system without sends, to define what they do. -/
def sample0 : Sys Int String := ⟨sampleObj, fun _ _ _ => Src.pure .nil, sampleInvoke, fun _ => "python"⟩

def isDbl (v : Val) : Bool := match sample0.kind v with | .dbl _ _ => true | _ => false

/-- The messages of Integer and of the booleans; everything else answers 99. -/
def sampleSend (sel : Sel) (r : Val) (as : List Val) : Src.Rel Int String :=
  match r, as with
  | .int _, [a, b] =>
    if sel = "to:do:".toList then sample0.doLoop (isDbl a) false r a (.int 1) b
    else if sel = "downTo:do:".toList then sample0.doLoop (isDbl a) true r a (.int (-1)) b
    else Src.pure (.int 99)
  | .int _, [a, b, c] => if sel = "to:by:do:".toList then sample0.doLoop (isDbl a) false r a b c else Src.pure (.int 99)
  | .tru, [a, _] => sample0.valueIfBlock a
  | .fls, [_, b] => sample0.valueIfBlock b
  | .tru, [a] => if sel = "ifTrue:".toList then sample0.valueIfBlock a else Src.pure .nil
  | .fls, [a] => if sel = "ifTrue:".toList then Src.pure .nil else sample0.valueIfBlock a
  | _, _ => Src.pure (.int 99)

def sample : Sys Int String := ⟨sampleObj, sampleSend, sampleInvoke, fun _ => "python"⟩

theorem sample_objs (n : Nat) (j : Int) : sample.obj n ≠ .int j := by
  show sampleObj n ≠ _
  unfold sampleObj
  split
  · simp
  split <;> simp

theorem isDbl_obj {n : Nat} {l g : Int → Bool} (h : sample.obj n = .dbl l g) : isDbl (.obj n) = true := by
  have h : sample0.kind (.obj n) = .dbl l g := h
  simp only [isDbl, h]

theorem sample_standard : Standard sample where
  toInt lo hi b hb := by
    refine Eq.trans ?_ (C50_loop_counts ..)
    exact doLoop_int (S := sample0) (down := false) (show sample0.kind b = .block from hb)
  toDbl lo n l g b hd hb := by
    show sample0.doLoop (isDbl (.obj n)) false (.int lo) (.obj n) (.int 1) b = _
    rw [isDbl_obj hd]
    refine Eq.trans ?_ (C50_loop_counts ..)
    exact doLoop_dbl (S := sample0) (show sample0.kind b = .block from hb) (show sample0.obj n = _ from hd)
  byInt lo hi st b hb := by
    refine Eq.trans ?_ (C50_loop_counts ..)
    exact doLoop_int (S := sample0) (down := false) (show sample0.kind b = .block from hb)
  byDbl lo n l g st b hd hb := by
    show sample0.doLoop (isDbl (.obj n)) false (.int lo) (.obj n) (.int st) b = _
    rw [isDbl_obj hd]
    refine Eq.trans ?_ (C50_loop_counts ..)
    exact doLoop_dbl (S := sample0) (show sample0.kind b = .block from hb) (show sample0.obj n = _ from hd)
  downInt hi lo b hb := by
    refine Eq.trans ?_ (C50_loop_counts ..)
    exact doLoop_int (S := sample0) (down := true) (show sample0.kind b = .block from hb)
  downDbl hi n l g b hd hb := by
    show sample0.doLoop (isDbl (.obj n)) true (.int hi) (.obj n) (.int (-1)) b = _
    rw [isDbl_obj hd]
    refine Eq.trans ?_ (C50_loop_counts ..)
    exact doLoop_dbl (S := sample0) (show sample0.kind b = .block from hb) (show sample0.obj n = _ from hd)
  ifElseT a b := chosen_eq sample a
  ifElseF a b := chosen_eq sample b
  ifTrueT a := chosen_eq sample a
  ifTrueF a := rfl
  ifFalseT a := rfl
  ifFalseF a := chosen_eq sample a

/-- A recursive use of a site: the second execution begins and ends while the first one evaluates its arguments. -/
def overlapping : List Ev := [.enter, .enter, .run (.int 1) [.int 3, .obj 2], .run (.int 4) [.int 5, .obj 3], .enter]

example : (sample.step "to:do:".toList (sample.after "to:do:".toList overlapping St.init) (.run (.int 1) [.int 2, .obj 5])).2 = some .toInt := by decide +kernel

/-- The hypotheses of `C50_transparent_partial` hold after it; the block runs for 1 and 2 and adds 1 + 5 and 2 + 5. -/
example : sample.exec "to:do:".toList (.int 1) [.int 2, .obj 5] .toInt = sample.send "to:do:".toList (.int 1) [.int 2, .obj 5] :=
  C50_transparent_partial sample_standard sample_objs "to:do:".toList overlapping (.int 1) [.int 2, .obj 5] .toInt (by decide +kernel)
    (by
      intro r as h
      simp only [Ran, overlapping, List.mem_cons, reduceCtorEq, Ev.run.injEq, List.not_mem_nil, or_false, false_or] at h
      rcases h with ⟨rfl, rfl⟩ | ⟨rfl, rfl⟩ <;> exact ⟨by decide, by decide⟩)
    (by decide +kernel)

example : sample.send "to:do:".toList (.int 1) [.int 2, .obj 5] 0 (.val (.int 1)) 13 := by
  show sample0.doLoop false false (.int 1) (.int 2) (.int 1) (.obj 5) 0 _ _
  rw [doLoop_int (S := sample0) rfl]
  exact .inl ⟨.nil, 13, .next 1 0 6 13 .nil _ rfl ⟨rfl, rfl⟩ (.next 2 6 13 13 .nil _ rfl ⟨rfl, rfl⟩ (.exit 3 13 rfl)), rfl, rfl⟩

/-- `C50_other_messages`: a site of `at:put:`. -/
example : sample.exec "at:put:".toList .tru [.int 2, .obj 5] .send = sample.send "at:put:".toList .tru [.int 2, .obj 5] :=
  C50_other_messages "at:put:".toList (by decide +kernel) overlapping .tru [.int 2, .obj 5] .send (by decide +kernel)

/-- `C50_violated_loop`: a new site counts to a Double (object 10), one that has counted to an Integer fails. -/
example : sample.specialize "to:do:".toList (.int 1) [.obj 10, .obj 2] = .toDbl ∧
    ∃ nd, (sample.step "to:do:".toList (sample.after "to:do:".toList [.enter, .run (.int 1) [.int 3, .obj 2], .enter] St.init) (.run (.int 1) [.obj 10, .obj 2])).2 = some nd ∧
      sample.exec "to:do:".toList (.int 1) [.obj 10, .obj 2] nd = sample.fails .attribute :=
  ⟨by decide +kernel, C50_violated_loop sample 1 3 (.obj 2) rfl (.int 1) (.obj 10) (.inr fun i h => (nomatch h))⟩

/-- `C50_violated_if`: a receiver that is not a boolean; sending the message answers 99. -/
example : sample.send "ifTrue:".toList (.sym ['a']) [.nil] = Src.pure (.int 99) := rfl

example := C50_violated_if sample true .nil .nil (.sym ['a']) ⟨(by simp), (by simp)⟩

/-- `C50_violated_redefined`: a system in which `to:do:` answers 42. -/
example := C50_violated_redefined ({ sample with send := fun _ _ _ => Src.pure (.int 42) } : Sys Int String) 2 1 (.obj 3) rfl rfl (by decide) (by decide) 0

end
end PySOM.Site

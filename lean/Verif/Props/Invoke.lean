import Verif.Spec.Invoke
/-!
# C57: a message reaches the method or primitive that was found for it, with the receiver and all arguments
-/
set_option autoImplicit false
namespace PySOM.Inv
open PySOM.Inv.Spec
variable {V : Type}

/-- **C57** in the AST interpreter: a send gives what the invokable computes from the receiver and the arguments, exactly if the invokable fits the number of arguments.
The full property is without `Fits`; see `C57_violated_reader_ast` and `C57_violated_primitives`. -/
theorem C57_ast_partial (b : Body V) (r v : V) (as : List V) (hs : ∀ i f, b = .setter i f → 1 ≤ i ∧ i < as.length + 1) :
    sendAst b r as = .ok v ↔ Fits .ast b.kind (as.length + 1) ∧ value b r as = some v := by
  cases b with
  | setter i f =>
    have := hs i f rfl
    rcases as with _ | ⟨x, _ | ⟨y, _ | ⟨z, as⟩⟩⟩
    · simp [sendAst, invoke1, Fits, Body.kind]
    · simp only [List.length_cons, List.length_nil] at this
      obtain rfl : i = 1 := by omega
      simp [sendAst, invoke2, Fits, Body.kind, value]
    · simp only [List.length_cons, List.length_nil] at this
      obtain rfl | rfl : i = 1 ∨ i = 2 := by omega
      · simp [sendAst, invoke3, Fits, Body.kind, value]
      · simp [sendAst, invoke3, Fits, Body.kind, value]
    · simp [sendAst, invokeArgs, Fits, Body.kind]
  | _ =>
    rcases as with _ | ⟨x, _ | ⟨y, _ | ⟨z, as⟩⟩⟩ <;> simp [sendAst, invoke1, invoke2, invoke3, invokeArgs, Fits, Body.kind, value]

theorem stack_take (r : V) (as below : List V) : ((as.reverse ++ r :: below).take (as.length + 1)).reverse = r :: as := by
  rw [show as.reverse ++ r :: below = (as.reverse ++ [r]) ++ below by simp, List.take_left' (by simp)]
  simp

theorem stack_drop (r : V) (as below : List V) : (as.reverse ++ r :: below).drop (as.length + 1) = below := by
  rw [show as.reverse ++ r :: below = (as.reverse ++ [r]) ++ below by simp, List.drop_left' (by simp)]

theorem stack_rcvr (r : V) (as below : List V) : (as.reverse ++ r :: below)[as.length]? = some r := by
  rw [List.getElem?_append_right (by simp)]
  simp

/-- **C57** in the bytecode interpreter: with the receiver and the arguments on top of the stack, a send replaces them by what the invokable computes from them, and leaves the rest of the
stack, if the invokable fits the number of arguments.  The full property is without `Fits`; see `C57_bc_fails` and `C57_violated_setter`. -/
theorem C57_bc_partial (b : Body V) (r : V) (as below : List V) (hf : Fits .bc b.kind (as.length + 1)) (hs : Sound b (as.length + 1)) :
    ∃ v, value b r as = some v ∧ sendBc b (as.length + 1) (as.reverse ++ r :: below) = .ok (v :: below) := by
  cases b with
  | setter i f =>
    rcases hf with hf | hf
    · obtain ⟨x, rfl⟩ : ∃ x, as = [x] := List.length_eq_one_iff.1 (by omega)
      simp only [Sound, List.length_cons, List.length_nil] at hs
      obtain rfl : i = 1 := by omega
      exact ⟨_, rfl, rfl⟩
    · obtain ⟨x, y, rfl⟩ : ∃ x y, as = [x, y] := by
        rcases as with _ | ⟨x, _ | ⟨y, _ | ⟨z, as⟩⟩⟩ <;> simp at hf
        exact ⟨x, y, rfl⟩
      simp only [Sound, List.length_cons, List.length_nil] at hs
      obtain rfl | rfl : i = 1 ∨ i = 2 := by omega
      · exact ⟨_, rfl, rfl⟩
      · exact ⟨_, rfl, rfl⟩
  | generic f g =>
    refine ⟨_, rfl, ?_⟩
    simp only [Fits, Body.kind] at hf
    simp only [sendBc, invokeN, show as.length + 1 ≠ 1 by omega, show as.length + 1 ≠ 2 by omega, show as.length + 1 ≠ 3 by omega, if_false]
    rw [hs r as below rfl]
  | method f =>
    refine ⟨_, rfl, ?_⟩
    rcases as with _ | ⟨x, _ | ⟨y, _ | ⟨z, as⟩⟩⟩
    · rfl
    · rfl
    · rfl
    · simp only [sendBc, invokeN, popAndPush, List.length_cons, show as.length + 1 + 1 + 1 + 1 ≠ 1 by omega, show as.length + 1 + 1 + 1 + 1 ≠ 2 by omega,
        show as.length + 1 + 1 + 1 + 1 ≠ 3 by omega, if_false]
      rw [show as.length + 1 + 1 + 1 = (x :: y :: z :: as).length from rfl, stack_take, stack_drop]
  | reader f =>
    refine ⟨_, rfl, ?_⟩
    rcases as with _ | ⟨x, _ | ⟨y, _ | ⟨z, as⟩⟩⟩
    · rfl
    · rfl
    · rfl
    · simp only [sendBc, invokeN, popAndPush, List.length_cons, show as.length + 1 + 1 + 1 + 1 ≠ 1 by omega, show as.length + 1 + 1 + 1 + 1 ≠ 2 by omega,
        show as.length + 1 + 1 + 1 + 1 ≠ 3 by omega, if_false, Nat.add_sub_cancel]
      rw [show as.length + 1 + 1 + 1 = (x :: y :: z :: as).length from rfl, stack_rcvr, stack_drop]
  | _ =>
    rcases as with _ | ⟨x, _ | ⟨y, _ | ⟨z, as⟩⟩⟩ <;>
      first
        | exact ⟨_, rfl, rfl⟩
        | (exfalso; simp [Fits, Body.kind] at hf; done)

/-- Where an invokable other than a setter does not fit the number of arguments, the send fails. -/
theorem C57_bc_fails (b : Body V) (r : V) (as below : List V) (hf : ¬ Fits .bc b.kind (as.length + 1)) (hb : b.kind ≠ .setter) :
    sendBc b (as.length + 1) (as.reverse ++ r :: below) = .error .attribute := by
  rcases as with _ | ⟨x, _ | ⟨y, _ | ⟨z, as⟩⟩⟩ <;> cases b <;>
    first
      | rfl
      | (exfalso; simp [Fits, Body.kind] at hf; done)
      | (exfalso; exact hb rfl)
      | simp [sendBc, invokeN]

/-- The example: a primitive with an argument, a method with three arguments, in both interpreters. -/
def minus : Body Int := .binary fun r a => r - a
def digits : Body Int := .method fun xs => xs.foldl (fun n d => 10 * n + d) 0
example : sendAst minus 7 [2] = .ok 5 ∧ sendBc minus 2 [2, 7, 100] = .ok [5, 100] := ⟨rfl, rfl⟩
example : sendAst digits 1 [2, 3, 4] = .ok 1234 ∧ sendBc digits 4 [4, 3, 2, 1, 100] = .ok [1234, 100] := ⟨rfl, rfl⟩
example : Fits .bc digits.kind 4 ∧ Sound digits 4 ∧ Fits .ast minus.kind 2 := ⟨trivial, trivial, rfl⟩

/-! ## The primitives of the VM -/

/-- The number of receiver and arguments of a send with this selector (C22). -/
abbrev arity (sel : String) : Nat := Sym.numberOfSignatureArguments sel.toList

/-- **C57** for all primitives of the VM: the Python class of a primitive fits its selector, in every class and both interpreters, except for those that are listed as unreachable. -/
theorem C57_primitives (e : Engine) :
    ∀ c ∈ known e, ∀ p ∈ c.2, Fits e p.2.2 (arity p.2.1) ↔ (c.1, p.2.1) ∉ unreachable e := by
  cases e <;> decide +kernel

/-- Sending the selector of any other primitive reaches it, with the receiver and the arguments. -/
theorem C57_primitives_ast_partial (c : String × List (Side × String × Kind)) (hc : c ∈ known .ast) (p : Side × String × Kind) (hp : p ∈ c.2)
    (hu : (c.1, p.2.1) ∉ unreachable .ast) (b : Body V) (hb : b.kind = p.2.2) (r : V) (as : List V) (ha : as.length + 1 = arity p.2.1) :
    ∃ v, value b r as = some v ∧ sendAst b r as = .ok v := by
  have hf := (C57_primitives .ast c hc p hp).2 hu
  rw [← hb, ← ha] at hf
  have hk : b.kind ≠ .setter := by
    rw [hb]
    exact (show ∀ c ∈ known .ast, ∀ p ∈ c.2, p.2.2 ≠ Kind.setter by decide +kernel) c hc p hp
  obtain ⟨v, hv⟩ : ∃ v, value b r as = some v := by
    rcases as with _ | ⟨x, _ | ⟨y, _ | ⟨z, as⟩⟩⟩ <;> cases b <;>
      first
        | exact ⟨_, rfl⟩
        | (exfalso; simp [Fits, Body.kind] at hf; done)
        | (exfalso; exact hk rfl)
  refine ⟨v, hv, (C57_ast_partial b r v as ?_).2 ⟨hf, hv⟩⟩
  rintro i f rfl
  exact absurd rfl hk

/-- The one primitive that works on the stack itself takes its arguments from it, and leaves the receiver. -/
theorem C57_to_by_do : Sound (.generic (fun r _ => r) toByDo : Body V) (arity "to:by:do:") := by
  intro r as below h
  rw [show arity "to:by:do:" = 4 by decide +kernel] at h
  rcases as with _ | ⟨x, _ | ⟨y, _ | ⟨z, _ | ⟨u, as⟩⟩⟩⟩ <;> simp at h
  rfl

/-- The same in the bytecode interpreter. -/
theorem C57_primitives_bc_partial (c : String × List (Side × String × Kind)) (hc : c ∈ known .bc) (p : Side × String × Kind) (hp : p ∈ c.2)
    (hu : (c.1, p.2.1) ∉ unreachable .bc) (b : Body V) (hb : b.kind = p.2.2) (hg : b.kind = .generic → b = .generic (fun r _ => r) toByDo)
    (r : V) (as below : List V) (ha : as.length + 1 = arity p.2.1) :
    ∃ v, value b r as = some v ∧ sendBc b (as.length + 1) (as.reverse ++ r :: below) = .ok (v :: below) := by
  have hf := (C57_primitives .bc c hc p hp).2 hu
  rw [← hb, ← ha] at hf
  have hk : b.kind ≠ .setter := by
    rw [hb]
    exact (show ∀ c ∈ known .bc, ∀ p ∈ c.2, p.2.2 ≠ Kind.setter by decide +kernel) c hc p hp
  refine C57_bc_partial b r as below hf ?_
  cases b with
  | setter i f => exact absurd rfl hk
  | generic f g =>
    obtain h : Body.generic f g = .generic (fun r _ => r) toByDo := hg rfl
    have hsel : p.2.1 = "to:by:do:" :=
      (show ∀ c ∈ known .bc, ∀ p ∈ c.2, p.2.2 = Kind.generic → (c.1, p.2.1) ∉ unreachable .bc → p.2.1 = "to:by:do:" by decide +kernel) c hc p hp hb.symm hu
    rw [h, ha, hsel]
    exact C57_to_by_do
  | _ => trivial

example : (Side.inst, "at:put:", Kind.ternary) ∈ arrayPrims ∧ arity "at:put:" = 3 ∧ ("Array", "at:put:") ∉ unreachable .ast := by decide +kernel

/-- `restart` of blocks, and in the AST interpreter `invokeOn:with:` of methods and of primitives, which are of the class `Primitive`, cannot be invoked: neither by a send nor by `perform:` or
`perform:withArguments:`. -/
theorem C57_violated_primitives (f : V → List V → V) (g : List V → List V) (r : V) (as below : List V) (h : as.length ≤ 2) :
    sendAst (.generic f g) r as = .error .attribute ∧ sendBc (.generic f g) (as.length + 1) (as.reverse ++ r :: below) = .error .attribute ∧
      performWith (.generic f g) r as = .error .attribute ∧ (as = [] → perform (.generic f g) r = .error .attribute) := by
  rcases as with _ | ⟨x, _ | ⟨y, _ | ⟨z, as⟩⟩⟩
  · exact ⟨rfl, rfl, rfl, fun _ => rfl⟩
  · exact ⟨rfl, rfl, rfl, fun h => nomatch h⟩
  · exact ⟨rfl, rfl, rfl, fun h => nomatch h⟩
  · simp at h

/-- Each unreachable primitive is of this class, and has at most two arguments. -/
theorem C57_unreachable (e : Engine) : ∀ c ∈ known e, ∀ p ∈ c.2, (c.1, p.2.1) ∈ unreachable e → p.2.2 = .generic ∧ arity p.2.1 ≤ 3 := by
  cases e <;> decide +kernel

example : ∃ c ∈ known .ast, ∃ p ∈ c.2, (c.1, p.2.1) ∈ unreachable .ast ∧ p.2.1 = "invokeOn:with:" :=
  ⟨("Method", invokablePrims ++ onlyInvokable .ast), by decide +kernel, (.inst, "invokeOn:with:", .generic), by decide +kernel, by decide +kernel, rfl⟩

/-! ## Where it fails -/

/-- A method with three or more arguments that only answers a literal, a global or a field cannot be invoked in the AST interpreter. -/
theorem C57_violated_reader_ast (f : V → V) (r x y z : V) (as : List V) : sendAst (.reader f) r (x :: y :: z :: as) = .error .attribute := rfl

/-- In the bytecode interpreter a setter with three arguments stores the argument before the one it is to store. -/
theorem C57_violated_setter : ∃ (b : Body (Int × Int)) (r x y z : Int × Int), Sound b 4 ∧ value b r [x, y, z] = some (0, 2) ∧ sendBc b 4 [z, y, x, r] = .ok [(0, 1)] :=
  ⟨.setter 2 fun r a => (r.1, a.1), (0, 0), (1, 0), (2, 0), (3, 0), ⟨by decide, by decide⟩, rfl, rfl⟩

/-- A method declared as a primitive that the VM does not have: with up to two arguments the send fails; with more, the AST interpreter answers Python's `None`, which is not a SOM object, and
the bytecode interpreter leaves receiver and arguments on the stack, the last argument as the answer. -/
theorem C57_violated_empty (none r : V) (as below : List V) :
    (as.length ≤ 2 → sendAst (emptyPrimitive none) r as = .error .attribute ∧ sendBc (emptyPrimitive none) (as.length + 1) (as.reverse ++ r :: below) = .error .attribute) ∧
      (3 ≤ as.length → sendAst (emptyPrimitive none) r as = .ok none ∧
        sendBc (emptyPrimitive none) (as.length + 1) (as.reverse ++ r :: below) = .ok (as.reverse ++ r :: below)) := by
  rcases as with _ | ⟨x, _ | ⟨y, _ | ⟨z, as⟩⟩⟩
  · exact ⟨fun _ => ⟨rfl, rfl⟩, fun h => absurd h (by simp)⟩
  · exact ⟨fun _ => ⟨rfl, rfl⟩, fun h => absurd h (by simp)⟩
  · exact ⟨fun _ => ⟨rfl, rfl⟩, fun h => absurd h (by simp)⟩
  · refine ⟨fun h => absurd h (by simp), fun _ => ⟨rfl, ?_⟩⟩
    simp [sendBc, emptyPrimitive, invokeN]

/-! ## perform: -/

/-- `perform:` and `perform:withArguments:` do what the direct send in the AST interpreter does, with up to two arguments, and fail with more. -/
theorem C57_perform (b : Body V) (r : V) (as : List V) :
    perform b r = sendAst b r [] ∧ performWith b r as = if as.length ≤ 2 then sendAst b r as else .error .other := by
  rcases as with _ | ⟨x, _ | ⟨y, _ | ⟨z, as⟩⟩⟩ <;> exact ⟨rfl, by simp [performWith, sendAst]⟩

/-! ## Blocks -/

/-- **C57** for blocks: a block with up to two parameters, sent `value`, `value:` or `value:with:` with that many arguments, runs its code with the block and the arguments; with another number
of arguments it does not understand the message. -/
theorem C57_block_partial (m : Body V) (hm : m.kind = .method ∨ m.kind = .reader) (numArgs : Nat) (h1 : 1 ≤ numArgs) (h3 : numArgs ≤ 3) (r : V) (as : List V) :
    sendValue numArgs m r as = .ok (if numArgs = as.length + 1 then value m r as else none) := by
  obtain rfl | rfl | rfl : numArgs = 1 ∨ numArgs = 2 ∨ numArgs = 3 := by omega
  all_goals
    rcases as with _ | ⟨x, _ | ⟨y, _ | ⟨z, as⟩⟩⟩ <;> cases m <;>
      first
        | rfl
        | (exfalso; simp [Body.kind] at hm; done)
        | (simp [sendValue, blockClass]; rfl)

/-- A block with three or more parameters has no class: whatever is sent to it fails with an `IndexError`. -/
theorem C57_violated_block (m : Body V) (numArgs : Nat) (h : 4 ≤ numArgs) (r : V) (as : List V) : sendValue numArgs m r as = .error .index := by
  have : [0, 1, 2, 3][numArgs]? = none := by rw [List.getElem?_eq_none_iff]; exact h
  simp only [sendValue, blockClass, this]
  rfl

example : sendValue 3 digits 0 [4, 2] = .ok (some 42) ∧ sendValue 2 digits 0 [4, 2] = .ok none ∧ sendValue 4 digits 0 [1, 2, 3] = .error .index := ⟨rfl, rfl, rfl⟩

end PySOM.Inv

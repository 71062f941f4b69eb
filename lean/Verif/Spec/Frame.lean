import Verif.Model.Frame
/-!
# Specification of storage for variables (C26, C27)
-/
set_option autoImplicit false
namespace PySOM.Frame.Spec
open PySOM PySOM.Frame

/-- The places of all variables but the receiver: captured or not, and index. -/
def places (args locals : List Bool) (m : Layout) : List (Bool × Nat) :=
  (args.tail.zip m.argIdx.tail) ++ (locals.zip m.localIdx)

/-- Variables have separate places within the allocated storage, away from the places 0 and 1, which hold the context and
the receiver (in the frame), and the on-stack marker and the receiver (in the context).  No storage is wasted. -/
structure Separate (args locals : List Bool) (ctx : Bool) (m : Layout) : Prop where
  all_args : m.argIdx.length = args.length
  all_locals : m.localIdx.length = locals.length
  distinct : (places args locals m).Nodup
  inside : ∀ p ∈ places args locals m, 2 ≤ p.2 ∧ p.2 < (if p.1 then m.sizeInner else m.sizeFrame)
  receiver : m.argIdx.head? = some 1
  frame_size : m.sizeFrame = 2 + (args.tail ++ locals).count false
  inner_size : m.sizeInner = (if ctx ∨ true ∈ args ++ locals then 2 + (args.tail ++ locals).count true else 0)

/-- A fresh activation of a method with the given flags and layout: every argument has its value, every local is nil, the
receiver is where code looks for it, and a context is marked as being on the stack. -/
structure Fresh {V : Type} (nil tru rcvr : V) (args : List V) (argFlags localFlags : List Bool) (m : Layout) (f : Fr V) : Prop where
  arguments : ∀ (i : Nat) (v : V) (c : Bool) (idx : Nat), args[i]? = some v → argFlags[i + 1]? = some c → m.argIdx[i + 1]? = some idx →
    readVar f c idx = .ok v
  locals : ∀ (i : Nat) (c : Bool) (idx : Nat), localFlags[i]? = some c → m.localIdx[i]? = some idx → readVar f c idx = .ok nil
  self_frame : readVar f false 1 = .ok rcvr
  size : f.slots.length = m.sizeFrame
  no_context : m.sizeInner = 0 → f.inner = none
  context : 0 < m.sizeInner → ∃ l, f.inner = some l ∧ l.length = m.sizeInner ∧ l[0]? = some tru ∧ l[1]? = some rcvr

end PySOM.Frame.Spec

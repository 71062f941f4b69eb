import Verif.Spec.Source
/-!
# What conditionals mean, as messages

The library's table: what sending a conditional to true, false or nil does, given what evaluating the argument blocks does.  `other` is
what objects do that the library says nothing about (they may define the message, or not understand it).
-/
set_option autoImplicit false
namespace PySOM.Cond.Spec
open PySOM PySOM.BC
variable {W E : Type}

/-- One block. -/
def send1 (sel : Sel) (v : Val) (block other : Src.Rel W E) : Src.Rel W E :=
  match String.ofList sel, v with
  | "ifTrue:", .tru => block
  | "ifTrue:", .fls => Src.pure .nil
  | "ifFalse:", .tru => Src.pure .nil
  | "ifFalse:", .fls => block
  | "and:", .tru => block
  | "and:", .fls => Src.pure .fls
  | "&&", .tru => block
  | "&&", .fls => Src.pure .fls
  | "or:", .tru => Src.pure .tru
  | "or:", .fls => block
  | "||", .tru => Src.pure .tru
  | "||", .fls => block
  | "ifNil:", .nil => block
  | "ifNil:", v => Src.pure v
  | "ifNotNil:", .nil => Src.pure .nil
  | "ifNotNil:", _ => block
  | _, _ => other

/-- Two blocks. -/
def send2 (sel : Sel) (v : Val) (a b other : Src.Rel W E) : Src.Rel W E :=
  match String.ofList sel, v with
  | "ifTrue:ifFalse:", .tru => a
  | "ifTrue:ifFalse:", .fls => b
  | "ifFalse:ifTrue:", .tru => b
  | "ifFalse:ifTrue:", .fls => a
  | "ifNil:ifNotNil:", .nil => a
  | "ifNil:ifNotNil:", _ => b
  | "ifNotNil:ifNil:", .nil => b
  | "ifNotNil:ifNil:", _ => a
  | _, _ => other

/-- The selectors that only Booleans understand. -/
def boolean (sel : Sel) : Bool :=
  ["ifTrue:", "ifFalse:", "and:", "&&", "or:", "||", "ifTrue:ifFalse:", "ifFalse:ifTrue:"].contains (String.ofList sel)

/-- The receiver has a value the library defines the message for. -/
def Understands (sel : Sel) (r : Src.Rel W E) : Prop := boolean sel = true → ∀ w v w', r w (.val v) w' → v = .tru ∨ v = .fls

/-- The meaning of a loop, as a message to a block: while the condition answers `want`, evaluate the body; anything else ends the
loop, which answers nil. -/
inductive Loop (want : Val) (cond body : Src.Rel W E) : Src.Rel W E where
  | exit (w w1 : W) (v : Val) (hc : cond w (.val v) w1) (hs : v ≠ want) : Loop want cond body w (.val .nil) w1
  | condStop (w w1 : W) (r : Src.Res E) (hc : cond w r w1) (hr : r.stops) : Loop want cond body w r w1
  | bodyStop (w w1 w2 : W) (r : Src.Res E) (hc : cond w (.val want) w1) (hb : body w1 r w2) (hr : r.stops) : Loop want cond body w r w2
  | next (w w1 w2 w3 : W) (u : Val) (r : Src.Res E) (hc : cond w (.val want) w1) (hb : body w1 (.val u) w2)
      (hn : Loop want cond body w2 r w3) : Loop want cond body w r w3

end PySOM.Cond.Spec

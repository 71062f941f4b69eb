import Verif.Model.Scope
/-!
# Specification of lexical scoping (C28)

The textbook semantics: an activation has its variables by name and a pointer to the activation in which its block was created.
A name is looked up in the current activation, then in the one around it, and so on.
-/
set_option autoImplicit false
namespace PySOM.Scope.Spec
open PySOM PySOM.Scope

/-- Objects: a block knows the activation in which it was created. -/
inductive SVal where
  | obj (n : Nat)
  | block (scope : Nat) (parent : Nat)
  deriving DecidableEq, Repr

structure SAct where
  scope : Nat
  parent : Option Nat
  argv : List SVal
  locv : List SVal
  deriving DecidableEq, Repr

/-- The activation that declares the name, seen from activation `a`, the kind of declaration, and its position. -/
def resolve (sc : List Scope) (acts : List SAct) (a : Nat) (x : String) : Option (Nat × Bool × Nat) :=
  match acts[a]? with
  | none => none
  | some act => match sc[act.scope]? with
    | none => none
    | some S => match S.locals.idxOf? x with
      | some i => some (a, false, i)
      | none => match S.args.idxOf? x with
        | some i => some (a, true, i)
        | none => match act.parent with
          | none => none
          | some p => if p < a then resolve sc acts p x else none
termination_by a

def read (sc : List Scope) (acts : List SAct) (a : Nat) (x : String) : Option SVal :=
  match resolve sc acts a x with
  | none => none
  | some (b, isArg, i) => match acts[b]? with
    | none => none
    | some act => if isArg then act.argv[i]? else act.locv[i]?

def write (sc : List Scope) (acts : List SAct) (a : Nat) (x : String) (v : SVal) : Option (List SAct) :=
  match resolve sc acts a x with
  | none => none
  | some (b, isArg, i) => match acts[b]? with
    | none => none
    | some act => some (acts.set b (if isArg then { act with argv := act.argv.set i v } else { act with locv := act.locv.set i v }))

end PySOM.Scope.Spec

namespace PySOM.Scope
open PySOM PySOM.Frame

/-- What a running program does with variables, blocks and calls.  Values are named by the position in the list of all values
produced so far, activations by the order in which they began. -/
inductive Op where
  | const (n : Nat)
  | call (s : Nat) (rcvr : Nat) (args : List Nat)
  | callBlock (b : Nat) (args : List Nat)
  | mkBlock (a t : Nat)
  | read (a : Nat) (x : String)
  | write (a : Nat) (x : String) (r : Nat)

namespace Spec

structure St where
  acts : List SAct
  regs : List SVal

/-- All arguments, if they exist. -/
def pick {α : Type} (regs : List α) : List Nat → Option (List α)
  | [] => some []
  | r :: rs => match regs[r]?, pick regs rs with
    | some v, some vs => some (v :: vs)
    | _, _ => none

/-- One step of the textbook semantics; `none` if the program cannot do this: a wrong number of arguments, the creation of a block
elsewhere than in an activation of the scope around it, the use of a name which is not used there in the source, or an
assignment to the receiver. -/
def step (P : Prog) (st : St) : Op → Option St
  | .const n => some { st with regs := st.regs ++ [.obj n] }
  | .call s r rs => match P.scopes[s]?, st.regs[r]?, pick st.regs rs with
    | some S, some v, some vs =>
      if S.outer = none ∧ vs.length + 1 = S.args.length then
        some { st with acts := st.acts ++ [⟨s, none, v :: vs, List.replicate S.locals.length (.obj 0)⟩] }
      else none
    | _, _, _ => none
  | .callBlock r rs => match st.regs[r]?, pick st.regs rs with
    | some (.block t p), some vs => match P.scopes[t]? with
      | some S =>
        if vs.length + 1 = S.args.length then
          some { st with acts := st.acts ++ [⟨t, some p, .block t p :: vs, List.replicate S.locals.length (.obj 0)⟩] }
        else none
      | none => none
    | _, _ => none
  | .mkBlock a t => match st.acts[a]?, P.scopes[t]? with
    | some act, some T => if T.outer = some act.scope then some { st with regs := st.regs ++ [.block t a] } else none
    | _, _ => none
  | .read a x => match st.acts[a]? with
    | some act => if (act.scope, x) ∈ P.uses then
        match read P.scopes st.acts a x with
        | some v => some { st with regs := st.regs ++ [v] }
        | none => none
      else none
    | none => none
  | .write a x r => match st.acts[a]?, st.regs[r]? with
    | some act, some v => if (act.scope, x) ∈ P.uses then
        match resolve P.scopes st.acts a x with
        | some (_, true, 0) => none
        | _ => match write P.scopes st.acts a x v with
          | some acts => some { st with acts := acts }
          | none => none
      else none
    | _, _ => none

def run (P : Prog) : St → List Op → Option St
  | st, [] => some st
  | st, op :: ops => match step P st op with
    | some st' => run P st' ops
    | none => none

end Spec

/-! ## The same program in the implementation -/

structure ISt where
  acts : List Act
  regs : List Val

/-- The access functions of one of the two interpreters. -/
structure Access where
  read : Prog → List Act → Act → Found → Except Err Val
  write : Prog → List Act → Nat → Act → Found → Val → Except Err (List Act)

/-- One step of the implementation; `none` is any failure. -/
def istep (X : Access) (P : Prog) (st : ISt) : Op → Option ISt
  | .const n => some { st with regs := st.regs ++ [.obj n] }
  | .call s r rs => match P.scopes[s]?, st.regs[r]?, Spec.pick st.regs rs with
    | some S, some v, some vs => match layoutOf P s S with
      | .ok m => match activateAst nilV trueV v vs m with
        | .ok f => some { st with acts := st.acts ++ [⟨s, f⟩] }
        | .error _ => none
      | .error _ => none
    | _, _, _ => none
  | .callBlock r rs => match st.regs[r]?, Spec.pick st.regs rs with
    | some (.block t o), some vs => match P.scopes[t]? with
      | some S => match layoutOf P t S with
        | .ok m => match activateAst nilV trueV (.block t o) vs m with
          | .ok f => some { st with acts := st.acts ++ [⟨t, f⟩] }
          | .error _ => none
        | .error _ => none
      | none => none
    | _, _ => none
  | .mkBlock a t => match st.acts[a]? with
    | some act => some { st with regs := st.regs ++ [mkBlock P a act t] }
    | none => none
  | .read a x => match st.acts[a]? with
    | some act => match findVar (chain P.scopes act.scope) x 0 with
      | some f => match X.read P st.acts act f with
        | .ok v => some { st with regs := st.regs ++ [v] }
        | .error _ => none
      | none => none
    | none => none
  | .write a x r => match st.acts[a]?, st.regs[r]? with
    | some act, some v => match findVar (chain P.scopes act.scope) x 0 with
      | some f => match X.write P st.acts a act f v with
        | .ok acts => some { st with acts := acts }
        | .error _ => none
      | none => none
    | _, _ => none

def irun (X : Access) (P : Prog) : ISt → List Op → Option ISt
  | st, [] => some st
  | st, op :: ops => match istep X P st op with
    | some st' => irun X P st' ops
    | none => none

/-- The scopes of a program as the parser builds them: the receiver is always there, and a scope is opened after the one around
it. -/
def WF (P : Prog) : Prop := ∀ (s : Nat) S, P.scopes[s]? = some S → S.args ≠ [] ∧ ∀ o, S.outer = some o → o < s

end PySOM.Scope

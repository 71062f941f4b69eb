import Verif.Model.Base
/-!
# Model of `src/som/vmobjects/symbol.py` and `src/som/vm/symbols.py`
-/
set_option autoImplicit false
namespace PySOM.Sym

abbrev Str := List Char

/-- The characters accepted by `Symbol._is_binary_signature` (`symbol.py:33-49`). -/
def isOperatorChar (c : Char) : Bool :=
  c == '~' || c == '&' || c == '|' || c == '*' || c == '/' || c == '@' || c == '+' || c == '-' || c == '=' || c == '>' ||
  c == '<' || c == ',' || c == '%' || c == '\\'

/-- `Symbol._is_binary_signature` (`symbol.py:31-51`): the loop over all characters. -/
def isBinarySignature : Str → Bool
  | [] => true
  | c :: cs => if isOperatorChar c then isBinarySignature cs else false

/-- The colon-counting loop (`symbol.py:18-23`). -/
def countColons (s : Str) (n : Nat) : Nat :=
  match s with
  | [] => n
  | c :: cs => countColons cs (if c = ':' then n + 1 else n)

/-- `Symbol._determine_number_of_signature_arguments` (`symbol.py:13-26`). -/
def numberOfSignatureArguments (s : Str) : Nat := if isBinarySignature s then 2 else countColons s 0 + 1

/-- The interning state: `_symbol_table` (`symbols.py:5`) and the strings of all symbol objects created, a symbol object
being its index. -/
structure State where
  table : List (Str × Nat)
  objects : List Str
  deriving Repr, DecidableEq

/-- Before the module-level definitions run. -/
def State.init : State := ⟨[], []⟩

/-- `symbol_for` (`symbols.py:8-18`). -/
def symbolFor (st : State) (s : Str) : Nat × State :=
  match List.lookup s st.table with
  | some r => (r, st)
  | none => (st.objects.length, ⟨(s, st.objects.length) :: st.table, st.objects ++ [s]⟩)

/-- A sequence of internings. -/
def internAll (st : State) : List Str → List Nat × State
  | [] => ([], st)
  | s :: ss => let r := symbolFor st s; let r' := internAll r.2 ss; (r.1 :: r'.1, r'.2)

/-- The embedded string of a symbol (`String.get_embedded_string`, used by `asString`, `symbol_primitives.py:7-8`). -/
def stringOf (st : State) (sym : Nat) : Option Str := st.objects[sym]?

end PySOM.Sym

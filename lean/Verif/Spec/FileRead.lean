import Verif.Model.FileRead
/-!
# Specification: open files

`Gives read holds`: whenever `holds s t`, the file in the state `s` still has the text `t` to give.  A read answers a beginning of it, of any length that the system likes up to what was asked for, but nothing only at the end; reads ask for 8192 to 4194304 characters.
-/
set_option autoImplicit false
namespace PySOM.FileRead
open PySOM.Str

/-- Reading `n` characters when `t` is left gives a part of it. -/
def Part {σ : Type} (read : Read σ) (holds : σ → Str → Prop) (s : σ) (t : Str) (n : Nat) : Prop :=
  ∃ (part rest : Str) (s' : σ), read s n = (.ok part, s') ∧ t = part ++ rest ∧ part.length ≤ n ∧ (part = [] → t = []) ∧ holds s' rest

/-- A file without errors. -/
def Gives {σ : Type} (read : Read σ) (holds : σ → Str → Prop) : Prop :=
  ∀ (s : σ) (t : Str), holds s t → ∀ n, 8192 ≤ n → n ≤ 4194304 → Part read holds s t n

/-- A file where reading may fail at any time. -/
def MayFail {σ : Type} (read : Read σ) (holds : σ → Str → Prop) : Prop :=
  ∀ (s : σ) (t : Str), holds s t → ∀ n, 8192 ≤ n → n ≤ 4194304 → Part read holds s t n ∨ (read s n).1 = .error .os ∨ (read s n).1 = .error .other

end PySOM.FileRead

import Verif.Model.Strings
/-!
# Printing: from texts to bytes
-/
set_option autoImplicit false
namespace PySOM.Output
open PySOM.Str

/-- `encode_to_bytes` (`rlib/string_stream.py:23-24`), for Python 3: UTF-8.  Texts with lone surrogates, for which Python raises an exception, are left out: they are no lists of `Char`. -/
def encodeToBytes (s : Str) : List UInt8 := s.flatMap String.utf8EncodeChar

/-- The two files that are written to: descriptors 1 and 2. -/
inductive Fd where
  | out
  | err
  deriving DecidableEq, Repr

/-- What has arrived in the two files, and what the system will do with the next writes: `some k`, it takes `k` bytes (or all, if there are fewer); `none`, the write fails; when the list is at its end, it takes all. -/
structure Sink where
  out : List UInt8
  err : List UInt8
  will : List (Option Nat)
  deriving DecidableEq, Repr

/-- More bytes in one of the files. -/
def Sink.add (k : Sink) (fd : Fd) (bs : List UInt8) : Sink :=
  match fd with
  | .out => { k with out := k.out ++ bs }
  | .err => { k with err := k.err ++ bs }

/-- `os.write`: the number of bytes that were taken, or `OSError`. -/
def osWrite (fd : Fd) (bs : List UInt8) (k : Sink) : Option Nat × Sink :=
  match k.will with
  | [] => (some bs.length, k.add fd bs)
  | none :: w => (none, { k with will := w })
  | some n :: w => (some (min n bs.length), ({ k with will := w } : Sink).add fd (bs.take n))

/-- The four functions of `universe.py:487-500`; that the number of bytes is not looked at is why only the failure is answered. -/
def errorPrint (msg : Str) (k : Sink) : Bool × Sink := let r := osWrite .err (encodeToBytes msg) k; (r.1.isSome, r.2)
def errorPrintln (msg : Str) (k : Sink) : Bool × Sink := let r := osWrite .err (encodeToBytes (msg ++ ['\n'])) k; (r.1.isSome, r.2)
def stdPrint (msg : Str) (k : Sink) : Bool × Sink := let r := osWrite .out (encodeToBytes msg) k; (r.1.isSome, r.2)
def stdPrintln (msg : Str) (k : Sink) : Bool × Sink := let r := osWrite .out (encodeToBytes (msg ++ ['\n'])) k; (r.1.isSome, r.2)

/-- The messages to `system` that print. -/
inductive Msg where
  | printString (t : Str)
  | printNewline
  | errorPrint (t : Str)
  | errorPrintln (t : Str)
  deriving DecidableEq, Repr

/-- `_print_string`, `_print_newline`, `_error_print`, `_error_println` (`system_primitives.py:38-55`), for strings and symbols; `false`: an exception. -/
def send : Msg → Sink → Bool × Sink
  | .printString t => stdPrint t
  | .printNewline => stdPrintln []
  | .errorPrint t => Output.errorPrint t
  | .errorPrintln t => Output.errorPrintln t

/-- The messages one after the other, until an exception. -/
def sendAll : List Msg → Sink → Bool × Sink
  | [], k => (true, k)
  | m :: ms, k => match send m k with
    | (true, k) => sendAll ms k
    | (false, k) => (false, k)

end PySOM.Output

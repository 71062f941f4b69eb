import Verif.Model.Output
/-!
# Specification: what is printed where
-/
set_option autoImplicit false
namespace PySOM.Output
open PySOM.Str

/-- The text that a message prints to a file. -/
def Msg.text : Fd → Msg → Str
  | .out, .printString t => t
  | .out, .printNewline => ['\n']
  | .err, .errorPrint t => t
  | .err, .errorPrintln t => t ++ ['\n']
  | _, _ => []

/-- All that messages print to a file. -/
def printed (fd : Fd) (ms : List Msg) : Str := ms.flatMap (Msg.text fd)

/-- The bytes in a file. -/
def Sink.file (k : Sink) : Fd → List UInt8
  | .out => k.out
  | .err => k.err

end PySOM.Output

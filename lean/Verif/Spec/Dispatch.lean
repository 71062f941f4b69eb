import Verif.Model.Dispatch
import Verif.Lemmas.ArrayHeap
/-!
# What a message send has to do

Look the selector up in the class of the receiver; call the method found, with the receiver and the arguments.  If there is none, send
`doesNotUnderstand:arguments:` to the receiver with the selector and an array of exactly the arguments.
-/
set_option autoImplicit false
namespace PySOM.Disp.Spec
open PySOM PySOM.Disp

/-- The operations make an array with exactly these elements. -/
def Makes (ops : List Arr.Op) (args : List Arr.Val) : Prop := (Arr.Heap.run {} ops).1.abs[0]? = some args

def IsSend (look : Cid → Sel → Option Meth) (c : Cid) (s : Sel) (o : Oid) (args : List Arr.Val) (call : Call) : Prop :=
  match look c s with
  | some m => call = .invoke m o args
  | none => ∃ ops, call = .dnu o s ops ∧ Makes ops args

/-- The objects have the classes `cls`: every object has a layout of its class, and so has its class. -/
def OK (cls : Oid → Cid) (w : World) : Prop :=
  ∀ o, w.objs o < w.layouts.length ∧ w.cls (w.objs o) = cls o ∧ w.cur (cls o) < w.layouts.length ∧ w.cls (w.cur (cls o)) = cls o

end PySOM.Disp.Spec

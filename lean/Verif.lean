import Verif.Props.Array
import Verif.Props.Ast
import Verif.Props.Whole
import Verif.Props.Numeric
import Verif.Props.Heap
import Verif.Props.Class
import Verif.Props.Symbols
import Verif.Props.Globals
import Verif.Props.Strings
import Verif.Props.Object
import Verif.Props.Loops
import Verif.Props.Lexer
import Verif.Props.Frame
import Verif.Props.Scope
import Verif.Props.Jumps
import Verif.Props.Compile
import Verif.Props.Source
import Verif.Props.Cond
import Verif.Props.Dispatch
import Verif.Props.Literal
import Verif.Props.Trivial
import Verif.Props.TrivialTrees
import Verif.Props.Nlr
import Verif.Props.Parser
import Verif.Props.Quick
import Verif.Props.Boolean
import Verif.Lemmas.InlineMeth
import Verif.Lemmas.Access
import Verif.Props.Inline
import Verif.Props.Elab
import Verif.Props.Engines
import Verif.Props.Position
import Verif.Props.Site
import Verif.Props.Universe
import Verif.Props.Invoke
import Verif.Props.ParserClass
import Verif.Lemmas.AstAdapt
import Verif.Props.Args
import Verif.Props.Main
import Verif.Props.FileRead
import Verif.Props.Execute
import Verif.Props.Output
import Verif.Props.Clock
import Verif.Props.Shell
import Verif.Props.Closure
import Verif.Props.Disasm
import Verif.Props.Machine
import Verif.Props.Returns
import Verif.Props.Sends
import Verif.Props.Reference
import Verif.Props.Super
import Verif.Props.Prims
import Verif.Props.ClassFiles
import Verif.Props.Texts
import Verif.Props.Room
import Verif.Props.Doubles
import Verif.Props.Nodes
import Verif.Props.DoubleLoops
import Verif.Props.Lasting
import Verif.Props.PrimData
import Verif.Props.PrimNumbers
import Verif.Spec.PrimFill
import Verif.Props.PrimFill
import Verif.Props.PrimNames
import Verif.Props.PrimMessages
import Verif.Props.PrimDoubles
import Verif.Props.Wording
import Verif.Props.Reflect
import Verif.Props.Hash

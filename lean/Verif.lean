import Verif.Model.CInt
import Verif.Model.Str
import Verif.Model.Opcodes
import Verif.Model.Stack
import Verif.Lemmas.Dict
import Verif.Props.Opcodes
import Verif.Props.Dict
import Verif.Props.Shadow
import Verif.Props.Stack
import Verif.Props.EolConvert
import Verif.Props.SanitizeString
import Verif.Props.Numbers
import Verif.Props.Ifdef
import Verif.Props.File
import Verif.Props.Driver
import Verif.Lemmas.Keep
import Verif.Lemmas.CInt
import Verif.Lemmas.PassInv
import Verif.Lemmas.Heap
import Verif.Lemmas.HeapExpand
import Verif.Lemmas.HeapParse
import Verif.Props.Pass
import Verif.Props.Output
import Verif.Props.Symbols
import Verif.Props.Sections
import Verif.Props.Anon
import Verif.Lemmas.Instr
import Verif.Props.Expr
import Verif.Spec.Encode
import Verif.Spec.Data
import Verif.Lemmas.Stmt
import Verif.Lemmas.Pick
import Verif.Lemmas.Assembled
import Verif.Lemmas.Data
import Verif.Props.Instr
import Verif.Props.Data
import Verif.Lemmas.Fill
import Verif.Lemmas.Load
import Verif.Lemmas.Reserve
import Verif.Props.Fill
import Verif.Spec.Layout
import Verif.Lemmas.Congr
import Verif.Lemmas.Line
import Verif.Lemmas.Layout
import Verif.Props.Layout
import Verif.Props.EndToEnd
import Verif.Lemmas.Draft
import Verif.Spec.Draft
import Verif.Spec.Exec
import Verif.Lemmas.LongBranch
import Verif.Lemmas.Repeat
import Verif.Props.LongBranch
import Verif.Spec.Block
import Verif.Lemmas.BlockState
import Verif.Lemmas.BlockNodes
import Verif.Lemmas.BlockLeaf
import Verif.Lemmas.BlockVar
import Verif.Lemmas.Block
import Verif.Lemmas.BlockBuild
import Verif.Lemmas.Program
import Verif.Lemmas.ForLoop
import Verif.Props.Block
import Verif.Props.Loops
import Verif.Props.Var
import Verif.Props.Macro
import Verif.Props.Print
import Verif.Props.Refs
import Verif.Spec.RegLoop
import Verif.Lemmas.ForReg
import Verif.Props.ForReg
import Verif.Model.Args
import Verif.Spec.Cmd
import Verif.Lemmas.Args
import Verif.Props.Args
import Verif.Spec.Listing
import Verif.Model.Grammar
import Verif.Spec.Grammar
import Verif.Lemmas.Grammar
import Verif.Props.Grammar
import Verif.Model.Lex
import Verif.Spec.Literals
import Verif.Spec.Regex
import Verif.Spec.Lex
import Verif.Lemmas.Numbers
import Verif.Lemmas.Regex
import Verif.Lemmas.Lex
import Verif.Lemmas.Tokens
import Verif.Lemmas.NameRule
import Verif.Lemmas.CondRule
import Verif.Lemmas.Scan
import Verif.Props.Lex
import Verif.Model.Statements
import Verif.Model.Text
import Verif.Spec.Statements
import Verif.Spec.Text
import Verif.Lemmas.Statements
import Verif.Lemmas.NoMacro
import Verif.Lemmas.Text
import Verif.Lemmas.Simulate
import Verif.Props.Statements
import Verif.Props.Text
import Verif.Props.IfdefText
import Verif.Lemmas.LastLabel
import Verif.Lemmas.MacroLocal
import Verif.Props.MacroLocal
import Verif.Props.MacroRun
import Verif.Model.ListFile
import Verif.Spec.ListFile
import Verif.Lemmas.ListFile
import Verif.Props.ListFile
import Verif.Lemmas.ReadBack
import Verif.Props.ReadBack
import Verif.Spec.Rows
import Verif.Props.Relist
import Verif.Model.Include
import Verif.Spec.Include
import Verif.Lemmas.Include
import Verif.Props.Include
import Verif.Model.SymFile
import Verif.Spec.SymFile
import Verif.Lemmas.SymFile
import Verif.Props.SymFile
import Verif.Model.Message
import Verif.Spec.Message
import Verif.Lemmas.Message
import Verif.Props.Message
import Verif.Model.Main
import Verif.Lemmas.Main
import Verif.Props.Main
import Verif.Props.PrintState
import Verif.Lemmas.LoadAddress
import Verif.Props.LoadAddress
import Verif.Model.PtrDict
import Verif.Model.Dispatch
import Verif.Lemmas.PtrDict
import Verif.Props.Dispatch
import Verif.Model.NodeList
import Verif.Props.NodeList
import Verif.Model.Memory
import Verif.Lemmas.Memory
import Verif.Props.Memory
import Verif.Spec.Straight
import Verif.Lemmas.Define
import Verif.Lemmas.Forward
import Verif.Lemmas.Partly
import Verif.Lemmas.Open
import Verif.Lemmas.OpenData
import Verif.Lemmas.Straight
import Verif.Props.Accept

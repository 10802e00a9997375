import Verif.Model.Analyzer
import Verif.Model.Api
import Verif.Model.Base
import Verif.Model.Cbor
import Verif.Model.Compare
import Verif.Model.ConstEval
import Verif.Model.Diagnose
import Verif.Model.Err
import Verif.Model.Failure
import Verif.Model.Input
import Verif.Model.InstructionSet
import Verif.Model.Lexer
import Verif.Model.Location
import Verif.Model.Overload
import Verif.Model.Parser
import Verif.Model.Printing
import Verif.Model.PyModule
import Verif.Model.PyText
import Verif.Model.Regex
import Verif.Model.Semantic
import Verif.Model.SemanticAnalyzer
import Verif.Model.Session
import Verif.Model.SyntacticAnalyzer
import Verif.Model.Syntax
import Verif.Model.Text
import Verif.Model.Types
import Verif.Model.Values
import Verif.Model.Version
import Verif.Model.Wasm
import Verif.Model.World
import Verif.Spec.Again
import Verif.Spec.Alike
import Verif.Spec.Annotated
import Verif.Spec.Api
import Verif.Spec.Ast
import Verif.Spec.Base
import Verif.Spec.Complete
import Verif.Spec.Const
import Verif.Spec.Custom
import Verif.Spec.Each
import Verif.Spec.Expr
import Verif.Spec.Fails
import Verif.Spec.FailsIn
import Verif.Spec.Failure
import Verif.Spec.Grammar
import Verif.Spec.Input
import Verif.Spec.Inside
import Verif.Spec.Instruction
import Verif.Spec.Join
import Verif.Spec.Layout
import Verif.Spec.Legal
import Verif.Spec.Lexer
import Verif.Spec.Lines
import Verif.Spec.Located
import Verif.Spec.Location
import Verif.Spec.Lsp
import Verif.Spec.Move
import Verif.Spec.NotedStops
import Verif.Spec.Operands
import Verif.Spec.Order
import Verif.Spec.Pieces
import Verif.Spec.Place
import Verif.Spec.Plain
import Verif.Spec.Program
import Verif.Spec.Promote
import Verif.Spec.PyModule
import Verif.Spec.PySession
import Verif.Spec.PyText
import Verif.Spec.Register
import Verif.Spec.Rename
import Verif.Spec.Reorder
import Verif.Spec.Reports
import Verif.Spec.Sample
import Verif.Spec.Scope
import Verif.Spec.Sessions
import Verif.Spec.Shuffled
import Verif.Spec.Size
import Verif.Spec.Standard
import Verif.Spec.Stops
import Verif.Spec.Text
import Verif.Spec.Texts
import Verif.Spec.Thinned
import Verif.Spec.Tidy
import Verif.Spec.TypeSpec
import Verif.Spec.Typing
import Verif.Spec.Uniform
import Verif.Spec.Uses
import Verif.Spec.Version
import Verif.Spec.Viable
import Verif.Spec.Witness
import Verif.Spec.World
import Verif.Spec.Written
import Verif.Lemmas.Accept
import Verif.Lemmas.Again
import Verif.Lemmas.Alike
import Verif.Lemmas.Analyze
import Verif.Lemmas.Annotated
import Verif.Lemmas.AppendText
import Verif.Lemmas.Asm
import Verif.Lemmas.Code
import Verif.Lemmas.ConstEval
import Verif.Lemmas.Custom
import Verif.Lemmas.CustomProgram
import Verif.Lemmas.Declare
import Verif.Lemmas.DefaultTables
import Verif.Lemmas.Diagnose
import Verif.Lemmas.DiagnoseProgram
import Verif.Lemmas.Dressed
import Verif.Lemmas.Each
import Verif.Lemmas.ErrLoc
import Verif.Lemmas.Exec
import Verif.Lemmas.Expr
import Verif.Lemmas.Fails
import Verif.Lemmas.FailsIn
import Verif.Lemmas.FailsProgram
import Verif.Lemmas.FailsStmt
import Verif.Lemmas.Fit
import Verif.Lemmas.Frame
import Verif.Lemmas.FrameScopes
import Verif.Lemmas.Gate
import Verif.Lemmas.Independent
import Verif.Lemmas.Input
import Verif.Lemmas.Instr
import Verif.Lemmas.Join
import Verif.Lemmas.Legal
import Verif.Lemmas.LegalStrip
import Verif.Lemmas.Levels
import Verif.Lemmas.Lexer
import Verif.Lemmas.Lines
import Verif.Lemmas.Literals
import Verif.Lemmas.Located
import Verif.Lemmas.Mild
import Verif.Lemmas.Move
import Verif.Lemmas.MoveProgram
import Verif.Lemmas.Names
import Verif.Lemmas.NotedStops
import Verif.Lemmas.Operand
import Verif.Lemmas.Order
import Verif.Lemmas.Params
import Verif.Lemmas.ParserAccept
import Verif.Lemmas.ParserComplete
import Verif.Lemmas.ParserFuel
import Verif.Lemmas.ParserProgram
import Verif.Lemmas.ParserSound
import Verif.Lemmas.Pieces
import Verif.Lemmas.Place
import Verif.Lemmas.PlaceProgram
import Verif.Lemmas.PlaceSyntax
import Verif.Lemmas.PlaceText
import Verif.Lemmas.Plain
import Verif.Lemmas.Program
import Verif.Lemmas.Promote
import Verif.Lemmas.Reach
import Verif.Lemmas.Regex
import Verif.Lemmas.Register
import Verif.Lemmas.Rename
import Verif.Lemmas.RenameParser
import Verif.Lemmas.RenameProgram
import Verif.Lemmas.RenameTree
import Verif.Lemmas.Reorder
import Verif.Lemmas.Reports
import Verif.Lemmas.Size
import Verif.Lemmas.Spelled
import Verif.Lemmas.Standard
import Verif.Lemmas.Stmt
import Verif.Lemmas.Stops
import Verif.Lemmas.Strip
import Verif.Lemmas.StripProgram
import Verif.Lemmas.Syntactic
import Verif.Lemmas.SyntacticProgram
import Verif.Lemmas.SyntacticShape
import Verif.Lemmas.Texts
import Verif.Lemmas.Tidy
import Verif.Lemmas.Trivia
import Verif.Lemmas.Typing
import Verif.Lemmas.Unused
import Verif.Lemmas.Uses
import Verif.Lemmas.Value
import Verif.Lemmas.Viable
import Verif.Lemmas.ViableMoved
import Verif.Lemmas.ViableText
import Verif.Lemmas.Words
import Verif.Lemmas.Written
import Verif.Lemmas.WrittenOnly
import Verif.Lemmas.WrittenProgram
import Verif.Props.Again
import Verif.Props.Alike
import Verif.Props.Annotated
import Verif.Props.Api
import Verif.Props.Append
import Verif.Props.Arithmetic
import Verif.Props.Cbor
import Verif.Props.CborErrors
import Verif.Props.Compare
import Verif.Props.Complete
import Verif.Props.Constants
import Verif.Props.Custom
import Verif.Props.Declare
import Verif.Props.Diagnose
import Verif.Props.Each
import Verif.Props.ErrorLocation
import Verif.Props.Exclusive
import Verif.Props.FailsIn
import Verif.Props.Failure
import Verif.Props.FileName
import Verif.Props.Independent
import Verif.Props.Input
import Verif.Props.Inside
import Verif.Props.InsideBytes
import Verif.Props.Instruction
import Verif.Props.InstructionSet
import Verif.Props.Join
import Verif.Props.Later
import Verif.Props.Layout
import Verif.Props.Legal
import Verif.Props.Lexer
import Verif.Props.Lines
import Verif.Props.Located
import Verif.Props.Location
import Verif.Props.Lsp
import Verif.Props.Messages
import Verif.Props.NotedStops
import Verif.Props.Operands
import Verif.Props.Order
import Verif.Props.OrderIn
import Verif.Props.Parser
import Verif.Props.Pieces
import Verif.Props.Place
import Verif.Props.Plain
import Verif.Props.Positions
import Verif.Props.Printing
import Verif.Props.Program
import Verif.Props.Promote
import Verif.Props.PyModule
import Verif.Props.PySession
import Verif.Props.PyText
import Verif.Props.Redeclare
import Verif.Props.Reference
import Verif.Props.Register
import Verif.Props.Registered
import Verif.Props.Rename
import Verif.Props.Reorder
import Verif.Props.Reports
import Verif.Props.Scope
import Verif.Props.Session
import Verif.Props.Sessions
import Verif.Props.Shuffled
import Verif.Props.Size
import Verif.Props.Standard
import Verif.Props.Stops
import Verif.Props.Syntactic
import Verif.Props.Text
import Verif.Props.Texts
import Verif.Props.Thinned
import Verif.Props.Tidy
import Verif.Props.TypeSpec
import Verif.Props.Typing
import Verif.Props.Undefined
import Verif.Props.Uniform
import Verif.Props.Unused
import Verif.Props.Uses
import Verif.Props.Values
import Verif.Props.Version
import Verif.Props.VersionText
import Verif.Props.Wasm
import Verif.Props.World
import Verif.Props.WorldFails
import Verif.Props.Written
import Verif.Props.WrongPlaces
import Verif.Tests.Unit

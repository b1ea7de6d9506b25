import Verif.Ridl.Lexer
import Verif.Spec.Lexing
import Verif.Ridl.LexerLemmas
import Verif.Ridl.TokenizerLemmas
import Verif.Props.Lexing
import Verif.Ridl.ParserCore
import Verif.Ridl.ParserStates
import Verif.Ridl.Wp
import Verif.Ridl.WpMatch
import Verif.Ridl.ParserTerm
import Verif.Ridl.ParserRun
import Verif.Props.Parser
import Verif.Spec.Parsing
import Verif.Ridl.ValueLemmas
import Verif.Ridl.CommentLemmas
import Verif.Ridl.Post
import Verif.Props.ParserValues
import Verif.Schema.Types
import Verif.Spec.TypeExpr
import Verif.Schema.ExprLemmas
import Verif.Props.TypeExpr
import Verif.Schema.Validate
import Verif.Spec.SchemaValid
import Verif.Schema.ValidateLemmas
import Verif.Props.Validation
import Verif.Ridl.Graph
import Verif.Spec.Graphs
import Verif.Ridl.GraphLemmas
import Verif.Compile.Paths
import Verif.Compile.Compile
import Verif.Spec.Imports
import Verif.Compile.Refine
import Verif.Compile.Clean
import Verif.Compile.DeclareLemmas
import Verif.Compile.Ids
import Verif.Spec.Declarations
import Verif.Compile.Declared
import Verif.Compile.Cycles
import Verif.Ridl.Emit
import Verif.Compile.Stack
import Verif.Spec.Paths
import Verif.Compile.PathLemmas
import Verif.Compile.Members
import Verif.Compile.Fuel
import Verif.Props.Imports
import Verif.Props.Declarations
import Verif.Schema.Filter
import Verif.Spec.Usage
import Verif.Schema.FilterLemmas
import Verif.Props.Filters
import Verif.Schema.BigInt
import Verif.Spec.BigInts
import Verif.Schema.BigIntLemmas
import Verif.Props.BigInts
import Verif.Gen.Strings
import Verif.Gen.Funcs
import Verif.Gen.Generate
import Verif.Gen.Cache
import Verif.Spec.GenFuncs
import Verif.Spec.Generate
import Verif.Spec.Cache
import Verif.Props.GenFuncs
import Verif.Props.Generate
import Verif.Props.Cache
import Verif.Json.Json
import Verif.Json.RoundTrip
import Verif.Rpc.Errors
import Verif.Rpc.Server
import Verif.Rpc.Tables
import Verif.Spec.Rpc
import Verif.Props.Rpc
import Verif.Props.RpcTables
import Verif.Json.SchemaJson
import Verif.Json.SchemaLemmas
import Verif.Spec.SchemaJson
import Verif.Props.SchemaJson
import Verif.Rpc.Stream
import Verif.Spec.Stream
import Verif.Props.Stream
import Verif.Rpc.Chat
import Verif.Props.Chat
import Verif.Spec.Document
import Verif.Ridl.Exec
import Verif.Ridl.ExecValues
import Verif.Ridl.LexRows
import Verif.Ridl.ExecRows
import Verif.Ridl.LexItems
import Verif.Ridl.ExecItems
import Verif.Ridl.ExecDecls
import Verif.Ridl.ExecTypes
import Verif.Ridl.ExecStructs
import Verif.Ridl.ExecServices
import Verif.Ridl.ExecMethods
import Verif.Ridl.ExecAnns
import Verif.Ridl.ExecService
import Verif.Ridl.ExecDocument
import Verif.Props.Document
import Verif.Spec.WellFormed
import Verif.Props.Complete
import Verif.Spec.Compiles
import Verif.Compile.Meaning
import Verif.Compile.MeaningParts
import Verif.Compile.MeaningStages
import Verif.Compile.MeaningDeclare
import Verif.Props.Compiles
import Verif.Gen.Cli
import Verif.Spec.Cli
import Verif.Props.Cli
import Verif.Props.Cli2
import Verif.Gen.Letters
import Verif.Props.Letters
import Verif.Gen.Lists
import Verif.Spec.Lists
import Verif.Props.Lists
import Verif.Spec.JsonText
import Verif.Json.Grammar
import Verif.Props.JsonText
import Verif.Props.FilterValid
import Verif.Spec.Alike
import Verif.Props.Interchange
import Verif.Spec.BigNum
import Verif.Props.BigNum
import Verif.Rpc.Values
import Verif.Rpc.TestTypes
import Verif.Rpc.TestSuite
import Verif.Spec.Values
import Verif.Props.Values
import Verif.Props.Values2
import Verif.Props.TypedCalls
import Verif.Spec.TestSuite
import Verif.Props.TestSuite
import Verif.Spec.Accepts
import Verif.Props.Accepts
import Verif.Props.Accepts2
import Verif.Conform
import Verif.Rpc.Services
import Verif.Spec.Services
import Verif.Props.Services
import Verif.Props.Basics
import Verif.Props.BasicsCalls
import Verif.Props.Trim
import Verif.Rpc.Basics
import Verif.Ts.Js
import Verif.Ts.Client
import Verif.Spec.Ts
import Verif.Props.TsClient
import Verif.Ts.Interop
import Verif.Props.TsGo
import Verif.Props.TsUtf8
import Verif.Props.TsStream
import Verif.Props.TsStreamGo
import Verif.Props.TsTimer
import Verif.Props.TsBig
import Verif.Props.TsServer
import Verif.Props.Locality
import Verif.Props.Versions
import Verif.Props.TestCommand
import Verif.Props.Mirror3
import Verif.Props.JsonSchema
import Verif.Props.WireError
import Verif.Props.ChatPage
import Verif.Props.ChatPageEx
import Verif.Props.TsDecode
import Verif.Props.Frame
import Verif.Props.Uncommented
import Verif.Props.Grammar
import Verif.Props.Cors
import Verif.Props.Written
import Verif.Props.NodeExample
import Verif.Props.ErrorText
import Verif.Props.Aliases
import Verif.Props.Required
import Verif.Props.Version

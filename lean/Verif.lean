import Verif.Basic
import Verif.Model.Parser
import Verif.Model.Lines
import Verif.Model.Dialect
import Verif.Spec.Parse
import Verif.Proofs.Parser
import Verif.Proofs.ParseSpec
import Verif.Proofs.ParseSpec2
import Verif.Proofs.ParserInv
import Verif.Proofs.ParserMisc
import Verif.Proofs.ParseApi
import Verif.Proofs.SpecFacts
import Verif.Props.Parsing
import Verif.Model.CsvDialect
import Verif.Model.Writer
import Verif.Model.Reader
import Verif.Model.DialectHeap
import Verif.Model.DialectOrder
import Verif.Model.FieldLimit
import Verif.Model.Json
import Verif.Proofs.RoundTrip
import Verif.Proofs.Reader
import Verif.Proofs.Json
import Verif.Proofs.WriterApi
import Verif.Proofs.StrOrder
import Verif.Proofs.ReaderObj
import Verif.Props.RoundTrip
import Verif.Props.Dialects
import Verif.Props.ReaderObj
import Verif.Model.Abstraction
import Verif.Model.PatternScore
import Verif.Model.ParserBuffer
import Verif.Model.AbstractionBuffer
import Verif.Proofs.Abstraction
import Verif.Proofs.AbstractionRows
import Verif.Proofs.Counter
import Verif.Proofs.ParserBuffer
import Verif.Proofs.AbstractionBuffer
import Verif.Props.Patterns
import Verif.Props.Buffers
import Verif.Tests.Abstraction
import Verif.Props.Overrides
import Verif.Model.PyEnv
import Verif.Model.Regex
import Verif.Model.Regexes
import Verif.Model.JsonValid
import Verif.Model.TypeDetect
import Verif.Model.TypeCache
import Verif.Spec.Clock
import Verif.Proofs.Regex
import Verif.Proofs.RegexLang
import Verif.Proofs.RegexChars
import Verif.Proofs.TypeDetect
import Verif.Proofs.TypeChars
import Verif.Proofs.TypeCache
import Verif.Proofs.JsonValid
import Verif.Proofs.Clock
import Verif.Props.Types
import Verif.Tests.TypeDetect
import Verif.Model.PySet
import Verif.Model.Potential
import Verif.Model.BreakTies
import Verif.Model.Consistency
import Verif.Model.NormalForm
import Verif.Model.Detect
import Verif.Proofs.Potential
import Verif.Proofs.Masked
import Verif.Proofs.Consistency
import Verif.Proofs.BreakTies
import Verif.Proofs.TieOrder
import Verif.Proofs.Detect
import Verif.Props.Candidates
import Verif.Proofs.CellChars
import Verif.Proofs.DetectErrors
import Verif.Proofs.JsonBomb
import Verif.Proofs.NormalForm
import Verif.Props.Detection
import Verif.Props.Detector
import Verif.Props.NormalForms
import Verif.Model.HasHeader
import Verif.Spec.Header
import Verif.Proofs.HasHeader
import Verif.Props.Header
import Verif.Model.DictIO
import Verif.Proofs.DictIO
import Verif.Props.Dicts
import Verif.Model.World
import Verif.Model.Scans
import Verif.Model.Wrappers
import Verif.Spec.Table
import Verif.Proofs.World
import Verif.Proofs.Tables
import Verif.Props.Wrappers
import Verif.Proofs.Scans
import Verif.Props.Scans
import Verif.Model.Standardize
import Verif.Proofs.Acts
import Verif.Proofs.Standardize
import Verif.Proofs.StandardizeCmd
import Verif.Spec.World
import Verif.Spec.Commands
import Verif.Proofs.StandardizeLive
import Verif.Proofs.LimitMono
import Verif.Proofs.ReadBack
import Verif.Props.Standardize
import Verif.Props.Limits
import Verif.Model.View
import Verif.Props.View
import Verif.Model.Code
import Verif.Spec.PyLiteral
import Verif.Proofs.PyLiteral
import Verif.Props.Code
import Verif.Proofs.PlainTables
import Verif.Proofs.PlainIO
import Verif.Props.PlainTables
import Verif.Spec.Cells
import Verif.Spec.Column
import Verif.Proofs.Numbers
import Verif.Proofs.Urls
import Verif.Proofs.Dates
import Verif.Proofs.CellTypes
import Verif.Proofs.TypeExclusion
import Verif.Proofs.TypeLevel
import Verif.Proofs.TypeDates
import Verif.Proofs.TypeDates2
import Verif.Proofs.TypeNan
import Verif.Props.Cells
import Verif.Spec.Ties
import Verif.Proofs.Ties
import Verif.Props.Ties
import Verif.Spec.JsonGrammar
import Verif.Proofs.JsonGrammar
import Verif.Proofs.JsonType
import Verif.Props.Known
import Verif.Model.Double
import Verif.Proofs.Double
import Verif.Spec.Score
import Verif.Spec.Rows
import Verif.Proofs.RowOrder
import Verif.Props.RowOrder
import Verif.Model.Optional
import Verif.Model.DataFrame
import Verif.Props.DataFrame
import Verif.Spec.QuotedTable
import Verif.Proofs.QuotedTables
import Verif.Proofs.QuotedIO
import Verif.Proofs.Columns
import Verif.Props.QuotedTables
import Verif.Model.Ownership
import Verif.Spec.Ownership
import Verif.Proofs.Ownership
import Verif.Proofs.OwnershipParser
import Verif.Proofs.OwnershipNew
import Verif.Props.Ownership
import Verif.Props.OwnershipPatterns
import Verif.Spec.Newlines
import Verif.Proofs.Newlines
import Verif.Proofs.NewlineRegex
import Verif.Proofs.NewlineDetect
import Verif.Proofs.NewlineCells
import Verif.Props.Newlines
import Verif.Props.Names
import Verif.Spec.Sizes
import Verif.Proofs.Sizes
import Verif.Proofs.AbstractionSize
import Verif.Props.Sizes
import Verif.Spec.Double
import Verif.Proofs.DoubleRange
import Verif.Proofs.ScoreRange
import Verif.Props.Doubles
import Verif.Spec.JsonText
import Verif.Proofs.JsonText
import Verif.Props.JsonText
import Verif.Model.Encodings
import Verif.Model.TypePatterns
import Verif.Props.Encodings
import Verif.Props.FieldNames
import Verif.Props.TypePatterns
import Verif.Tests.Parser
import Verif.Tests.NormalForms
import Verif.Tests.Reader
import Verif.Tests.Detect
import Verif.Tests.Commands
import Verif.Props.DialectSets
import Verif.Model.Verbose
import Verif.Proofs.Verbose
import Verif.Props.Verbose
import Verif.Spec.Rename
import Verif.Proofs.Rename
import Verif.Props.Renaming
import Verif.Spec.DictCalls
import Verif.Proofs.DictCalls
import Verif.Props.DictCalls
import Verif.Spec.Program
import Verif.Props.Program
import Verif.Spec.BlockSizes
import Verif.Proofs.BlockSizes
import Verif.Props.BlockSizes
import Verif.Proofs.SelfLiteral
import Verif.Props.HeaderTables
import Verif.Props.TableCommands
import Verif.Props.Columns
import Verif.Props.StrictMode
import Verif.Model.Runtime
import Verif.Spec.Runtime
import Verif.Props.Runtime
import Verif.Proofs.ConsistencyWins
import Verif.Proofs.KeptDelimiter
import Verif.Proofs.WordTables
import Verif.Props.ConsistencyWins
import Verif.Spec.Consistent
import Verif.Proofs.MaskedAbstraction
import Verif.Props.QuotedPatterns
import Verif.Proofs.QuoteUnknown
import Verif.Spec.ConsistentQuoted
import Verif.Proofs.QuotedConsistency
import Verif.Props.QuotedConsistency
import Verif.Model.Backtrack
import Verif.Proofs.Backtrack
import Verif.Proofs.BacktrackBounds
import Verif.Proofs.BacktrackNested
import Verif.Props.Backtrack
import Verif.Spec.NormalForms
import Verif.Proofs.Forms
import Verif.Props.Forms
import Verif.Model.CommandLine
import Verif.Spec.CommandLine
import Verif.Proofs.CommandLine
import Verif.Proofs.CommandLineRecords
import Verif.Props.CommandLine
import Verif.Proofs.FormLengths
import Verif.Model.Streams
import Verif.Spec.Streams
import Verif.Proofs.Streams
import Verif.Props.Streams
import Verif.Model.Chunked
import Verif.Spec.Chunked
import Verif.Proofs.Chunked
import Verif.Proofs.ChunkedCmd
import Verif.Proofs.ChunkedLive
import Verif.Props.Chunked
import Verif.Model.Utf8
import Verif.Spec.Utf8
import Verif.Proofs.Utf8
import Verif.Props.Utf8
import Verif.Model.ChunkedDicts
import Verif.Proofs.ChunkedDicts
import Verif.Props.ChunkedDicts
import Verif.Model.ChunkedRun
import Verif.Spec.ChunkedRun
import Verif.Proofs.ChunkedRun
import Verif.Props.ChunkedRun
import Verif.Model.Terminal
import Verif.Spec.Terminal
import Verif.Proofs.Terminal
import Verif.Props.Terminal
import Verif.Model.VerboseTerminal
import Verif.Spec.VerboseTerminal
import Verif.Proofs.VerboseTerminal
import Verif.Props.VerboseTerminal
import Verif.Spec.ExactFit
import Verif.Proofs.ExactFit
import Verif.Props.ExactFit
import Verif.Model.DictWarnings
import Verif.Proofs.DictWarnings
import Verif.Props.DictWarnings
import Verif.Proofs.QuoteNone
import Verif.Props.QuoteNone
import Verif.Model.Process
import Verif.Props.Process
import Verif.Model.Messages
import Verif.Props.Messages
import Verif.Props.StrictEscape
import Verif.Props.LastRecord
import Verif.Props.DetectRaises
import Verif.Props.HeaderLines
import Verif.Props.SameOutput
import Verif.Proofs.TempFile
import Verif.Props.TempFile
import Verif.Props.DialectKept
import Verif.Props.ExactRefusals
import Verif.Proofs.MoveFails
import Verif.Props.MoveFails
import Verif.Props.Untouched

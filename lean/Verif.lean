import Verif.Base
import Verif.Model.ArgsStorage
import Verif.Model.BackInsert
import Verif.Model.Bignum
import Verif.Model.Bitset
import Verif.Model.Buffer
import Verif.Model.CompileTime
import Verif.Model.Conversion
import Verif.Model.Dragon
import Verif.Model.FileReset
import Verif.Model.Format
import Verif.Model.FormatArg
import Verif.Model.FormatSpecs
import Verif.Model.HeapVec
import Verif.Model.Overloads
import Verif.Model.Parser
import Verif.Model.PrintCalls
import Verif.Model.Reader
import Verif.Model.Result
import Verif.Model.Scan
import Verif.Model.Select
import Verif.Model.Unified
import Verif.Model.UserBuffer
import Verif.Model.UserContainers
import Verif.Model.UserFormatter
import Verif.Model.UserScanner
import Verif.Model.ValidString
import Verif.Model.Values
import Verif.Model.Writer
import Verif.Spec.AnyTypes
import Verif.Spec.ArgsStorage
import Verif.Spec.Argument
import Verif.Spec.Assign
import Verif.Spec.BackInsert
import Verif.Spec.Capacity
import Verif.Spec.Client
import Verif.Spec.Columns
import Verif.Spec.Compose
import Verif.Spec.ComposeTypes
import Verif.Spec.Decimal
import Verif.Spec.Deep
import Verif.Spec.Distinct
import Verif.Spec.Dynamic
import Verif.Spec.Escape
import Verif.Spec.FixedSize
import Verif.Spec.Float
import Verif.Spec.FloatText
import Verif.Spec.Floats
import Verif.Spec.FormatSpec
import Verif.Spec.FormatString
import Verif.Spec.General
import Verif.Spec.Interleaving
import Verif.Spec.Kept
import Verif.Spec.Lists
import Verif.Spec.LongIn
import Verif.Spec.LongTexts
import Verif.Spec.Loss
import Verif.Spec.NotCut
import Verif.Spec.NotCutAll
import Verif.Spec.Numbering
import Verif.Spec.Numeral
import Verif.Spec.OnePiece
import Verif.Spec.Order
import Verif.Spec.Outcome
import Verif.Spec.ParseInt
import Verif.Spec.Pieces
import Verif.Spec.Reader
import Verif.Spec.Records
import Verif.Spec.Recover
import Verif.Spec.Render
import Verif.Spec.RoundTrip
import Verif.Spec.Scan
import Verif.Spec.ScanCompose
import Verif.Spec.ScanReference
import Verif.Spec.ScanReferences
import Verif.Spec.Sessions
import Verif.Spec.Sizes
import Verif.Spec.Stream
import Verif.Spec.Template
import Verif.Spec.Truncating
import Verif.Spec.Types
import Verif.Spec.Unified
import Verif.Spec.UserBuffer
import Verif.Spec.UserContainers
import Verif.Spec.UserFormatter
import Verif.Spec.UserScanner
import Verif.Spec.UserTuples
import Verif.Spec.Values
import Verif.Spec.Vectors
import Verif.Spec.Whole
import Verif.Spec.WideNumbers
import Verif.Spec.WideScan
import Verif.Spec.Writer
import Verif.Spec.WrittenOut
import Verif.Lemmas.AnyTypes
import Verif.Lemmas.ArgsStorage
import Verif.Lemmas.BackInsert
import Verif.Lemmas.Bignum
import Verif.Lemmas.BignumMul
import Verif.Lemmas.BignumRest
import Verif.Lemmas.BignumSize
import Verif.Lemmas.Bitset
import Verif.Lemmas.Buffer
import Verif.Lemmas.CacheFields
import Verif.Lemmas.Clean
import Verif.Lemmas.Client
import Verif.Lemmas.Conversion
import Verif.Lemmas.CoreArg
import Verif.Lemmas.Decimal
import Verif.Lemmas.Decode
import Verif.Lemmas.Deep
import Verif.Lemmas.Distinct
import Verif.Lemmas.Dragon
import Verif.Lemmas.Dynamic
import Verif.Lemmas.Exact
import Verif.Lemmas.FloatDigits
import Verif.Lemmas.FloatLayout
import Verif.Lemmas.FloatNeed
import Verif.Lemmas.FloatText
import Verif.Lemmas.Format
import Verif.Lemmas.FormatApi
import Verif.Lemmas.FormatArg
import Verif.Lemmas.FormatSpecs
import Verif.Lemmas.HeapVec
import Verif.Lemmas.Local
import Verif.Lemmas.LongIn
import Verif.Lemmas.Numerals
import Verif.Lemmas.Overflow
import Verif.Lemmas.Parser
import Verif.Lemmas.ParserFails
import Verif.Lemmas.ParserForward
import Verif.Lemmas.ParserLoop
import Verif.Lemmas.PrintCalls
import Verif.Lemmas.Reader
import Verif.Lemmas.Reads
import Verif.Lemmas.Scale
import Verif.Lemmas.ScanApi
import Verif.Lemmas.ScanCompose
import Verif.Lemmas.ScanExact
import Verif.Lemmas.ScanFields
import Verif.Lemmas.ScanLoop
import Verif.Lemmas.ScanNumber
import Verif.Lemmas.ScanReferences
import Verif.Lemmas.ScanSpecs
import Verif.Lemmas.ScanTemplate
import Verif.Lemmas.Settled
import Verif.Lemmas.Shortest
import Verif.Lemmas.ShortestDouble
import Verif.Lemmas.ShortestSpec
import Verif.Lemmas.SpecsAgree
import Verif.Lemmas.SpecsForward
import Verif.Lemmas.SpecsGrammar
import Verif.Lemmas.SpecsOk
import Verif.Lemmas.SpecsTotal
import Verif.Lemmas.TupleLoss
import Verif.Lemmas.TupleSkip
import Verif.Lemmas.Uniform
import Verif.Lemmas.UserBuffer
import Verif.Lemmas.UserFormatter
import Verif.Lemmas.UserScanner
import Verif.Lemmas.Values
import Verif.Lemmas.ValuesArg
import Verif.Lemmas.WideNumbers
import Verif.Lemmas.Writer
import Verif.Props.Accepted
import Verif.Props.AcceptedTuples
import Verif.Props.AllArguments
import Verif.Props.AnyAccepted
import Verif.Props.AnyTypes
import Verif.Props.ArgsStorage
import Verif.Props.Assign
import Verif.Props.BackInsert
import Verif.Props.Bignum
import Verif.Props.BignumSize
import Verif.Props.Bitset
import Verif.Props.Buffer
import Verif.Props.Bytes
import Verif.Props.Cache
import Verif.Props.CacheNested
import Verif.Props.Capacity
import Verif.Props.Columns
import Verif.Props.CompileTime
import Verif.Props.Compose
import Verif.Props.ComposeTypes
import Verif.Props.DebugChar
import Verif.Props.Deep
import Verif.Props.Digits17
import Verif.Props.Distinct
import Verif.Props.Dynamic
import Verif.Props.ExactText
import Verif.Props.Exceptions
import Verif.Props.FileReset
import Verif.Props.FixedSize
import Verif.Props.Float
import Verif.Props.Floats
import Verif.Props.Format
import Verif.Props.FormatSpecs
import Verif.Props.General
import Verif.Props.Kept
import Verif.Props.Lines
import Verif.Props.Lists
import Verif.Props.LongTexts
import Verif.Props.Maps
import Verif.Props.Metamorphic
import Verif.Props.MoreRoom
import Verif.Props.NotCut
import Verif.Props.NotCutAll
import Verif.Props.NotCutFloat
import Verif.Props.Numbering
import Verif.Props.Octal
import Verif.Props.Order
import Verif.Props.Ordered
import Verif.Props.Outputs
import Verif.Props.Overloads
import Verif.Props.Ownership
import Verif.Props.ParseInt
import Verif.Props.Parser
import Verif.Props.Pieces
import Verif.Props.PrintCalls
import Verif.Props.Println
import Verif.Props.Reader
import Verif.Props.ReaderExact
import Verif.Props.Records
import Verif.Props.Recover
import Verif.Props.Result
import Verif.Props.RoundTrip
import Verif.Props.Scan
import Verif.Props.ScanCompose
import Verif.Props.ScanExact
import Verif.Props.ScanReferences
import Verif.Props.ShortWrites
import Verif.Props.Signs
import Verif.Props.Sizes
import Verif.Props.Total
import Verif.Props.Truncating
import Verif.Props.TupleLoss
import Verif.Props.TupleSkip
import Verif.Props.Types
import Verif.Props.Unified
import Verif.Props.UserBuffer
import Verif.Props.UserContainers
import Verif.Props.UserFormatter
import Verif.Props.UserScanner
import Verif.Props.UserTuples
import Verif.Props.ValidString
import Verif.Props.Values
import Verif.Props.Whole
import Verif.Props.WideNumbers
import Verif.Props.Writer
import Verif.Props.WrittenOut
import Verif.Conformance.Api
import Verif.Conformance.Buffer
import Verif.Conformance.Composite
import Verif.Conformance.Digits
import Verif.Conformance.Format
import Verif.Conformance.Numbers
import Verif.Conformance.Reader
import Verif.Conformance.Result
import Verif.Conformance.Scan
import Verif.Conformance.Vector
import Verif.Conformance.VsFmt

import Verif.Base
import Verif.Bench.Code
import Verif.BitFacts
import Verif.CApi.Calls
import Verif.CApi.Client
import Verif.CApi.Cycle
import Verif.CApi.Facts
import Verif.CApi.Mem
import Verif.CApi.Run
import Verif.CApi.Safe
import Verif.Gen.Enums
import Verif.Gen.GoDone
import Verif.Gen.GoFacts
import Verif.Gen.GoGen
import Verif.Gen.GoLayout
import Verif.Gen.GoMain
import Verif.Gen.GoRound
import Verif.Gen.GoSafe
import Verif.Gen.GoTotal
import Verif.Gen.GoTyped
import Verif.Gen.Layout
import Verif.Gen.LayoutFacts
import Verif.Gen.NewChain
import Verif.Gen.Package
import Verif.Gen.PackageFacts
import Verif.Gen.RustGen
import Verif.Gen.RustLayout
import Verif.Gen.RustMain
import Verif.Gen.RustPackageFacts
import Verif.Gen.RustRound
import Verif.Gen.RustSafe
import Verif.Gen.RustValues
import Verif.Gen.Schema
import Verif.Gen.SettledFacts
import Verif.Gen.TsGen
import Verif.Gen.Typing
import Verif.Gen.Utils
import Verif.Gen.UtilsExact
import Verif.Gen.UtilsFacts
import Verif.Gen.V1Style
import Verif.Gen.Values
import Verif.GoV1.Api
import Verif.GoV1.Buffer
import Verif.GoV1.Decode
import Verif.GoV1.DecodeFacts
import Verif.GoV1.Encode
import Verif.GoV1.EncodeFacts
import Verif.GoV1.Heap
import Verif.GoV1.HeapApi
import Verif.GoV1.HeapDecode
import Verif.GoV1.HeapDecodeFacts
import Verif.GoV1.HeapFacts
import Verif.GoV1.HeapHistory
import Verif.GoV1.HeapMany
import Verif.GoV1.Log
import Verif.GoV1.Pool
import Verif.GoV2.Api
import Verif.GoV2.ApiFacts
import Verif.GoV2.Buffer
import Verif.GoV2.Decode
import Verif.GoV2.DecodeFacts
import Verif.GoV2.Encode
import Verif.GoV2.EncodeBig
import Verif.GoV2.EncodeFacts
import Verif.GoV2.Errors
import Verif.GoV2.Heap
import Verif.GoV2.HeapApi
import Verif.GoV2.HeapCalls
import Verif.GoV2.HeapDecode
import Verif.GoV2.HeapDecodeFacts
import Verif.GoV2.HeapEncode
import Verif.GoV2.HeapFacts
import Verif.GoV2.HeapHistory
import Verif.GoV2.HeapMany
import Verif.GoV2.HeapPool
import Verif.GoV2.Log
import Verif.GoV2.Pool
import Verif.GoV2.ReadFacts
import Verif.GoV2.Spare
import Verif.Props.Allocation
import Verif.Props.Bench
import Verif.Props.CBindings
import Verif.Props.Concurrent
import Verif.Props.DuplicateKeys
import Verif.Props.Enums
import Verif.Props.Errors
import Verif.Props.GoCompiles
import Verif.Props.GoGenerated
import Verif.Props.GoReuse
import Verif.Props.GoRuns
import Verif.Props.GoRunsDecode
import Verif.Props.GoSound
import Verif.Props.GoStack
import Verif.Props.GoText
import Verif.Props.GoUntrusted
import Verif.Props.GoV1Runs
import Verif.Props.Names
import Verif.Props.Package
import Verif.Props.Plugin
import Verif.Props.PluginOthers
import Verif.Props.RustCodec
import Verif.Props.RustGenerated
import Verif.Props.RustPackage
import Verif.Props.RustRuns
import Verif.Props.RustText
import Verif.Props.RustUntrusted
import Verif.Props.Tables
import Verif.Props.TsFlow
import Verif.Props.TsGenerated
import Verif.Props.TsScope
import Verif.Props.TsText
import Verif.Props.TypeScript
import Verif.Props.Typing
import Verif.Props.V1Codec
import Verif.Props.V1Memory
import Verif.Props.V1Pool
import Verif.Props.V2Buffer
import Verif.Props.V2Decode
import Verif.Props.V2Memory
import Verif.Props.V2Pool
import Verif.Props.V2Roundtrip
import Verif.Props.WireFormat
import Verif.Rust.Alloc
import Verif.Rust.Api
import Verif.Rust.Decode
import Verif.Rust.Encode
import Verif.Rust.Facts
import Verif.Rust.Safe
import Verif.Rust.Std
import Verif.Spec.Facts
import Verif.Spec.Grammar
import Verif.Spec.GrammarFacts
import Verif.Spec.Log
import Verif.Spec.Names
import Verif.Spec.ProtoNames
import Verif.Spec.Utf8
import Verif.Spec.Wire
import Verif.TS.Decode
import Verif.TS.DecodeFacts
import Verif.TS.Encode
import Verif.TS.EncodeFacts
import Verif.TS.Forward
import Verif.TS.Js
import Verif.Text.Ast
import Verif.Text.Descr
import Verif.Text.GoCheck
import Verif.Text.GoCheckBase
import Verif.Text.GoCheckConverse
import Verif.Text.GoCheckDecl
import Verif.Text.GoCheckDecode
import Verif.Text.GoCheckEncode
import Verif.Text.GoCheckExact
import Verif.Text.GoCheckHidden
import Verif.Text.GoCheckMap
import Verif.Text.GoCheckProgram
import Verif.Text.GoDeclared
import Verif.Text.GoLink
import Verif.Text.GoLookup
import Verif.Text.GoNames
import Verif.Text.GoPrint
import Verif.Text.GoPrintAll
import Verif.Text.GoPrintFile
import Verif.Text.GoPrintMap
import Verif.Text.GoPrintTop
import Verif.Text.GoProgram
import Verif.Text.GoReads
import Verif.Text.GoRun
import Verif.Text.GoRunBase
import Verif.Text.GoRunDecode
import Verif.Text.GoRunDecodeAll
import Verif.Text.GoRunDecodeApi
import Verif.Text.GoRunDecodeField
import Verif.Text.GoRunDecodeMap
import Verif.Text.GoRunDecodeMsg
import Verif.Text.GoRunDecodeSlice
import Verif.Text.GoRunDecodeStmt
import Verif.Text.GoRunEncode
import Verif.Text.GoRunEncodeMsg
import Verif.Text.GoRunMono
import Verif.Text.GoTemplates
import Verif.Text.Lex
import Verif.Text.LexFacts
import Verif.Text.Lib
import Verif.Text.Parse
import Verif.Text.ParseFacts
import Verif.Text.Plugin
import Verif.Text.PluginOthers
import Verif.Text.Prints
import Verif.Text.RustAst
import Verif.Text.RustDeclared
import Verif.Text.RustDescr
import Verif.Text.RustLex
import Verif.Text.RustNames
import Verif.Text.RustParse
import Verif.Text.RustParseFacts
import Verif.Text.RustPrint
import Verif.Text.RustPrintAll
import Verif.Text.RustPrintTop
import Verif.Text.RustPrints
import Verif.Text.RustProgram
import Verif.Text.RustReads
import Verif.Text.RustRun
import Verif.Text.RustRunBase
import Verif.Text.RustRunDecode
import Verif.Text.RustRunDecodeAll
import Verif.Text.RustRunDecodeFn
import Verif.Text.RustRunDecodeMsg
import Verif.Text.RustRunEncode
import Verif.Text.RustRunEncodeMsg
import Verif.Text.RustRunLink
import Verif.Text.RustTemplates
import Verif.Text.Template
import Verif.Text.TsAst
import Verif.Text.TsDeclared
import Verif.Text.TsDescr
import Verif.Text.TsFlow
import Verif.Text.TsLex
import Verif.Text.TsNames
import Verif.Text.TsPrint
import Verif.Text.TsPrintAll
import Verif.Text.TsPrintFile
import Verif.Text.TsPrintTop
import Verif.Text.TsPrints
import Verif.Text.TsProgram
import Verif.Text.TsScope
import Verif.Text.TsScopeFile
import Verif.Text.TsTemplates

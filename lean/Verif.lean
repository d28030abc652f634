import Verif.Model.Basic
import Verif.Model.Ops
import Verif.Model.Derive
import Verif.Model.Packet
import Verif.Model.Protocols
import Verif.Spec.Bits
import Verif.Spec.Encode
import Verif.Spec.Sizes
import Verif.Spec.Safety
import Verif.Proofs.Bits
import Verif.Proofs.Ops
import Verif.Proofs.LittleEndian
import Verif.Proofs.Derive
import Verif.Proofs.Codec
import Verif.Proofs.Populate
import Verif.Proofs.Generic
import Verif.Proofs.Sizes
import Verif.Proofs.Confined
import Verif.Proofs.Fields
import Verif.Proofs.Bounds
import Verif.Proofs.Instances
import Verif.Proofs.VectorFields
import Verif.Proofs.Crate
import Verif.Props.Fields
import Verif.Props.Generated
import Verif.Props.Vectors
import Verif.Model.Checksum
import Verif.Spec.Checksum
import Verif.Proofs.Checksum
import Verif.Proofs.ChecksumFields
import Verif.Props.Checksum
import Verif.Model.TcpOptions
import Verif.Spec.Layouts
import Verif.Proofs.Protocols
import Verif.Proofs.Options
import Verif.Props.Layouts
import Verif.Props.Payloads
import Verif.Props.Options
import Verif.Proofs.Headers
import Verif.Props.Headers
import Verif.Props.FromPacket
import Verif.Model.MacAddr
import Verif.Spec.Text
import Verif.Proofs.MacAddr
import Verif.Props.MacAddr
import Verif.Model.Names
import Verif.Spec.Names
import Verif.Proofs.Names
import Verif.Props.Names
import Verif.Model.Parse
import Verif.Spec.Decls
import Verif.Proofs.Parse
import Verif.Props.Parse
import Verif.Model.Quic
import Verif.Spec.Quic
import Verif.Spec.QuicApi
import Verif.Proofs.Scan
import Verif.Proofs.QuicBytes
import Verif.Proofs.QuicFrames
import Verif.Proofs.QuicFrameNew
import Verif.Proofs.QuicFrameLoop
import Verif.Proofs.QuicFrameFacts
import Verif.Props.QuicFrames
import Verif.Proofs.QuicPackets
import Verif.Proofs.QuicHeads
import Verif.Proofs.QuicLong
import Verif.Proofs.QuicShows
import Verif.Proofs.QuicEnc
import Verif.Proofs.QuicLast
import Verif.Proofs.QuicLoop
import Verif.Props.QuicPackets
import Verif.Proofs.QuicPopulate
import Verif.Props.QuicPopulate
import Verif.Proofs.QuicFrameFields
import Verif.Props.QuicFrameFields
import Verif.Model.Macro
import Verif.Model.Sources
import Verif.Spec.Macro
import Verif.Proofs.Macro
import Verif.Props.Macro
import Verif.Model.LengthExpr
import Verif.Spec.LengthExpr
import Verif.Proofs.LengthExpr
import Verif.Props.LengthExpr
import Verif.Model.Types
import Verif.Props.Types
import Verif.Model.Fuzz
import Verif.Proofs.Fuzz
import Verif.Props.Fuzz
import Verif.Model.Primitive
import Verif.Spec.Addresses
import Verif.Proofs.Addresses
import Verif.Props.Addresses
import Verif.Spec.Modes
import Verif.Proofs.Modes
import Verif.Proofs.ModesEq
import Verif.Props.Modes
import Verif.Model.QuicDisplay
import Verif.Spec.QuicText
import Verif.Proofs.QuicDisplay
import Verif.Proofs.QuicOutcomes
import Verif.Props.QuicDisplay
import Verif.Props.QuicOutcomes
import Verif.Model.LengthEval
import Verif.Spec.LengthText
import Verif.Proofs.LengthEval
import Verif.Props.LengthText
import Verif.Model.CodeText
import Verif.Spec.CodeText
import Verif.Proofs.CodeText
import Verif.Proofs.CodeParse
import Verif.Proofs.CodeRun
import Verif.Proofs.CodeFacts
import Verif.Props.CodeText
import Verif.Model.Debug
import Verif.Spec.Debug
import Verif.Proofs.Debug
import Verif.Props.Debug
import Verif.Model.Memory
import Verif.Spec.Memory
import Verif.Proofs.Memory
import Verif.Proofs.Trailing
import Verif.Props.Memory
import Verif.Props.Trailing
import Verif.Spec.Stack
import Verif.Proofs.Stack
import Verif.Props.Stack
import Verif.Tests.Derive
import Verif.Tests.Protocols
import Verif.Tests.Macro
import Verif.Proofs.Corruption
import Verif.Props.Corruption
import Verif.Proofs.WriteBack
import Verif.Props.WriteBack
import Verif.Spec.QuicRelease
import Verif.Proofs.QuicRelease
import Verif.Props.QuicRelease
import Verif.Model.Diagnostics
import Verif.Spec.Diagnostics
import Verif.Proofs.Diagnostics
import Verif.Props.Diagnostics
import Verif.Spec.Ndp
import Verif.Proofs.ModesFit
import Verif.Proofs.ModesLong
import Verif.Proofs.Ndp
import Verif.Proofs.ModesNdp
import Verif.Props.Ndp
import Verif.Props.ModesMore
import Verif.Model.Constants
import Verif.Spec.Constants
import Verif.Proofs.Constants
import Verif.Props.FieldTypes
import Verif.Proofs.Short
import Verif.Props.Fits
import Verif.Spec.Registers
import Verif.Proofs.Registers
import Verif.Props.Registers
import Verif.Model.Index
import Verif.Proofs.Index
import Verif.Props.Index
import Verif.Model.DebugValue
import Verif.Model.Ipv6Text
import Verif.Spec.DebugValue
import Verif.Proofs.DebugValue
import Verif.Proofs.Ipv6Text
import Verif.Props.DebugValue
import Verif.Tests.CodeText
import Verif.Tests.LengthEval
import Verif.Model.Iterables
import Verif.Spec.ExtensionChain
import Verif.Props.ExtensionChain
import Verif.Spec.Truncation
import Verif.Proofs.Truncation
import Verif.Props.Truncation
import Verif.Proofs.Again
import Verif.Props.Again
import Verif.Spec.QuicFrameBytes
import Verif.Proofs.QuicFramePopulate
import Verif.Props.QuicFramePopulate
import Verif.Model.Storage
import Verif.Spec.Storage
import Verif.Proofs.Storage
import Verif.Props.Storage
import Verif.Props.MacAddrErr
import Verif.Model.ApiNames
import Verif.Spec.ApiNames
import Verif.Proofs.ApiNames
import Verif.Props.ApiNames
import Verif.Proofs.QuicIter
import Verif.Props.QuicIter
import Verif.Spec.QuicSet
import Verif.Proofs.QuicSet
import Verif.Props.QuicSet
import Verif.Spec.DocAttrs
import Verif.Proofs.DocAttrs
import Verif.Props.DocAttrs
import Verif.Spec.QuicOthers
import Verif.Proofs.QuicOthers
import Verif.Props.QuicOthers
import Verif.Proofs.QuicRewrite
import Verif.Props.QuicRewrite
import Verif.Proofs.MacAddrOrd
import Verif.Props.MacAddrOrd
import Verif.Proofs.Incremental
import Verif.Props.Incremental
import Verif.Spec.LengthGrammar
import Verif.Spec.LengthReading
import Verif.Proofs.LengthGrammar
import Verif.Props.LengthGrammar
import Verif.Spec.ByteOrder
import Verif.Proofs.ByteOrder
import Verif.Proofs.ByteOrderStruct
import Verif.Props.ByteOrder
import Verif.Model.Offsets
import Verif.Spec.Offsets
import Verif.Proofs.Offsets
import Verif.Props.Offsets
import Verif.Spec.Transfer
import Verif.Proofs.Transfer
import Verif.Props.Transfer
import Verif.Proofs.LengthReader
import Verif.Props.CrateLengths
import Verif.Spec.Running
import Verif.Proofs.Running
import Verif.Props.Running
import Verif.Model.Capacity
import Verif.Proofs.Capacity
import Verif.Props.Capacity
import Verif.Spec.MiniRust
import Verif.Model.Template
import Verif.Proofs.Template
import Verif.Props.Template
import Verif.Spec.Loops
import Verif.Model.Loops
import Verif.Proofs.Loops
import Verif.Props.Loops
import Verif.Props.TemplateCalls
import Verif.Proofs.CodeFar
import Verif.Proofs.Scope
import Verif.Spec.WholeText
import Verif.Props.WholeText
import Verif.Props.Scope
import Verif.Model.Methods
import Verif.Spec.SourceWorld
import Verif.Props.Methods
import Verif.Props.QuicCovered
import Verif.Spec.SourceCalls
import Verif.Props.SourceCalls
import Verif.Model.Unwind
import Verif.Spec.Unwind
import Verif.Proofs.Unwind
import Verif.Props.Unwind
import Verif.Spec.MiniLeft
import Verif.Proofs.UnwindStmts
import Verif.Props.UnwindStmts
import Verif.Proofs.UnwindAfter
import Verif.Props.UnwindAfter
import Verif.Model.DocExamples
import Verif.Props.DocExamples
import Verif.Spec.CallCount
import Verif.Proofs.CallCount
import Verif.Props.CallCount
import Verif.Spec.CodeSize
import Verif.Props.CodeSize
import Verif.Spec.Coalesced
import Verif.Props.Coalesced
import Verif.Spec.JoinedFrames
import Verif.Proofs.JoinedFrames
import Verif.Props.JoinedFrames
import Verif.Spec.JoinedPackets
import Verif.Props.JoinedPackets
import Verif.Spec.QuicSend
import Verif.Props.QuicSend
import Verif.Spec.QuicDatagram
import Verif.Props.QuicDatagram
import Verif.Spec.QuicOverUdp
import Verif.Props.QuicOverUdp
import Verif.Spec.Descend
import Verif.Props.Descend
import Verif.Spec.Router
import Verif.Props.Router
import Verif.Spec.Translate
import Verif.Props.Translate
import Verif.Spec.Reflect
import Verif.Props.Reflect
import Verif.Spec.Ping
import Verif.Props.Ping
import Verif.Spec.ArpAnswer
import Verif.Props.ArpAnswer
import Verif.Spec.Tagging
import Verif.Props.Tagging
import Verif.Spec.Fragments
import Verif.Props.Fragments
import Verif.Spec.Traceroute
import Verif.Props.Traceroute
import Verif.Spec.Tunnel
import Verif.Props.Tunnel
import Verif.Props.FragmentsRouted
import Verif.Props.TunnelRouted
import Verif.Props.PingRouted

import Verif.Props.DataFetcher
import Verif.Props.Fixed
import Verif.Props.ServerOutput
import Verif.Props.FixedMsg
import Verif.Props.Adaptive
import Verif.Props.AdaptiveMore
import Verif.Props.AdaptiveFair
import Verif.Props.Window
import Verif.Props.Consumer
import Verif.Props.Producer
import Verif.Props.Discover
import Verif.Props.Catchunks
import Verif.Props.Ping
import Verif.Props.PingServer
import Verif.Props.Peek
import Verif.Props.Poke
import Verif.Props.Dissect
import Verif.Props.DissectFaithful
import Verif.Props.Dump
import Verif.Props.DumpCut
import Verif.Props.PingError
import Verif.Props.Throughput
import Verif.Props.Cli
import Verif.Props.Programs
import Verif.Props.Wireshark
import Verif.Props.WiresharkText
import Verif.Props.Agree
import Verif.Props.CatchunksUsable
import Verif.Props.Wire
import Verif.Props.PingNet
import Verif.Props.PingTime
import Verif.Props.PeekPoke
import Verif.Props.Summary
import Verif.Props.Transfer
import Verif.Model.Format
import Verif.Spec.Format
import Verif.Proofs.Format
import Verif.Model.PingOutput
import Verif.Spec.PingOutput
import Verif.Proofs.PingOutput
import Verif.Props.PingOutput
import Verif.Props.PingNumbers
import Verif.Props.DissectData
import Verif.Props.DissectSegments
import Verif.Props.CatchunksAny
import Verif.Props.Parameters
import Verif.Props.DissectPoke
import Verif.Props.AdaptiveTime
import Verif.Props.DumpRun
import Verif.Props.DumpText
import Verif.Props.DumpNames
import Verif.Props.WiresharkPorts
import Verif.Props.PutVersion
import Verif.Props.PeekTime
import Verif.Props.Report
import Verif.Props.FetchTime
import Verif.Props.CatchunksTime
import Verif.Props.Uri
import Verif.Props.AdaptivePace
import Verif.Props.CatchunksAdaptiveTime
import Verif.Props.Verbose
import Verif.Props.FixedVerbose
import Verif.Props.PutVerbose
import Verif.Props.PeekVerbose
import Verif.Props.DiscoverVerbose
import Verif.Conformance.Aimd
import Verif.Conformance.Chunks
import Verif.Conformance.Dump
import Verif.Conformance.Fixed
import Verif.Conformance.PeekPoke
import Verif.Conformance.Ping
import Verif.Conformance.Wireshark

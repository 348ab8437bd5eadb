import Verif.Model.Basic
import Verif.Model.Libc
import Verif.Model.ParseBytes
import Verif.Model.Frame
import Verif.Model.Buf
import Verif.Model.Tables
import Verif.Model.Fill
import Verif.Model.Args
import Verif.Model.Exec
import Verif.Model.Capture
import Verif.Model.Output
import Verif.Model.Main
import Verif.Tests.Vectors
import Verif.Spec.Bits
import Verif.Spec.Frame
import Verif.Spec.Match
import Verif.Spec.Layout
import Verif.Lemmas.Bits
import Verif.Lemmas.Render
import Verif.Lemmas.Wild
import Verif.Lemmas.Compare
import Verif.Props.Serialise
import Verif.Props.Match
import Verif.Props.Layout
import Verif.Spec.Text
import Verif.Lemmas.Text
import Verif.Lemmas.Literals
import Verif.Lemmas.Ipv4Text
import Verif.Lemmas.Address
import Verif.Lemmas.ParseSize
import Verif.Props.Parse
import Verif.Lemmas.NumText
import Verif.Lemmas.Inst
import Verif.Lemmas.InstParse
import Verif.Lemmas.Fill
import Verif.Spec.Checksum
import Verif.Lemmas.Chksum
import Verif.Lemmas.HdrNum
import Verif.Lemmas.FillEach
import Verif.Lemmas.FillPseudo
import Verif.Lemmas.FillMc
import Verif.Lemmas.FillRest
import Verif.Spec.Tame
import Verif.Lemmas.FillStack
import Verif.Spec.Built
import Verif.Lemmas.Built
import Verif.Lemmas.Placed
import Verif.Props.Fill
import Verif.Props.Checksum
import Verif.Props.Multicast
import Verif.Spec.Assign
import Verif.Lemmas.Local
import Verif.Lemmas.Assign
import Verif.Lemmas.AssignFrame
import Verif.Props.Words
import Verif.Lemmas.FillLayout
import Verif.Lemmas.Values
import Verif.Spec.Coap
import Verif.Spec.Header
import Verif.Props.Values
import Verif.Lemmas.HdrWords
import Verif.Props.Coap
import Verif.Props.Payload
import Verif.Spec.Run
import Verif.Lemmas.Trace
import Verif.Lemmas.TraceTx
import Verif.Lemmas.ExecLoop
import Verif.Lemmas.ExecGroup
import Verif.Lemmas.ExecAll
import Verif.Lemmas.ParseCmds
import Verif.Lemmas.Credit
import Verif.Lemmas.Events
import Verif.Lemmas.LoopEnd
import Verif.Lemmas.Deaf
import Verif.Props.Run
import Verif.Props.Transmit
import Verif.Spec.Command
import Verif.Lemmas.Commands
import Verif.Props.Commands
import Verif.Spec.Tool
import Verif.Lemmas.Kinds
import Verif.Props.Tool
import Verif.Props.Options
import Verif.Spec.Capture
import Verif.Props.Capture
import Verif.Props.Errors
import Verif.Props.Again
import Verif.Spec.Safe
import Verif.Lemmas.NoCrash
import Verif.Lemmas.NamedWords
import Verif.Props.NoCrash
import Verif.Lemmas.Shadow
import Verif.Props.Names
import Verif.Spec.Report
import Verif.Lemmas.Report
import Verif.Props.Report
import Verif.Lemmas.FillOther
import Verif.Spec.Standard
import Verif.Props.Standard
import Verif.Props.Presets
import Verif.Model.HelpTables
import Verif.Model.Messages
import Verif.Spec.Help
import Verif.Lemmas.Messages
import Verif.Lemmas.MsgValues
import Verif.Props.Help
import Verif.Props.Messages
import Verif.Props.Defaults
import Verif.Props.Examples
import Verif.Spec.Relax
import Verif.Lemmas.Relax
import Verif.Lemmas.RelaxFill
import Verif.Props.Relax
import Verif.Spec.Value
import Verif.Lemmas.MacText
import Verif.Lemmas.Ip6Text
import Verif.Lemmas.ValueText
import Verif.Props.Texts
import Verif.Lemmas.Progress
import Verif.Props.Delivery
import Verif.Props.Loopback
import Verif.Lemmas.Padding
import Verif.Lemmas.PaddingExact
import Verif.Spec.Padding
import Verif.Props.Padding
import Verif.Props.Repeat
import Verif.Model.Socket
import Verif.Spec.Socket
import Verif.Props.Socket
import Verif.Model.Pcap
import Verif.Spec.Pcap
import Verif.Lemmas.Pcap
import Verif.Props.Pcap
import Verif.Lemmas.RunEnds
import Verif.Props.NoCrashRun
import Verif.Spec.Dissect
import Verif.Props.Receiver
import Verif.Lemmas.Spelled
import Verif.Lemmas.SpelledText
import Verif.Props.Spelled
import Verif.Model.Memory
import Verif.Spec.Memory
import Verif.Lemmas.MemCore
import Verif.Lemmas.MemHdr
import Verif.Lemmas.MemFields
import Verif.Lemmas.MemFill
import Verif.Lemmas.MemCmds
import Verif.Lemmas.MemLoss
import Verif.Props.Memory
import Verif.Spec.CoapMsg
import Verif.Props.Separate
import Verif.Props.CoapMsg
import Verif.Spec.Abbrev
import Verif.Lemmas.Unname
import Verif.Props.Abbrev
import Verif.Spec.Attempts
import Verif.Lemmas.TraceRes
import Verif.Props.Attempts
import Verif.Spec.Compared
import Verif.Lemmas.MaskExact
import Verif.Props.MaskExact
import Verif.Model.Forks
import Verif.Spec.Forks
import Verif.Props.Forks
import Verif.Lemmas.AddRx
import Verif.Props.AddRx
import Verif.Props.Longer
import Verif.Spec.Shell
import Verif.Props.Shell
import Verif.Props.Saved
import Verif.Props.Asked
import Verif.Props.Encap
import Verif.Props.Order
import Verif.Model.BufList
import Verif.Props.BufList
import Verif.Spec.Overread
import Verif.Props.Overread
import Verif.Spec.Rename
import Verif.Lemmas.Rename
import Verif.Props.Rename
import Verif.Spec.Origin
import Verif.Lemmas.Origin
import Verif.Props.Origin
import Verif.Props.Meg
import Verif.Spec.Silent
import Verif.Lemmas.Silent
import Verif.Props.Silent
import Verif.Model.Descriptors
import Verif.Spec.Descriptors
import Verif.Lemmas.Descriptors
import Verif.Props.Descriptors
import Verif.Spec.Same
import Verif.Props.Same
import Verif.Spec.Written
import Verif.Spec.Defined
import Verif.Lemmas.Written
import Verif.Lemmas.Defined
import Verif.Props.Defined
import Verif.Model.MldMsgs
import Verif.Spec.Mld
import Verif.Lemmas.MldMsgs
import Verif.Props.Mld
import Verif.Model.SocketMsgs
import Verif.Spec.SocketMsgs
import Verif.Props.SocketMsgs
import Verif.Model.Exhausted
import Verif.Spec.Exhausted
import Verif.Props.Exhausted
import Verif.Model.Large
import Verif.Spec.Large
import Verif.Lemmas.Large
import Verif.Props.Large
import Verif.Model.Interrupts
import Verif.Props.Interrupts
import Verif.Spec.Arrivals
import Verif.Props.Arrivals
import Verif.Model.Pieces
import Verif.Props.Pieces
import Verif.Props.Silence
import Verif.Props.TxLines
import Verif.Spec.Rare
import Verif.Props.Rare
import Verif.Props.Masked
import Verif.Props.Strdup
import Verif.Props.Number
import Verif.Props.RxMemory
import Verif.Props.CaptureMemory
import Verif.Props.PayloadMemory
import Verif.Props.FillMemory
import Verif.Props.UdpMemory
import Verif.Props.IcmpMemory
import Verif.Axioms

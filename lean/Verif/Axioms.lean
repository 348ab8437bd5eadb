import Lean.Elab.Command
import Lean.Util.CollectAxioms
import Verif.Props.Checksum
import Verif.Props.Delivery
import Verif.Props.Loopback
import Verif.Props.Padding
import Verif.Props.Repeat
import Verif.Props.Memory
import Verif.Props.Socket
import Verif.Props.Pcap
import Verif.Props.NoCrashRun
import Verif.Props.Receiver
import Verif.Props.Spelled
import Verif.Props.Coap
import Verif.Props.Layout
import Verif.Props.Match
import Verif.Props.Multicast
import Verif.Props.Parse
import Verif.Props.Serialise
import Verif.Props.Words
import Verif.Props.Capture
import Verif.Props.Options
import Verif.Props.Errors
import Verif.Props.Again
import Verif.Props.NoCrash
import Verif.Props.Names
import Verif.Props.Report
import Verif.Props.Standard
import Verif.Props.Presets
import Verif.Props.Help
import Verif.Props.Messages
import Verif.Props.Defaults
import Verif.Props.Examples
import Verif.Props.Relax
import Verif.Props.Texts
import Verif.Props.Separate
import Verif.Props.CoapMsg
import Verif.Props.Abbrev
import Verif.Props.Attempts
import Verif.Props.MaskExact
import Verif.Props.Forks
import Verif.Props.AddRx
import Verif.Props.Longer
import Verif.Props.Shell
import Verif.Props.Saved
import Verif.Props.Asked
import Verif.Props.Encap
import Verif.Props.Order
import Verif.Props.BufList
import Verif.Props.Overread
import Verif.Props.Rename
import Verif.Props.Origin
import Verif.Props.Meg
import Verif.Props.Silent
import Verif.Props.Descriptors
import Verif.Props.Same
import Verif.Props.Defined
import Verif.Props.Mld
import Verif.Props.SocketMsgs
import Verif.Props.Exhausted
import Verif.Props.Large
import Verif.Props.Interrupts
import Verif.Props.Arrivals
import Verif.Props.Pieces
import Verif.Props.Silence
import Verif.Props.TxLines
import Verif.Props.Rare
import Verif.Props.Masked
import Verif.Props.Strdup
import Verif.Props.Number
import Verif.Props.RxMemory
import Verif.Props.CaptureMemory
import Verif.Props.PayloadMemory
import Verif.Props.FillMemory
import Verif.Props.UdpMemory
import Verif.Props.IcmpMemory

/-!
# The axioms behind the properties

Fails if a theorem about a property depends on anything but the three axioms of Lean's standard library.
-/

open Lean Elab Command

/-- A theorem `Ef.Props.Cnn_…`. -/
def isPropertyName : Name → Bool
  | .str (.str (.str .anonymous "Ef") "Props") s => s.startsWith "C" && ((s.drop 1).take 2).all Char.isDigit && ((s.drop 1).dropWhile Char.isDigit).startsWith "_"
  | _ => false

run_cmd do
  let env ← getEnv
  let mut names : Array Name := #[]
  for (n, c) in env.constants.map₁.toList do
    if isPropertyName n then
      if let .thmInfo _ := c then names := names.push n
  let sorted := names.qsort (fun a b => a.toString < b.toString)
  let mut text := ""
  for n in sorted do
    let ax ← collectAxioms n
    for a in ax do
      unless a == ``propext || a == ``Classical.choice || a == ``Quot.sound do
        throwError "{n} depends on {a}"
    text := text ++ s!"{n}: {(ax.qsort (fun a b => a.toString < b.toString)).toList}\n"
  logInfo m!"{sorted.size} theorems\n{text}"

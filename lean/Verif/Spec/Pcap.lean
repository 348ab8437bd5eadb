import Verif.Model.Pcap
import Verif.Spec.Run

/-!
# Specification: capture files

The format of the files as in pcap-savefile(5), little-endian. Only the model's `Buf`, `Files` and `PcapLib` are used.
-/

namespace Ef.Spec

open Ef

/-- The number in these bytes, the lowest one first. -/
def leVal : Buf → Nat
  | [] => 0
  | b :: bs => b.toNat + 256 * leVal bs

/-- The packets (bytes and original length) in a sequence of records: 8 bytes with the time, 4 bytes with the number of
bytes that follow, 4 bytes with the original length, the bytes. -/
inductive Records : Buf → List (Buf × Nat) → Prop where
  | nil : Records [] []
  | cons {time cap len bytes rest : Buf} {ps : List (Buf × Nat)} (ht : time.length = 8) (hc : cap.length = 4)
      (hl : len.length = 4) (hb : leVal cap = bytes.length) (h : Records rest ps) :
      Records (time ++ cap ++ len ++ bytes ++ rest) ((bytes, leVal len) :: ps)

/-- A capture file for Ethernet frames with these packets. -/
structure CaptureFile (c : Buf) (ps : List (Buf × Nat)) : Prop where
  long : 24 ≤ c.length
  magic : leVal (c.take 4) = 0xa1b2c3d4
  version : leVal ((c.drop 4).take 2) = 2 ∧ leVal ((c.drop 6).take 2) = 4
  link : leVal ((c.drop 20).take 4) = 1
  records : Records (c.drop 24) ps

/-- The file (it may not exist) holds these packets. -/
def Holds (file : Option Buf) (ps : List (Buf × Nat)) : Prop :=
  match file with
  | none => ps = []
  | some c => (c = [] ∧ ps = []) ∨ CaptureFile c ps

/-- libpcap looks at nothing but the header of a file, and accepts the header it writes itself. -/
structure Sound (lib : PcapLib) : Prop where
  header : ∀ c d, 24 ≤ c.length → lib.accepts (c ++ d) = lib.accepts c
  own : lib.accepts pcapHeader = true

/-- The frames of the commands `pcap n …`, in their order, as complete packets. -/
def writtenTo (n : CStr) (cmds : List Cmd) : List (Buf × Nat) :=
  (cmds.map (resolve cmds)).filterMap fun c =>
    if c.type = .pcap ∧ c.arg0 = some n then c.buf.map fun b => (b, b.length) else none

end Ef.Spec

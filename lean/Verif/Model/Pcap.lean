import Verif.Model.Exec

/-!
# Files written by the `pcap` command (ef-exec.c:342-375)

The file format and the behaviour of libpcap are those of libpcap on a little-endian machine: `pcap_dump_open` writes the
file header of 24 bytes to a new file, `pcap_dump_open_append` does so for an empty file and otherwise accepts or refuses
the file after reading its header, `pcap_dump` writes a record header of 16 bytes and the bytes of the frame. Which files
can be written and which ones are accepted is arbitrary. Not modelled: `stat` failing for a file that exists,
`pcap_open_dead` failing (exhaustion of memory), write errors.
-/

namespace Ef

/-- The files by name, with their contents. -/
abbrev Files := CStr → Option Buf

/-- What libpcap and the system decide. -/
structure PcapLib where
  /-- the file can be opened for writing -/
  mayWrite : CStr → Bool
  /-- `pcap_dump_open_append` accepts a file with these contents -/
  accepts : Buf → Bool

/-- A 32-bit number in memory (little-endian). -/
def le32Bytes (n : Nat) : Buf :=
  [BitVec.ofNat 8 n, BitVec.ofNat 8 (n / 2 ^ 8), BitVec.ofNat 8 (n / 2 ^ 16), BitVec.ofNat 8 (n / 2 ^ 24)]

/-- The header of a file for `pcap_open_dead(DLT_EN10MB, 65535)` (ef-exec.c:349): magic number, version 2.4, time zone,
accuracy, snapshot length, link type 1. -/
def pcapHeader : Buf :=
  [0xd4#8, 0xc3#8, 0xb2#8, 0xa1#8, 2#8, 0#8, 4#8, 0#8] ++ le32Bytes 0 ++ le32Bytes 0 ++ le32Bytes 65535 ++ le32Bytes 1

/-- `pcap_dump` with the packet header of ef-exec.c:366-369: time 0, `caplen` and `len` (32-bit numbers) are the size of the
frame. -/
def pcapRecord (b : Buf) : Buf :=
  le32Bytes 0 ++ le32Bytes 0 ++ le32Bytes b.length ++ le32Bytes b.length ++ b.take (b.length % 2 ^ 32)

/-- The file after opening, or `none` (ef-exec.c:355-364). -/
def pcapOpen (lib : PcapLib) (name : CStr) (file : Option Buf) : Option Buf :=
  if lib.mayWrite name then
    match file with
    | none => some pcapHeader
    | some [] => some pcapHeader
    | some c => if lib.accepts c then some c else none
  else none

/-- `pcap_append` (ef-exec.c:342-375): the files and the result. -/
def pcapAppend (lib : PcapLib) (fs : Files) (name : CStr) (frame : Buf) : Files × Int :=
  match pcapOpen lib name (fs name) with
  | none => (fs, -1)
  | some c => (fun n => if n = name then some (c ++ pcapRecord frame) else fs n, 0)

/-- The files after these events of a run. The results of `pcap_append` are not looked at (ef-exec.c:430). -/
def filesAfter (lib : PcapLib) (fs : Files) : List Event → Files
  | [] => fs
  | .pcap n b :: es => filesAfter lib (pcapAppend lib fs n b).1 es
  | _ :: es => filesAfter lib fs es

end Ef

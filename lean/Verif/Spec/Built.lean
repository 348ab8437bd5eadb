import Verif.Model.Args
import Verif.Spec.Tame

/-!
# Notions for statements about serialised frames

`argcFrame` (parsing of a frame on the command line) and `frameToBuf` (serialisation) are the functions of the program
the statements are about.
-/

namespace Ef.Spec

open Ef

/-- The command line words `argv` were accepted and describe the frame `f`; completing it gave the frame `f'` and the
bytes `b`. -/
structure Sent (argv : List CStr) (f f' : Frame) (b : Buf) : Prop where
  short : ShortWords argv
  parsed : ∃ n, argcFrame argv = .ok (some (n, f))
  bytes : frameToBuf f = .ok (f', b)

/-- The same, and every header keeps inside of its own bytes (see C16). -/
structure Built (argv : List CStr) (f f' : Frame) (b : Buf) : Prop extends Sent argv f f' b where
  tame : ∀ x ∈ f.stack, Tame x

/-- `x` is a header of the frame `f` as specified by the user, with the headers `pre` before and `post` after it;
`x'`, `pre'` and `post'` are the same headers in the completed frame. -/
structure At (f f' : Frame) (pre : List Hdr) (x : Hdr) (post pre' : List Hdr) (x' : Hdr) (post' : List Hdr) : Prop where
  before : f.stack = pre ++ x :: post
  after : f'.stack = pre' ++ x' :: post'
  same : pre'.length = pre.length

/-- Protocol numbers assigned by IEEE and IANA: EtherTypes and IP protocol numbers. -/
def assigned : List (CStr × Nat) := [
  (c!"ipv4", 0x0800), (c!"arp", 0x0806), (c!"ctag", 0x8100), (c!"ipv6", 0x86dd), (c!"profinet-rtc", 0x8892),
  (c!"stag", 0x88a8), (c!"mrp_tst", 0x88e3), (c!"mrp_topo", 0x88e3), (c!"mrp_lnk", 0x88e3), (c!"mrp_prop_nack", 0x88e3),
  (c!"ptp-sync", 0x88f7), (c!"ptp-follow-up", 0x88f7), (c!"ptp-request", 0x88f7), (c!"ptp-response", 0x88f7),
  (c!"ptp-peer-request", 0x88f7), (c!"ptp-peer-response", 0x88f7), (c!"ptp-peer-response-follow-up", 0x88f7),
  (c!"ptp-announce", 0x88f7), (c!"sv", 0x88fb), (c!"oam-ccm", 0x8902), (c!"oam-laps", 0x8902), (c!"oam-lb", 0x8902),
  (c!"oam-lt", 0x8902), (c!"oam-raps", 0x8902), (c!"htag", 0x892f), (c!"opc-ua", 0xb62c), (c!"rtag", 0xf1c1),
  (c!"icmp", 1), (c!"igmp", 2), (c!"tcp", 6), (c!"udp", 17)]

/-- The number a field of `w` bits holds if its value is `v` (zero without a value). -/
def asNum (w : Nat) (v : Option Buf) : Nat :=
  match v with
  | some v => beNat v % 2 ^ w
  | none => 0

end Ef.Spec

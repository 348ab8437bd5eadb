import Verif.Spec.Built
import Verif.Spec.Bits
import Verif.Spec.Checksum

/-!
# How a receiver takes a frame apart

Written from IEEE 802.3, IEEE 802.1Q, IEEE 802.1CB, IEC 62439-3, RFC 791, RFC 8200, RFC 768 and RFC 793. Nothing in the first part
refers to the model of the code. Checksums are not looked at (they are the subject of C31 and C34).
-/

namespace Ef.Spec

open Ef

inductive Proto where
  | eth | ctag | stag | rtag | htag | ipv4 | ipv6 | udp | tcp
  deriving DecidableEq, Repr

/-- What an EtherType announces, as far as this receiver knows it. -/
def etherType (n : Nat) : Option Proto :=
  if n = 0x0800 then some .ipv4 else if n = 0x86dd then some .ipv6 else if n = 0x8100 then some .ctag else
  if n = 0x88a8 then some .stag else if n = 0xf1c1 then some .rtag else if n = 0x892f then some .htag else none

/-- What a protocol number of IP announces. -/
def ipProto (n : Nat) : Option Proto :=
  if n = 6 then some .tcp else if n = 17 then some .udp else none

/-- What a header says: its own number of bytes, the number of bytes of it and what it carries, and what it carries. -/
structure Says where
  own : Nat
  all : Nat
  next : Option Proto
  deriving DecidableEq

/-- What the header `p` at the beginning of `b` says. `none` if `b` is not understood as such a header. -/
def says : Proto → Buf → Option Says
  | .eth, b => if 14 ≤ b.length then some ⟨14, b.length, etherType (numAt b 96 16)⟩ else none
  | .ctag, b => if 4 ≤ b.length then some ⟨4, b.length, etherType (numAt b 16 16)⟩ else none
  | .stag, b => if 4 ≤ b.length then some ⟨4, b.length, etherType (numAt b 16 16)⟩ else none
  | .rtag, b => if 6 ≤ b.length then some ⟨6, b.length, etherType (numAt b 32 16)⟩ else none
  | .htag, b => if 6 ≤ b.length then some ⟨6, b.length, etherType (numAt b 32 16)⟩ else none
  | .ipv4, b =>
    -- version, header length, total length; not a fragment
    if 20 ≤ b.length ∧ numAt b 0 4 = 4 ∧ 5 ≤ numAt b 4 4 ∧ 4 * numAt b 4 4 ≤ numAt b 16 16 ∧ numAt b 16 16 ≤ b.length ∧
        numAt b 48 3 % 2 = 0 ∧ numAt b 51 13 = 0 then
      some ⟨4 * numAt b 4 4, numAt b 16 16, ipProto (numAt b 72 8)⟩
    else none
  | .ipv6, b =>
    if 40 ≤ b.length ∧ numAt b 0 4 = 6 ∧ 40 + numAt b 32 16 ≤ b.length then
      some ⟨40, 40 + numAt b 32 16, ipProto (numAt b 48 8)⟩
    else none
  | .udp, b =>
    if 8 ≤ b.length ∧ 8 ≤ numAt b 32 16 ∧ numAt b 32 16 ≤ b.length then some ⟨8, numAt b 32 16, none⟩ else none
  | .tcp, b =>
    if 20 ≤ b.length ∧ 5 ≤ numAt b 96 4 ∧ 4 * numAt b 96 4 ≤ b.length then some ⟨4 * numAt b 96 4, b.length, none⟩ else none

/-- The headers and what is left at the end. -/
def dissect : Nat → Proto → Buf → List (Proto × Buf) × Buf
  | 0, _, b => ([], b)
  | n + 1, p, b =>
    match says p b with
    | none => ([], b)
    | some s =>
      let rest := (b.take s.all).drop s.own
      match s.next with
      | none => ([(p, b.take s.own)], rest)
      | some q =>
        let r := dissect n q rest
        ((p, b.take s.own) :: r.1, r.2)

/-- What a receiver makes of a frame. -/
def received (b : Buf) : List (Proto × Buf) × Buf := dissect b.length .eth b

/-! ## What it should make of it -/

/-- The headers in question, their names on the command line, and their sizes. -/
def protoOf (n : CStr) : Option Proto :=
  if n = c!"eth" then some .eth else if n = c!"ctag" then some .ctag else if n = c!"stag" then some .stag else
  if n = c!"rtag" then some .rtag else if n = c!"htag" then some .htag else if n = c!"ipv4" then some .ipv4 else
  if n = c!"ipv6" then some .ipv6 else if n = c!"udp" then some .udp else if n = c!"tcp" then some .tcp else none

def Proto.bytes : Proto → Nat
  | .eth => 14 | .ctag => 4 | .stag => 4 | .rtag => 6 | .htag => 6 | .ipv4 => 20 | .ipv6 => 40 | .udp => 8 | .tcp => 20

def Proto.link : Proto → Bool
  | .eth | .ctag | .stag | .rtag | .htag => true
  | _ => false

def Proto.ip : Proto → Bool
  | .ipv4 | .ipv6 => true
  | _ => false

/-- Headers which tell the length of what they carry. -/
def Proto.counts : Proto → Bool
  | .ipv4 | .ipv6 | .udp => true
  | _ => false

/-- Which headers may carry which. -/
def Proto.carries : Proto → Proto → Bool
  | p, q => (p.link && (q == .ctag || q == .stag || q == .rtag || q == .htag || q == .ipv4 || q == .ipv6)) ||
      (p.ip && (q == .udp || q == .tcp))

/-- The fields by which a receiver recognises the header and what it carries. -/
def Proto.keys : Proto → List CStr
  | .ipv4 => [c!"ver", c!"ihl", c!"len", c!"flags", c!"offset", c!"proto"]
  | .ipv6 => [c!"ver", c!"len", c!"next"]
  | .udp => [c!"len"]
  | .tcp => [c!"doff"]
  | _ => [c!"et"]

/-- Headers this receiver would look into after a header of the kind `p`: those it is meant to find there, and those with the
same number (ARP and the PTP extensions have type numbers ending with 6, TCP's number). -/
def Proto.finds (p : Proto) : List CStr :=
  if p.link then [c!"ctag", c!"stag", c!"rtag", c!"htag", c!"ipv4", c!"ipv6"]
  else if p.ip then [c!"udp", c!"tcp", c!"arp", c!"ptp-tlv-org", c!"ptp-tlv-path"] else []

/-- The headers `hs` begin with headers of the kinds `ps`, each of which may carry the next one, and in which the user has
not given any of the fields a receiver goes by. Then come the headers `rest`, none of those known. -/
inductive Stacked : List Hdr → List Proto → List Hdr → Prop
  | last {x : Hdr} {p : Proto} {rest : List Hdr} : protoOf x.name = some p → (∀ n ∈ p.keys, given x n = none) →
      (∀ y ∈ rest.head?, y.name ∉ p.finds) → Stacked (x :: rest) [p] rest
  | next {x : Hdr} {p q : Proto} {hs rest : List Hdr} {ps : List Proto} : protoOf x.name = some p →
      (∀ n ∈ p.keys, given x n = none) → p.carries q = true → Stacked hs (q :: ps) rest → Stacked (x :: hs) (p :: q :: ps) rest

/-- The pieces of `b` from byte `k` for headers of these kinds. -/
def layers (b : Buf) (k : Nat) : List Proto → List (Proto × Buf)
  | [] => []
  | p :: ps => (p, slice b k p.bytes) :: layers b (k + p.bytes) ps

/-- Number of bytes of the headers. -/
def headBytes (ps : List Proto) : Nat := (ps.map Proto.bytes).sum

end Ef.Spec

import Verif.Model.UdpMemory

/-!
# ICMP and IGMP checksums when memory runs out (ef-icmp.c:8-67, ef-igmp.c:75-98)

As in `UdpMemory`: the checksum may silently not be stored, a NULL buffer is used.
-/

namespace Ef

/-- Sum over a header and what it carries, written with `text` (ef-icmp.c:46-60, ef-igmp.c:80-98). -/
def plainSumA (text : Nat → CStr) (h : Hdr) (above : List Hdr) (as : List Bool) : Out (Hdr × List Bool) :=
  if (grant as).1 then do
    let b ← copyHdrs false (h :: above) 0 (balloc (sumSizes (h :: above)))
    let v ← parseBytesA (text (inetChksum 0 b)) 2 (grant as).2
    .ok (setVal h c!"chksum" v.1, v.2)
  else .ub .nullDeref

/-- `icmp_fill_defaults` (ef-icmp.c:8-67). -/
def fillIcmpA (below : List Hdr) (h : Hdr) (above : List Hdr) (as : List Bool) : Out (Hdr × List Bool) := do
  let chksum ← getField h c!"chksum"
  if chksum.val.isSome then .ok (h, as)
  else
    match ipv6Below below with
    | some ll =>
      match hdrCloneA HDR_IPV6_PSEUDO as with
      | (none, _) => .ub .nullDeref
      | (some ps, as) => do
        let len := sumSizes (h :: above)
        let p ← fillPseudoA ps ll c!"58" len as
        let h := { h with type := 58 }
        if (grant p.2).1 then do
          let b ← copyHdr false p.1 0 (balloc (len + p.1.size))
          let b ← copyHdrs false (h :: above) p.1.size b
          let v ← parseBytesA (decStr (inetChksum 0 b)) 2 (grant p.2).2
          .ok (setVal h c!"chksum" v.1, v.2)
        else .ub .nullDeref
    | none => plainSumA decStr h above as

/-- `igmp_fill_defaults`, checksum (ef-igmp.c:75-98). -/
def fillIgmpChksumA (h : Hdr) (above : List Hdr) (as : List Bool) : Out (Hdr × List Bool) := do
  let chksum ← getField h c!"chksum"
  if chksum.val.isSome then .ok (h, as)
  else plainSumA hexStr h above as

/-- `igmp_fill_defaults` (ef-igmp.c:4-101). -/
def fillIgmpA (h : Hdr) (above : List Hdr) (as : List Bool) : Out (Hdr × List Bool) := do
  let h ← adjustQuery h
  let h ← adjustReportIgmp h
  fillIgmpChksumA h above as

end Ef

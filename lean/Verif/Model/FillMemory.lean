import Verif.Model.PayloadMemory
import Verif.Model.Fill

/-!
# Computed fields when memory runs out (ef.c:153-169, ef-ipv4.c:4-50, ef-ipv6.c:4-35)

The answers of the allocator are a list as in `Exhausted`. The results of `parse_bytes` are stored without a check, that of `balloc` is used
without a check. Simplification: only the Ethernet type and the fields of the IP headers.
-/

namespace Ef

/-- `ether_type_fill_defaults` (ef.c:153-169). -/
def fillEtherTypeA (h : Hdr) (above : List Hdr) (as : List Bool) : Out (Hdr × List Bool) := do
  let et ← getField h c!"et"
  if et.val.isSome then .ok (h, as)
  else
    match above with
    | n :: _ => do
      let v ← parseBytesA (decStr n.type) 2 as
      .ok (setVal h c!"et" v.1, v.2)
    | [] => .ok (h, as)

/-- `ipv4_fill_defaults`, protocol (ef-ipv4.c:11-20). -/
def fillIpv4ProtoA (h : Hdr) (above : List Hdr) (as : List Bool) : Out (Hdr × List Bool) := do
  let proto ← getField h c!"proto"
  if proto.val.isSome then .ok (h, as)
  else do
    let v ← parseBytesA (nextProto above) 1 as
    .ok (setVal h c!"proto" v.1, v.2)

/-- `ipv4_fill_defaults`, total length (ef-ipv4.c:22-33). -/
def fillIpv4LenA (h : Hdr) (above : List Hdr) (as : List Bool) : Out (Hdr × List Bool) := do
  let len ← getField h c!"len"
  if len.val.isSome then .ok (h, as)
  else do
    let v ← parseBytesA (decStr (sumSizes (h :: above))) 2 as
    .ok (setVal h c!"len" v.1, v.2)

/-- `ipv4_fill_defaults`, header checksum (ef-ipv4.c:35-47). -/
def fillIpv4ChksumA (h : Hdr) (as : List Bool) : Out (Hdr × List Bool) := do
  let chksum ← getField h c!"chksum"
  if chksum.val.isSome then .ok (h, as)
  else if (grant as).1 then do
    let b ← copyHdr false h 0 (balloc 20)
    let v ← parseBytesA (decStr (inetChksum 0 b)) 2 (grant as).2
    .ok (setVal h c!"chksum" v.1, v.2)
  else .ub .nullDeref

/-- `ipv4_fill_defaults` (ef-ipv4.c:4-50). -/
def fillIpv4A (h : Hdr) (above : List Hdr) (as : List Bool) : Out (Hdr × List Bool) := do
  let x ← fillIpv4ProtoA h above as
  let x ← fillIpv4LenA x.1 above x.2
  fillIpv4ChksumA x.1 x.2

/-- `ipv6_fill_defaults`, next header (ef-ipv6.c:10-19). -/
def fillIpv6NextA (h : Hdr) (above : List Hdr) (as : List Bool) : Out (Hdr × List Bool) := do
  let next ← getField h c!"next"
  if next.val.isSome then .ok (h, as)
  else do
    let v ← parseBytesA (nextProto above) 1 as
    .ok (setVal h c!"next" v.1, v.2)

/-- `ipv6_fill_defaults`, payload length (ef-ipv6.c:21-32). -/
def fillIpv6LenA (h : Hdr) (above : List Hdr) (as : List Bool) : Out (Hdr × List Bool) := do
  let len ← getField h c!"len"
  if len.val.isSome then .ok (h, as)
  else do
    let v ← parseBytesA (decStr (sumSizes above)) 2 as
    .ok (setVal h c!"len" v.1, v.2)

/-- `ipv6_fill_defaults` (ef-ipv6.c:4-35). -/
def fillIpv6A (h : Hdr) (above : List Hdr) (as : List Bool) : Out (Hdr × List Bool) := do
  let x ← fillIpv6NextA h above as
  fillIpv6LenA x.1 above x.2

end Ef

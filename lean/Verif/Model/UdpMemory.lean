import Verif.Model.FillMemory

/-!
# UDP and TCP checksums when memory runs out (ef-udp.c:34-100)

The answers of the allocator are a list as in `Exhausted`. Failures of `parse_bytes` and `bclone` are not looked at; a NULL from `hdr_clone` or
`balloc` is used.
-/

namespace Ef

/-- Build the pseudo header (ef-udp.c:66-79). -/
def fillPseudoA (pseudo ll : Hdr) (proto : CStr) (len : Nat) (as : List Bool) : Out (Hdr × List Bool) := do
  let sip ← getField ll c!"sip"
  let dip ← getField ll c!"dip"
  let s := bcloneA sip.val as
  let p := setVal pseudo c!"sip" s.1
  let d := bcloneA dip.val s.2
  let p := setVal p c!"dip" d.1
  let pr ← parseBytesA proto 1 d.2
  let p := setVal p c!"proto" pr.1
  let lf ← getField p c!"len"
  let l ← parseBytesA (decStr len) (lf.width / 8) pr.2
  .ok (setVal p c!"len" l.1, l.2)

/-- `udp_tcp_fill_defaults`, UDP length (ef-udp.c:45-49). -/
def fillUdpLenA (h : Hdr) (above : List Hdr) (as : List Bool) : Out (Hdr × List Bool) :=
  match findField h c!"len" with
  | none => .ok (h, as)
  | some len =>
    if len.val.isSome then .ok (h, as)
    else do
      let v ← parseBytesA (decStr (sumSizes (h :: above))) 2 as
      .ok (setVal h c!"len" v.1, v.2)

/-- The sum over pseudo header and data (ef-udp.c:66-94) with the clone of the pseudo header. -/
def udpSumA (ps ll h : Hdr) (above : List Hdr) (as : List Bool) : Out (Option Buf × List Bool) := do
  let len := sumSizes (h :: above)
  let p ← fillPseudoA ps ll (decStr h.type) len as
  if (grant p.2).1 then do
    let b ← copyHdr false p.1 0 (balloc (len + p.1.size))
    let b ← copyHdrs false (h :: above) p.1.size b
    parseBytesA (decStr (inetChksum 0 b)) 2 (grant p.2).2
  else .ub .nullDeref

/-- `udp_tcp_fill_defaults`, checksum (ef-udp.c:51-98). -/
def fillUdpChksumA (below : List Hdr) (h : Hdr) (above : List Hdr) (as : List Bool) : Out (Hdr × List Bool) := do
  let chksum ← getField h c!"chksum"
  if chksum.val.isSome then .ok (h, as)
  else
    match below.getLast? with
    | none => .ok (h, as)
    | some ll =>
      match pseudoFor ll with
      | none => .ok (h, as)
      | some ps =>
        match hdrCloneA ps as with
        | (none, _) => .ub .nullDeref
        | (some ps, as) => do
          let v ← udpSumA ps ll h above as
          .ok (setVal h c!"chksum" v.1, v.2)

/-- `udp_tcp_fill_defaults` (ef-udp.c:34-100). -/
def fillUdpTcpA (below : List Hdr) (h : Hdr) (above : List Hdr) (as : List Bool) : Out (Hdr × List Bool) := do
  let x ← fillUdpLenA h above as
  fillUdpChksumA below x.1 above x.2

end Ef

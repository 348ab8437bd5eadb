import Verif.Model.Buf
import Verif.Model.Tables

/-!
# Model of the `frame_fill_defaults` functions

In C these functions get the frame and a stack index and modify only `f->stack[stack_idx]`. Here they get
the headers before (`below`, in stack order), the header itself, and the headers after (`above`), and return
the new header. `frame_to_buf` calls them from the last header to the first, so `above` has been filled
already and `below` has not.
-/

namespace Ef

/-- `ether_type_fill_defaults` (ef.c:153-169), used by `eth_fill_defaults` (ef-eth.c:4-6) and
`vlan_fill_defaults` (ef-vlan.c:3-5). -/
def fillEtherType (h : Hdr) (above : List Hdr) : Out Hdr := do
  let et ← getField h c!"et"
  if et.val.isSome then .ok h
  else
    match above with
    | n :: _ => do
      let v ← parseBytes (decStr n.type) 2
      .ok (setVal h c!"et" v)
    | [] => .ok h

/-- The text for `proto`/`next`: the type of the next header, or 17 (ef-ipv4.c:12-18, ef-ipv6.c:11-17). -/
def nextProto (above : List Hdr) : CStr :=
  match above with
  | n :: _ => decStr n.type
  | [] => c!"17"

/-- `ipv4_fill_defaults`, protocol (ef-ipv4.c:11-20). -/
def fillIpv4Proto (h : Hdr) (above : List Hdr) : Out Hdr := do
  let proto ← getField h c!"proto"
  if proto.val.isSome then .ok h
  else do
    let v ← parseBytes (nextProto above) 1
    .ok (setVal h c!"proto" v)

/-- `ipv4_fill_defaults`, total length (ef-ipv4.c:22-33). -/
def fillIpv4Len (h : Hdr) (above : List Hdr) : Out Hdr := do
  let len ← getField h c!"len"
  if len.val.isSome then .ok h
  else do
    let v ← parseBytes (decStr (sumSizes (h :: above))) 2
    .ok (setVal h c!"len" v)

/-- `ipv4_fill_defaults`, header checksum (ef-ipv4.c:35-47). -/
def fillIpv4Chksum (h : Hdr) : Out Hdr := do
  let chksum ← getField h c!"chksum"
  if chksum.val.isSome then .ok h
  else do
    let b ← copyHdr false h 0 (balloc 20)
    let v ← parseBytes (decStr (inetChksum 0 b)) 2
    .ok (setVal h c!"chksum" v)

/-- `ipv4_fill_defaults` (ef-ipv4.c:4-50). -/
def fillIpv4 (h : Hdr) (above : List Hdr) : Out Hdr := do
  let h ← fillIpv4Proto h above
  let h ← fillIpv4Len h above
  fillIpv4Chksum h

/-- `ipv6_fill_defaults`, next header (ef-ipv6.c:10-19). -/
def fillIpv6Next (h : Hdr) (above : List Hdr) : Out Hdr := do
  let next ← getField h c!"next"
  if next.val.isSome then .ok h
  else do
    let v ← parseBytes (nextProto above) 1
    .ok (setVal h c!"next" v)

/-- `ipv6_fill_defaults`, payload length (ef-ipv6.c:21-32). -/
def fillIpv6Len (h : Hdr) (above : List Hdr) : Out Hdr := do
  let len ← getField h c!"len"
  if len.val.isSome then .ok h
  else do
    let v ← parseBytes (decStr (sumSizes above)) 2
    .ok (setVal h c!"len" v)

/-- `ipv6_fill_defaults` (ef-ipv6.c:4-35). -/
def fillIpv6 (h : Hdr) (above : List Hdr) : Out Hdr := do
  let h ← fillIpv6Next h above
  fillIpv6Len h above

/-- Build the pseudo header: addresses from the IP header below, protocol and length
(ef-udp.c:66-79, ef-icmp.c:30-42). -/
def fillPseudo (pseudo ll : Hdr) (proto : CStr) (len : Nat) : Out Hdr := do
  let sip ← getField ll c!"sip"
  let dip ← getField ll c!"dip"
  let p := setVal pseudo c!"sip" (bclone sip.val)
  let p := setVal p c!"dip" (bclone dip.val)
  let pr ← parseBytes proto 1
  let p := setVal p c!"proto" pr
  let lf ← getField p c!"len"
  let l ← parseBytes (decStr len) (lf.width / 8)
  .ok (setVal p c!"len" l)

/-- `udp_tcp_fill_defaults`, UDP length (ef-udp.c:45-49). TCP has no `len` field. -/
def fillUdpLen (h : Hdr) (above : List Hdr) : Out Hdr :=
  match findField h c!"len" with
  | none => .ok h
  | some len =>
    if len.val.isSome then .ok h
    else do
      let v ← parseBytes (decStr (sumSizes (h :: above))) 2
      .ok (setVal h c!"len" v)

/-- The pseudo header template for the header below (ef-udp.c:58-64). -/
def pseudoFor (ll : Hdr) : Option Hdr :=
  if ll.name = c!"ipv4" then some HDR_IPV4_PSEUDO
  else if ll.name = c!"ipv6" then some HDR_IPV6_PSEUDO
  else none

/-- `udp_tcp_fill_defaults`, checksum (ef-udp.c:51-98). -/
def fillUdpChksum (below : List Hdr) (h : Hdr) (above : List Hdr) : Out Hdr := do
  let chksum ← getField h c!"chksum"
  if chksum.val.isSome then .ok h
  else
    match below.getLast? with
    | none => .ok h
    | some ll =>
      match pseudoFor ll with
      | none => .ok h
      | some ps => do
        let len := sumSizes (h :: above)
        let p ← fillPseudo ps ll (decStr h.type) len
        let b ← copyHdr false p 0 (balloc (len + p.size))
        let b ← copyHdrs false (h :: above) p.size b
        let v ← parseBytes (decStr (inetChksum 0 b)) 2
        .ok (setVal h c!"chksum" v)

/-- `udp_tcp_fill_defaults` (ef-udp.c:34-100). -/
def fillUdpTcp (below : List Hdr) (h : Hdr) (above : List Hdr) : Out Hdr := do
  let h ← fillUdpLen h above
  fillUdpChksum below h above

/-- Is the header directly below an IPv6 header? (ef-icmp.c:24-27) -/
def ipv6Below (below : List Hdr) : Option Hdr :=
  match below.getLast? with
  | some ll => if ll.name = c!"ipv6" then some ll else none
  | none => none

/-- `icmp_fill_defaults` (ef-icmp.c:8-67). -/
def fillIcmp (below : List Hdr) (h : Hdr) (above : List Hdr) : Out Hdr := do
  let chksum ← getField h c!"chksum"
  if chksum.val.isSome then .ok h
  else
    let len := sumSizes (h :: above)
    match ipv6Below below with
    | some ll => do
      let p ← fillPseudo HDR_IPV6_PSEUDO ll c!"58" len
      let h := { h with type := 58 }
      let b ← copyHdr false p 0 (balloc (len + p.size))
      let b ← copyHdrs false (h :: above) p.size b
      let v ← parseBytes (decStr (inetChksum 0 b)) 2
      .ok (setVal h c!"chksum" v)
    | none => do
      let b ← copyHdrs false (h :: above) 0 (balloc len)
      let v ← parseBytes (decStr (inetChksum 0 b)) 2
      .ok (setVal h c!"chksum" v)

/-- "Is one of these fields given": the search loops of igmp/mld (ef-igmp.c:17-23, 41-47; ef-mld.c:29-35,
53-59). A missing field would be a null pointer access. -/
def anyGiven (h : Hdr) : List CStr → Out Bool
  | [] => .ok false
  | n :: ns => do
    let f ← getField h n
    if f.val.isSome || f.dflt.isSome then .ok true else anyGiven h ns

/-- Set the width of the named fields to 0 (ef-igmp.c:29-32, 53-56; ef-mld.c:41-44, 65-68; ef-sv.c:30-33). -/
def zeroWidths (h : Hdr) : List CStr → Hdr
  | [] => h
  | n :: ns => zeroWidths (updField h n (fun f => { f with width := 0 })) ns

/-- ef-igmp.c:11, ef-mld.c:13. -/
def queryFields : List CStr := [c!"qresv", c!"s", c!"qrv", c!"qqic", c!"ns"]

/-- ef-igmp.c:12, ef-mld.c:14. -/
def reportFields : List CStr := [c!"rresv", c!"ng"]

/-- The query part of igmp/mld: without query fields the header is 4 bytes shorter
(ef-igmp.c:14-35, ef-mld.c:26-47). -/
def adjustQuery (h : Hdr) : Out Hdr := do
  if ← anyGiven h queryFields then .ok h
  else .ok (zeroWidths { h with size := u32Sub h.size 4 } queryFields)

/-- The report part of igmp (ef-igmp.c:37-73). -/
def adjustReportIgmp (h : Hdr) : Out Hdr := do
  if ← anyGiven h reportFields then
    let h := zeroWidths { h with size := u32Sub h.size 4 } [c!"ga"]
    let h := updField h c!"rresv" (fun f => { f with offset := 32 })
    .ok (updField h c!"ng" (fun f => { f with offset := 48 }))
  else .ok (zeroWidths { h with size := u32Sub h.size 4 } reportFields)

/-- The report part of mld (ef-mld.c:49-90). -/
def adjustReportMld (h : Hdr) : Out Hdr := do
  if ← anyGiven h reportFields then
    let h := zeroWidths { h with size := u32Sub h.size 20 } [c!"ga", c!"max_resp", c!"rsv"]
    let h := updField h c!"rresv" (fun f => { f with offset := 32 })
    .ok (updField h c!"ng" (fun f => { f with offset := 48 }))
  else .ok (zeroWidths { h with size := u32Sub h.size 4 } reportFields)

/-- `igmp_fill_defaults`, checksum (ef-igmp.c:75-98). -/
def fillIgmpChksum (h : Hdr) (above : List Hdr) : Out Hdr := do
  let chksum ← getField h c!"chksum"
  if chksum.val.isSome then .ok h
  else do
    let b ← copyHdrs false (h :: above) 0 (balloc (sumSizes (h :: above)))
    let v ← parseBytes (hexStr (inetChksum 0 b)) 2
    .ok (setVal h c!"chksum" v)

/-- `igmp_fill_defaults` (ef-igmp.c:4-101). -/
def fillIgmp (h : Hdr) (above : List Hdr) : Out Hdr := do
  let h ← adjustQuery h
  let h ← adjustReportIgmp h
  fillIgmpChksum h above

/-- `htonl` seen as bytes in memory (ef-mld.c:145). -/
def be32Bytes (n : Nat) : Buf :=
  [BitVec.ofNat 8 (n >>> 24), BitVec.ofNat 8 (n >>> 16), BitVec.ofNat 8 (n >>> 8), BitVec.ofNat 8 n]

/-- The pseudo header structure of mld as bytes in memory (ef-mld.c:18-24, 97, 137-149). -/
def mldPseudo (sip dip : Buf) (len : Nat) : Buf := sip ++ dip ++ be32Bytes len ++ [0#8, 0#8, 0#8, 58#8]

/-- An address of the IPv6 header, or `exit(-1)` (ef-mld.c:115-138). `exit(-1)` is exit status 255. -/
def mldAddr (ip : Hdr) (name : CStr) : Out Buf :=
  match findField ip name with
  | none => .exit (-1)
  | some f =>
    match f.val with
    | none => .exit (-1)
    | some a => if a.length ≠ 16 then .exit (-1) else .ok a

/-- `mld_fill_defaults`, checksum (ef-mld.c:92-176). The first IPv6 header of the stack is used. -/
def fillMldChksum (below : List Hdr) (h : Hdr) (above : List Hdr) : Out Hdr := do
  let chksum ← getField h c!"chksum"
  if chksum.val.isSome then .ok h
  else
    match below.find? (fun x => x.name == c!"ipv6") with
    | none => .exit (-1)
    | some ip => do
      let sip ← mldAddr ip c!"sip"
      let dip ← mldAddr ip c!"dip"
      let len := sumSizes (h :: above)
      let sum := chksumLoop 0 (mldPseudo sip dip len)
      let b ← copyHdrs false (h :: above) 0 (balloc len)
      let v ← parseBytes (hexStr (inetChksum sum b)) 2
      .ok (setVal h c!"chksum" v)

/-- `mld_fill_defaults` (ef-mld.c:5-179). -/
def fillMld (below : List Hdr) (h : Hdr) (above : List Hdr) : Out Hdr := do
  let h ← adjustQuery h
  let h ← adjustReportMld h
  fillMldChksum below h above

/-- ef-sv.c:14. -/
def tlv2Fields : List CStr := [c!"tlv2_type", c!"tlv2_len", c!"tlv2_mac"]

/-- Search loop of sv: only explicit values count (ef-sv.c:18-24). -/
def anyVal (h : Hdr) : List CStr → Out Bool
  | [] => .ok false
  | n :: ns => do
    let f ← getField h n
    if f.val.isSome then .ok true else anyVal h ns

/-- `sv_fill_defaults` (ef-sv.c:9-37). -/
def fillSv (h : Hdr) : Out Hdr := do
  if ← anyVal h tlv2Fields then .ok h
  else .ok (zeroWidths { h with size := u32Sub h.size 8 } tlv2Fields)

/-- `coap_fill_defaults` (ef-coap.c:111-125). `COAP_FIELD_TOKEN` is index 5. -/
def fillCoap (h : Hdr) : Out Hdr := do
  let tkl ← getField h c!"tkl"
  let token ← getField h c!"token"
  if tkl.val.isSome then .ok h
  else if token.val.isNone then .ok h
  else
    match h.fields[5]? with
    | none => .ub .oobRead
    | some t => do
      let v ← parseBytes (decStr (bitToByte t.width)) 1
      .ok (setVal h c!"tkl" v)

/-- Nibble and extension bytes of an option delta or length (ef-coap.c:193-207, 209-223). -/
def coapNibble (n : Nat) : Nat × Buf :=
  if n > 12 then
    if n > 268 then (14, [BitVec.ofNat 8 ((n - 269) >>> 8), BitVec.ofNat 8 (n - 269)])
    else (13, [BitVec.ofNat 8 (n - 13)])
  else (n, [])

/-- The option header bytes (ef-coap.c:189-229). `delta` and `len` are `uint16_t`. -/
def coapOptHdr (delta len : Nat) : Buf :=
  let d := coapNibble delta
  let l := coapNibble len
  ((BitVec.ofNat 8 d.1 <<< 4) ||| (BitVec.ofNat 8 l.1 &&& 0x0f#8)) :: (d.2 ++ l.2)

/-- Recompute consecutive bit offsets of all fields (ef-coap.c:69-74, 233-237, ef-profinet.c:34-39). All
three callers iterate over all fields of the header. Result: fields and the final offset. -/
def relayout : List Field → Nat → List Field × Nat
  | [], off => ([], off)
  | f :: fs, off =>
    let (fs', off') := relayout fs (off + f.width)
    ({ f with offset := off } :: fs', off')

/-- Relayout of a header; size becomes `offset / 8`. -/
def relayoutHdr (h : Hdr) : Hdr :=
  let (fs, off) := relayout h.fields 0
  { h with fields := fs, size := off / 8 }

/-- `options_fill_defaults` (ef-coap.c:166-241). -/
def fillCoapOpt (h : Hdr) : Out Hdr := do
  let fnum ← getField h c!"num"
  let fval ← getField h c!"val"
  match fnum.val, fval.val with
  | some n, some v =>
    match n with
    | d0 :: d1 :: _ =>
      let bb := coapOptHdr ((d0.toNat * 256 + d1.toNat) % 2 ^ 16) (v.length % 2 ^ 16)
      let h := setVal h c!"num" (some bb)
      let h := { h with fields := h.fields.modify 0 (fun f => { f with width := bb.length * 8 }) }
      .ok (relayoutHdr h)
    | _ => .ub .oobRead
  | _, _ => .ok h

/-- PTP `fill_defaults` (ef-ptp.c:6-26). -/
def fillPtp (h : Hdr) (above : List Hdr) : Out Hdr :=
  match findField h c!"hdr-messageLength" with
  | none => .ok h
  | some len =>
    if len.val.isSome then .ok h
    else do
      let v ← parseBytes (decStr (sumSizes (h :: above))) 2
      .ok (setVal h c!"hdr-messageLength" v)

/-- PTP `tlv_fill_defaults` (ef-ptp.c:28-51). The length is an `int` and could be negative for a short
header. -/
def fillPtpTlv (h : Hdr) (above : List Hdr) : Out Hdr :=
  match findField h c!"tlv-length" with
  | none => .ok h
  | some len =>
    if len.val.isSome then .ok h
    else do
      let v ← parseBytes (decStrInt ((sumSizes (h :: above) : Int) - 4)) 2
      .ok (setVal h c!"tlv-length" v)

/-- The call `f->stack[i]->frame_fill_defaults(f, i)` (ef.c:471-473). -/
def fillHdr (below : List Hdr) (h : Hdr) (above : List Hdr) : Out Hdr :=
  match h.fill with
  | .none => .ok h
  | .etherType => fillEtherType h above
  | .ipv4 => fillIpv4 h above
  | .ipv6 => fillIpv6 h above
  | .udpTcp => fillUdpTcp below h above
  | .icmp => fillIcmp below h above
  | .igmp => fillIgmp h above
  | .mld => fillMld below h above
  | .sv => fillSv h
  | .coap => fillCoap h
  | .coapOpt => fillCoapOpt h
  | .ptp => fillPtp h above
  | .ptpTlv => fillPtpTlv h above

/-- The loop of `frame_to_buf` that fills defaults from the last header to the first (ef.c:471-473).
`below` are the headers before the given ones. -/
def fillStack (below : List Hdr) : List Hdr → Out (List Hdr)
  | [] => .ok []
  | h :: hs => do
    let hs' ← fillStack (below ++ [h]) hs
    let h' ← fillHdr below h hs'
    .ok (h' :: hs')

/-- `if (frame_size < 60) frame_size = 60` (ef.c:481-482). -/
def frameSize (hs : List Hdr) : Nat := if sumSizes hs < 60 then 60 else sumSizes hs

/-- `frame_to_buf` (ef.c:465-492): the modified frame and its bytes. -/
def frameToBuf (f : Frame) : Out (Frame × Buf) := do
  let st ← fillStack [] f.stack
  let b ← copyHdrs false st 0 (balloc (frameSize st))
  .ok ({ f with stack := st }, b)

/-- `frame_mask_to_buf` (ef.c:494-522). -/
def frameMaskToBuf (f : Frame) : Out Buf :=
  let n := sumSizes f.stack
  let total := frameSize f.stack
  copyHdrs true f.stack 0 (balloc n ++ List.replicate (total - n) 0xff#8)

/-- `frame_def` (ef.c:283-299): a header rendered from its defaults only. -/
def frameDef (h : Hdr) : Out Buf :=
  h.fields.foldlM (fun b f => match f.dflt with
    | some d => writeField b 0 f d
    | none => .ok b) (balloc h.size)

end Ef

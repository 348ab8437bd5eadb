import Verif.Model.Fill

/-!
# What `mld_fill_defaults` prints before it ends the program (ef-mld.c:110-135)

Each text is followed by `exit(-1)`. What `%p` prints for the null pointers `sip` and `dip` (ef-mld.c:10) is up to the C
library (`(nil)` with glibc): the text has it as a parameter.
-/

namespace Ef

/-- The texts (ef-mld.c:111, 117, 123, 128, 133). -/
inductive MldMsg where
  | noIpv6
  | noSipField
  | noDipField
  | sipNotSet
  | dipNotSet
  deriving DecidableEq, Repr

/-- The bytes of a text; `nil` is what `%p` gives for a null pointer. -/
def mldText (nil : CStr) : MldMsg → CStr
  | .noIpv6 => c!"Error: MLD fields must be preceded by an IPv6 header (sip = " ++ nil ++ c!", dip = " ++ nil ++ c!")" ++ [10#8]
  | .noSipField => c!"Internal error: \"sip\" field not found in IPv6 header" ++ [10#8]
  | .noDipField => c!"Internal error: \"dip\" field not found in IPv6 header" ++ [10#8]
  | .sipNotSet => c!"Error: IPv6 header's SIP is not set or its size is not 16 bytes" ++ [10#8]
  | .dipNotSet => c!"Error: IPv6 header's DIP is not set or its size is not 16 bytes" ++ [10#8]

/-- `!sip->val || !sip->val->data || sip->val->size != 16` (ef-mld.c:127, 132). -/
def mldUnset (f : Field) : Bool :=
  match f.val with
  | none => true
  | some a => decide (a.length ≠ 16)

/-- What is printed between the test of the checksum and the pseudo header (ef-mld.c:92-135). -/
def mldChksumMsgs (below : List Hdr) (h : Hdr) : List MldMsg :=
  match findField h c!"chksum" with
  | none => []
  | some chksum =>
    if chksum.val.isSome then []
    else
      match below.find? (fun x => x.name == c!"ipv6") with
      | none => [.noIpv6]
      | some ip =>
        match findField ip c!"sip" with
        | none => [.noSipField]
        | some sip =>
          match findField ip c!"dip" with
          | none => [.noDipField]
          | some dip => if mldUnset sip then [.sipNotSet] else if mldUnset dip then [.dipNotSet] else []

/-- What `fill_defaults` of a header prints: only that of `mld` prints anything (ef-mld.c:5-179). -/
def fillHdrMsgs (below : List Hdr) (h : Hdr) : List MldMsg :=
  match h.fill with
  | .mld =>
    match (do let h ← adjustQuery h; adjustReportMld h : Out Hdr) with
    | .ok h => mldChksumMsgs below h
    | _ => []
  | _ => []

/-- What the loop of `frame_to_buf` prints (ef.c:471-473): from the last header to the first, as long as the program
runs. -/
def fillStackMsgs (below : List Hdr) : List Hdr → List MldMsg
  | [] => []
  | h :: hs => fillStackMsgs (below ++ [h]) hs ++
      match fillStack (below ++ [h]) hs with
      | .ok _ => fillHdrMsgs below h
      | _ => []

/-- What `frame_to_buf` prints (ef.c:465-492). -/
def buildMsgs (f : Frame) : List MldMsg := fillStackMsgs [] f.stack

end Ef

import Verif.Model.Basic

/-!
# Layouts of protocol headers in the documents that define them

Written down from the documents, not from the program: only the type of strings is imported. A field is given by the byte
its first bit lies in, the number of this bit in the byte (0 is the most significant bit) and its number of bits. Field and
header names are those of the command line (`ef NAME help`).
-/

namespace Ef.Spec

open Ef

/-- A field of a header: name, byte, bit in this byte, number of bits. -/
structure StdField where
  name : CStr
  byte : Nat
  bit : Nat
  bits : Nat
deriving DecidableEq, Repr

/-- A header: name, number of bytes, fields. -/
structure StdHdr where
  name : CStr
  bytes : Nat
  fields : List StdField
deriving DecidableEq, Repr

/-- IEEE 802.3: destination, source, length/type. -/
def stdEth : StdHdr := ⟨c!"eth", 14, [⟨c!"dmac", 0, 0, 48⟩, ⟨c!"smac", 6, 0, 48⟩, ⟨c!"et", 12, 0, 16⟩]⟩

/-- IEEE 802.1Q: tag control information of a tag, followed by the type of what it contains. The type of the tag itself
is the last field of the header before. -/
def stdTag (name : CStr) : StdHdr :=
  ⟨name, 4, [⟨c!"pcp", 0, 0, 3⟩, ⟨c!"dei", 0, 3, 1⟩, ⟨c!"vid", 0, 4, 12⟩, ⟨c!"et", 2, 0, 16⟩]⟩

/-- IEEE 802.1CB: redundancy tag. -/
def stdRtag : StdHdr := ⟨c!"rtag", 6, [⟨c!"recv", 0, 0, 16⟩, ⟨c!"seqn", 2, 0, 16⟩, ⟨c!"et", 4, 0, 16⟩]⟩

/-- IEC 62439-3: HSR tag. -/
def stdHtag : StdHdr :=
  ⟨c!"htag", 6, [⟨c!"pathid", 0, 0, 4⟩, ⟨c!"size", 0, 4, 12⟩, ⟨c!"seqn", 2, 0, 16⟩, ⟨c!"et", 4, 0, 16⟩]⟩

/-- IEC 62439-3: redundancy control trailer of PRP. -/
def stdPrp : StdHdr :=
  ⟨c!"prp", 6, [⟨c!"seqn", 0, 0, 16⟩, ⟨c!"lanid", 2, 0, 4⟩, ⟨c!"size", 2, 4, 12⟩, ⟨c!"suffix", 4, 0, 16⟩]⟩

/-- RFC 826 for Ethernet and IPv4. -/
def stdArp : StdHdr :=
  ⟨c!"arp", 28, [⟨c!"htype", 0, 0, 16⟩, ⟨c!"ptype", 2, 0, 16⟩, ⟨c!"hlen", 4, 0, 8⟩, ⟨c!"plen", 5, 0, 8⟩, ⟨c!"oper", 6, 0, 16⟩,
    ⟨c!"sha", 8, 0, 48⟩, ⟨c!"spa", 14, 0, 32⟩, ⟨c!"tha", 18, 0, 48⟩, ⟨c!"tpa", 24, 0, 32⟩]⟩

/-- RFC 791; RFC 2474 and RFC 3168 for the second byte. -/
def stdIpv4 : StdHdr :=
  ⟨c!"ipv4", 20, [⟨c!"ver", 0, 0, 4⟩, ⟨c!"ihl", 0, 4, 4⟩, ⟨c!"dscp", 1, 0, 6⟩, ⟨c!"ecn", 1, 6, 2⟩, ⟨c!"len", 2, 0, 16⟩,
    ⟨c!"id", 4, 0, 16⟩, ⟨c!"flags", 6, 0, 3⟩, ⟨c!"offset", 6, 3, 13⟩, ⟨c!"ttl", 8, 0, 8⟩, ⟨c!"proto", 9, 0, 8⟩,
    ⟨c!"chksum", 10, 0, 16⟩, ⟨c!"sip", 12, 0, 32⟩, ⟨c!"dip", 16, 0, 32⟩]⟩

/-- RFC 8200. -/
def stdIpv6 : StdHdr :=
  ⟨c!"ipv6", 40, [⟨c!"ver", 0, 0, 4⟩, ⟨c!"dscp", 0, 4, 6⟩, ⟨c!"ecn", 1, 2, 2⟩, ⟨c!"flow", 1, 4, 20⟩, ⟨c!"len", 4, 0, 16⟩,
    ⟨c!"next", 6, 0, 8⟩, ⟨c!"hlim", 7, 0, 8⟩, ⟨c!"sip", 8, 0, 128⟩, ⟨c!"dip", 24, 0, 128⟩]⟩

/-- RFC 792: the first eight bytes of any message. -/
def stdIcmp : StdHdr := ⟨c!"icmp", 8, [⟨c!"type", 0, 0, 8⟩, ⟨c!"code", 1, 0, 8⟩, ⟨c!"chksum", 2, 0, 16⟩, ⟨c!"hd", 4, 0, 32⟩]⟩

/-- RFC 3376, section 4.2.4: group record. -/
def stdIgmpv3Group : StdHdr :=
  ⟨c!"igmpv3_group", 8, [⟨c!"rec_type", 0, 0, 8⟩, ⟨c!"auxlen", 1, 0, 8⟩, ⟨c!"ns", 2, 0, 16⟩, ⟨c!"ga", 4, 0, 32⟩]⟩

/-- RFC 3810, section 5.2: multicast address record. -/
def stdMldv2Group : StdHdr :=
  ⟨c!"mldv2_group", 20, [⟨c!"rec_type", 0, 0, 8⟩, ⟨c!"auxlen", 1, 0, 8⟩, ⟨c!"ns", 2, 0, 16⟩, ⟨c!"ga", 4, 0, 128⟩]⟩

/-- RFC 768. -/
def stdUdp : StdHdr :=
  ⟨c!"udp", 8, [⟨c!"sport", 0, 0, 16⟩, ⟨c!"dport", 2, 0, 16⟩, ⟨c!"len", 4, 0, 16⟩, ⟨c!"chksum", 6, 0, 16⟩]⟩

/-- RFC 793, section 3.1. -/
def stdTcp : StdHdr :=
  ⟨c!"tcp", 20, [⟨c!"sport", 0, 0, 16⟩, ⟨c!"dport", 2, 0, 16⟩, ⟨c!"seqn", 4, 0, 32⟩, ⟨c!"ackn", 8, 0, 32⟩, ⟨c!"doff", 12, 0, 4⟩,
    ⟨c!"resv", 12, 4, 6⟩, ⟨c!"urg", 13, 2, 1⟩, ⟨c!"ack", 13, 3, 1⟩, ⟨c!"psh", 13, 4, 1⟩, ⟨c!"rst", 13, 5, 1⟩, ⟨c!"syn", 13, 6, 1⟩,
    ⟨c!"fin", 13, 7, 1⟩, ⟨c!"win", 14, 0, 16⟩, ⟨c!"chksum", 16, 0, 16⟩, ⟨c!"urgp", 18, 0, 16⟩]⟩

/-- ITU-T G.8013, clause 9.1: the first bytes of every OAM message. -/
def stdOam : List StdField := [⟨c!"mel", 0, 0, 3⟩, ⟨c!"version", 0, 3, 5⟩, ⟨c!"opcode", 1, 0, 8⟩]

/-- ITU-T G.8013, clause 9.2: continuity check message (one trailing TLV is added by the program). Two fields are called
`reserved`; only the first one can be named. -/
def stdCcm : StdHdr :=
  ⟨c!"oam-ccm", 78, stdOam ++ [⟨c!"rdi", 2, 0, 1⟩, ⟨c!"reserved", 2, 1, 4⟩, ⟨c!"period", 2, 5, 3⟩, ⟨c!"tlv_off", 3, 0, 8⟩,
    ⟨c!"seq_num", 4, 0, 32⟩, ⟨c!"mep_id", 8, 0, 16⟩, ⟨c!"txfcf", 58, 0, 32⟩, ⟨c!"rxfcb", 62, 0, 32⟩, ⟨c!"txfcb", 66, 0, 32⟩,
    ⟨c!"end_tlv", 74, 0, 8⟩, ⟨c!"tlv_length", 75, 0, 16⟩, ⟨c!"tlv_value", 77, 0, 8⟩]⟩

/-- ITU-T G.8031, clause 11.1: APS message (padded by the program). -/
def stdLaps : StdHdr :=
  ⟨c!"oam-laps", 58, stdOam ++ [⟨c!"flags", 2, 0, 8⟩, ⟨c!"tlv_off", 3, 0, 8⟩, ⟨c!"req_sta", 4, 0, 4⟩, ⟨c!"prot_type", 4, 4, 4⟩,
    ⟨c!"request_sig", 5, 0, 8⟩, ⟨c!"bridge_sig", 6, 0, 8⟩, ⟨c!"t", 7, 0, 1⟩, ⟨c!"reserved", 7, 1, 7⟩]⟩

/-- ITU-T G.8013, clauses 9.3 and 9.4: loopback message with a test TLV (padded by the program). -/
def stdLb : StdHdr :=
  ⟨c!"oam-lb", 73, stdOam ++ [⟨c!"flags", 2, 0, 8⟩, ⟨c!"tlv_off", 3, 0, 8⟩, ⟨c!"trans_id", 4, 0, 32⟩, ⟨c!"type", 8, 0, 8⟩,
    ⟨c!"tlv_length", 9, 0, 16⟩, ⟨c!"pattern_type", 11, 0, 8⟩]⟩

/-- ITU-T G.8013, clauses 9.5 and 9.6: link trace message (padded by the program). -/
def stdLt : StdHdr :=
  ⟨c!"oam-lt", 68, stdOam ++ [⟨c!"flags", 2, 0, 8⟩, ⟨c!"tlv_off", 3, 0, 8⟩, ⟨c!"trans_id", 4, 0, 32⟩]⟩

/-- ITU-T G.8032, clause 10.3: R-APS message (padded by the program). -/
def stdRaps : StdHdr :=
  ⟨c!"oam-raps", 46, stdOam ++ [⟨c!"flags", 2, 0, 8⟩, ⟨c!"tlv_off", 3, 0, 8⟩, ⟨c!"req_sta", 4, 0, 4⟩, ⟨c!"sub_code", 4, 4, 4⟩,
    ⟨c!"status", 5, 0, 8⟩, ⟨c!"node_id", 6, 0, 48⟩]⟩

/-- IEC 62439-2: the common TLV starting at byte `o` and the end TLV behind it. -/
def stdMrpCommon (o : Nat) : List StdField := [⟨c!"c_type", o, 0, 8⟩, ⟨c!"c_length", o + 1, 0, 8⟩, ⟨c!"c_seq_num", o + 2, 0, 16⟩,
    ⟨c!"c_domain", o + 4, 0, 128⟩, ⟨c!"e_type", o + 20, 0, 8⟩, ⟨c!"e_length", o + 21, 0, 8⟩]

/-- IEC 62439-2: MRP_Test. -/
def stdMrpTst : StdHdr :=
  ⟨c!"mrp_tst", 64, [⟨c!"version", 0, 0, 16⟩, ⟨c!"t_type", 2, 0, 8⟩, ⟨c!"t_length", 3, 0, 8⟩, ⟨c!"t_prio", 4, 0, 16⟩,
    ⟨c!"t_sa", 6, 0, 48⟩, ⟨c!"t_role", 12, 0, 16⟩, ⟨c!"t_state", 14, 0, 16⟩, ⟨c!"t_trans", 16, 0, 16⟩, ⟨c!"t_ts", 18, 0, 32⟩] ++
    stdMrpCommon 22⟩

/-- IEC 62439-2: MRP_TopologyChange. -/
def stdMrpTopo : StdHdr :=
  ⟨c!"mrp_topo", 66, [⟨c!"version", 0, 0, 16⟩, ⟨c!"t_type", 2, 0, 8⟩, ⟨c!"t_length", 3, 0, 8⟩, ⟨c!"t_prio", 4, 0, 16⟩,
    ⟨c!"t_sa", 6, 0, 48⟩, ⟨c!"t_interval", 12, 0, 16⟩] ++ stdMrpCommon 14⟩

/-- IEC 62439-2: MRP_LinkChange. -/
def stdMrpLnk : StdHdr :=
  ⟨c!"mrp_lnk", 68, [⟨c!"version", 0, 0, 16⟩, ⟨c!"t_type", 2, 0, 8⟩, ⟨c!"t_length", 3, 0, 8⟩, ⟨c!"t_sa", 4, 0, 48⟩,
    ⟨c!"t_role", 10, 0, 16⟩, ⟨c!"t_interval", 12, 0, 16⟩, ⟨c!"t_blocked", 14, 0, 16⟩] ++ stdMrpCommon 16⟩

/-- IEC 62439-2: MRP_Option with the sub-TLV of MRP_TestMgrNAck/MRP_TestPropagate. -/
def stdMrpNack : StdHdr :=
  ⟨c!"mrp_prop_nack", 90, [⟨c!"version", 0, 0, 16⟩, ⟨c!"t_type", 2, 0, 8⟩, ⟨c!"t_length", 3, 0, 8⟩, ⟨c!"t_qui", 4, 0, 24⟩,
    ⟨c!"t_sub1_type", 7, 0, 8⟩, ⟨c!"t_sub1_man", 8, 0, 16⟩, ⟨c!"t_s_type", 10, 0, 8⟩, ⟨c!"t_s_length", 11, 0, 8⟩,
    ⟨c!"t_s_prio", 12, 0, 16⟩, ⟨c!"t_s_sa", 14, 0, 48⟩, ⟨c!"t_s_oprio", 20, 0, 16⟩, ⟨c!"t_s_osa", 22, 0, 48⟩] ++ stdMrpCommon 28⟩

/-- IEEE 1588, clause 13.3: common header of PTP messages, without the minor version (misspelled by the program in one
header). -/
def stdPtpHdr : List StdField := [⟨c!"hdr-transportSpecific", 0, 0, 4⟩, ⟨c!"hdr-messageType", 0, 4, 4⟩, ⟨c!"hdr-versionPTP", 1, 4, 4⟩,
    ⟨c!"hdr-messageLength", 2, 0, 16⟩, ⟨c!"hdr-domainNumber", 4, 0, 8⟩, ⟨c!"hdr-reserved1", 5, 0, 8⟩, ⟨c!"hdr-flagField", 6, 0, 16⟩,
    ⟨c!"hdr-correctionField", 8, 0, 64⟩, ⟨c!"hdr-reserved2", 16, 0, 32⟩, ⟨c!"hdr-clockId", 20, 0, 64⟩, ⟨c!"hdr-portNumber", 28, 0, 16⟩,
    ⟨c!"hdr-sequenceId", 30, 0, 16⟩, ⟨c!"hdr-controlField", 32, 0, 8⟩, ⟨c!"hdr-logMessageInterval", 33, 0, 8⟩]

/-- The minor version number of PTP. -/
def stdPtpMinor (name : CStr) : List StdField := [⟨name, 1, 0, 4⟩]

/-- IEEE 1588, clause 5.3.3: a time stamp at byte `o`. -/
def stdStamp (sec nsec : CStr) (o : Nat) : List StdField := [⟨sec, o, 0, 48⟩, ⟨nsec, o + 6, 0, 32⟩]

/-- IEEE 1588, clause 5.3.5: a port identity at byte `o`. -/
def stdPort (o : Nat) : List StdField := [⟨c!"rpi-clockId", o, 0, 64⟩, ⟨c!"rpi-portNumber", o + 8, 0, 16⟩]

/-- IEEE 1588, clause 13: PTP messages. -/
def stdPtp : List StdHdr := [
  ⟨c!"ptp-sync", 44, stdPtpHdr ++ stdPtpMinor c!"hdr-minorVersionPTP" ++ stdStamp c!"ots-secondsField" c!"ots-nanosecondsField" 34⟩,
  ⟨c!"ptp-request", 44, stdPtpHdr ++ stdPtpMinor c!"hdr-minorVersionPTP" ++ stdStamp c!"ots-secondsField" c!"ots-nanosecondsField" 34⟩,
  ⟨c!"ptp-follow-up", 44, stdPtpHdr ++ stdPtpMinor c!"hdr-minorVersionPTP" ++ stdStamp c!"pts-secondsField" c!"pts-nanosecondsField" 34⟩,
  ⟨c!"ptp-response", 54, stdPtpHdr ++ stdPtpMinor c!"hdr-minotrVersionPTP" ++ stdStamp c!"rts-secondsField" c!"rts-nanosecondsField" 34 ++
    stdPort 44⟩,
  ⟨c!"ptp-peer-request", 54, stdPtpHdr ++ stdPtpMinor c!"hdr-minorVersionPTP"⟩,
  ⟨c!"ptp-peer-response", 54, stdPtpHdr ++ stdPtpMinor c!"hdr-minorVersionPTP" ++ stdStamp c!"rts-secondsField" c!"rts-nanosecondsField" 34 ++
    stdPort 44⟩,
  ⟨c!"ptp-peer-response-follow-up", 54, stdPtpHdr ++ stdPtpMinor c!"hdr-minorVersionPTP" ++
    stdStamp c!"rots-secondsField" c!"rots-nanosecondsField" 34 ++ stdPort 44⟩,
  ⟨c!"ptp-announce", 64, stdPtpHdr ++ stdPtpMinor c!"hdr-minorVersionPTP" ++ [⟨c!"ann-offset", 44, 0, 16⟩, ⟨c!"ann-gmPrio1", 47, 0, 8⟩,
    ⟨c!"ann-clockClass", 48, 0, 8⟩, ⟨c!"ann-clockAcc", 49, 0, 8⟩, ⟨c!"ann-offsetScaledLogVariance", 50, 0, 16⟩, ⟨c!"ann-gmPrio2", 52, 0, 8⟩,
    ⟨c!"ann-gmIdentity", 53, 0, 64⟩, ⟨c!"ann-stepsRemoved", 61, 0, 16⟩, ⟨c!"ann-timeSource", 63, 0, 8⟩]⟩]

/-- IEEE 802.1AS, clause 11.4.4.3: Follow_Up information TLV (an organization extension TLV). -/
def stdTlvOrg : StdHdr :=
  ⟨c!"ptp-tlv-org", 32, [⟨c!"tlv-type", 0, 0, 16⟩, ⟨c!"tlv-length", 2, 0, 16⟩, ⟨c!"tlv-org-id", 4, 0, 24⟩, ⟨c!"tlv-org-sub-type", 7, 0, 24⟩,
    ⟨c!"tlv-csro", 10, 0, 32⟩, ⟨c!"tlv-gm-time-base-indicator", 14, 0, 16⟩, ⟨c!"tlv-gm-phase-change-msb-nsec", 16, 0, 16⟩,
    ⟨c!"tlv-gm-phase-change-lsb-nsec", 18, 0, 64⟩, ⟨c!"tlv-gm-phase-change-frac-nsec", 26, 0, 16⟩, ⟨c!"tlv-gm-freq-change", 28, 0, 32⟩]⟩

/-- IEEE 1588, clause 14.1: type and length of any TLV. -/
def stdTlvPath : StdHdr := ⟨c!"ptp-tlv-path", 4, [⟨c!"tlv-type", 0, 0, 16⟩, ⟨c!"tlv-length", 2, 0, 16⟩]⟩

/-- IEC 61158-6-10: RTC frame with 40 bytes of data, followed by cycle counter, data status and transfer status. In the
data status the most significant bit is the ignore bit and the least significant one the state (primary). -/
def stdProfinet : StdHdr :=
  ⟨c!"profinet-rtc", 46, [⟨c!"frameid", 0, 0, 16⟩, ⟨c!"cycle", 42, 0, 16⟩, ⟨c!"reserved2", 44, 1, 1⟩, ⟨c!"station-ok", 44, 2, 1⟩,
    ⟨c!"provider-state-run", 44, 3, 1⟩, ⟨c!"reserved1", 44, 4, 1⟩, ⟨c!"data-valid", 44, 5, 1⟩, ⟨c!"redundancy", 44, 6, 1⟩,
    ⟨c!"primary", 44, 7, 1⟩, ⟨c!"transfer-status", 45, 0, 8⟩]⟩

/-- OPC 10000-14, clause 7.2.4 (UADP network message): the flag bytes. Bit 0 of the document is the least significant
bit. The numbers behind are little-endian there; `pub-id` and `wg-id` are dealt with by C42. -/
def stdOpc : StdHdr :=
  ⟨c!"opc-ua", 15, [⟨c!"flags-flags1", 0, 0, 1⟩, ⟨c!"flags-pl-hdr", 0, 1, 1⟩, ⟨c!"flags-grp-hdr", 0, 2, 1⟩, ⟨c!"flags-pub-id", 0, 3, 1⟩,
    ⟨c!"version", 0, 4, 4⟩, ⟨c!"flags1-flags2", 1, 0, 1⟩, ⟨c!"flags1-pico-seconds", 1, 1, 1⟩, ⟨c!"flags1-timestamp", 1, 2, 1⟩,
    ⟨c!"flags1-security", 1, 3, 1⟩, ⟨c!"flags1-dsc-id", 1, 4, 1⟩, ⟨c!"flags1-pub-id-type", 1, 5, 3⟩, ⟨c!"gflags-rsvd", 4, 0, 4⟩,
    ⟨c!"gflags-seq-num", 4, 4, 1⟩, ⟨c!"gflags-nm-num", 4, 5, 1⟩, ⟨c!"gflags-gversion", 4, 6, 1⟩, ⟨c!"gflags-wg-id", 4, 7, 1⟩]⟩

/-- RFC 7252, section 3. A token, if given, follows these four bytes; the code is dealt with by C41. -/
def stdCoap : StdHdr := ⟨c!"coap", 4, [⟨c!"ver", 0, 0, 2⟩, ⟨c!"type", 0, 2, 2⟩, ⟨c!"tkl", 0, 4, 4⟩, ⟨c!"msgid", 2, 0, 16⟩]⟩

/-- Prefixes of frames injected into Microchip switches, as described by the help texts of the program. -/
def stdPrefixes : List StdHdr := [
  ⟨c!"sp-oc1", 4, [⟨c!"et", 0, 0, 16⟩, ⟨c!"id", 2, 0, 16⟩]⟩,
  ⟨c!"lp-oc1", 16, [⟨c!"dmac", 0, 0, 48⟩, ⟨c!"smac", 6, 0, 48⟩, ⟨c!"et", 12, 0, 16⟩, ⟨c!"id", 14, 0, 16⟩]⟩,
  ⟨c!"sp-jr2", 16, [⟨c!"dmac", 0, 0, 48⟩, ⟨c!"smac", 6, 0, 48⟩, ⟨c!"et", 12, 0, 16⟩, ⟨c!"id", 14, 0, 16⟩]⟩,
  ⟨c!"lp-jr2", 20, [⟨c!"dmac", 0, 0, 48⟩, ⟨c!"smac", 6, 0, 48⟩, ⟨c!"tpid", 12, 0, 16⟩, ⟨c!"pcp", 14, 0, 3⟩, ⟨c!"dei", 14, 3, 1⟩,
    ⟨c!"vid", 14, 4, 12⟩, ⟨c!"et", 16, 0, 16⟩, ⟨c!"id", 18, 0, 16⟩]⟩]

/-- All headers above. -/
def standards : List StdHdr := [stdEth, stdTag c!"ctag", stdTag c!"stag", stdRtag, stdHtag, stdPrp, stdArp, stdIpv4, stdIpv6, stdIcmp,
  stdIgmpv3Group, stdMldv2Group, stdUdp, stdTcp, stdCcm, stdLaps, stdLb, stdLt, stdRaps, stdMrpTst, stdMrpTopo, stdMrpLnk, stdMrpNack] ++
  stdPtp ++ [stdTlvOrg, stdTlvPath, stdProfinet, stdOpc, stdCoap] ++ stdPrefixes

/-! ## Values of fields that are not given -/

/-- Fields with a value computed from the rest of the frame if not given (C28 to C39, C41). -/
def computed : List (CStr × CStr) := [(c!"eth", c!"et"), (c!"ctag", c!"et"), (c!"stag", c!"et"), (c!"rtag", c!"et"), (c!"htag", c!"et"),
  (c!"ipv4", c!"proto"), (c!"ipv4", c!"len"), (c!"ipv4", c!"chksum"), (c!"ipv6", c!"next"), (c!"ipv6", c!"len"), (c!"icmp", c!"chksum"),
  (c!"udp", c!"len"), (c!"udp", c!"chksum"), (c!"tcp", c!"chksum"), (c!"ptp-sync", c!"hdr-messageLength"),
  (c!"ptp-follow-up", c!"hdr-messageLength"), (c!"ptp-request", c!"hdr-messageLength"), (c!"ptp-response", c!"hdr-messageLength"),
  (c!"ptp-peer-request", c!"hdr-messageLength"), (c!"ptp-peer-response", c!"hdr-messageLength"),
  (c!"ptp-peer-response-follow-up", c!"hdr-messageLength"), (c!"ptp-announce", c!"hdr-messageLength"), (c!"ptp-tlv-org", c!"tlv-length"),
  (c!"ptp-tlv-path", c!"tlv-length"), (c!"coap", c!"tkl")]

/-- Values that make a header one of its kind (versions, types, and lengths of parts of fixed size, from the documents
above), and values announced by the help texts. Everything else is zero. -/
def presets : List (CStr × CStr × Nat) := [
  (c!"eth", c!"dmac", 0xffffffffffff), (c!"eth", c!"smac", 1),
  (c!"prp", c!"suffix", 0x88fb),
  (c!"arp", c!"htype", 1), (c!"arp", c!"ptype", 0x0800), (c!"arp", c!"hlen", 6), (c!"arp", c!"plen", 4),
  (c!"ipv4", c!"ver", 4), (c!"ipv4", c!"ihl", 5), (c!"ipv4", c!"ttl", 31),
  (c!"ipv6", c!"ver", 6), (c!"ipv6", c!"hlim", 31),
  (c!"tcp", c!"doff", 5),
  (c!"oam-ccm", c!"opcode", 1), (c!"oam-ccm", c!"tlv_off", 70),
  (c!"oam-laps", c!"opcode", 39), (c!"oam-laps", c!"tlv_off", 4),
  (c!"oam-lb", c!"tlv_off", 4),
  (c!"oam-raps", c!"version", 1), (c!"oam-raps", c!"opcode", 40), (c!"oam-raps", c!"tlv_off", 32),
  (c!"mrp_tst", c!"version", 1), (c!"mrp_tst", c!"t_type", 2), (c!"mrp_tst", c!"t_length", 18), (c!"mrp_tst", c!"c_type", 1),
  (c!"mrp_tst", c!"c_length", 18),
  (c!"mrp_topo", c!"version", 1), (c!"mrp_topo", c!"t_type", 3), (c!"mrp_topo", c!"t_length", 10), (c!"mrp_topo", c!"c_type", 1),
  (c!"mrp_topo", c!"c_length", 18),
  (c!"mrp_lnk", c!"version", 1), (c!"mrp_lnk", c!"t_type", 4), (c!"mrp_lnk", c!"t_length", 12), (c!"mrp_lnk", c!"c_type", 1),
  (c!"mrp_lnk", c!"c_length", 18),
  (c!"mrp_prop_nack", c!"version", 1), (c!"mrp_prop_nack", c!"t_type", 127), (c!"mrp_prop_nack", c!"t_length", 24),
  (c!"mrp_prop_nack", c!"t_s_type", 2), (c!"mrp_prop_nack", c!"t_s_length", 16), (c!"mrp_prop_nack", c!"c_type", 1),
  (c!"mrp_prop_nack", c!"c_length", 18),
  (c!"ptp-request", c!"hdr-messageType", 1), (c!"ptp-peer-request", c!"hdr-messageType", 2), (c!"ptp-peer-response", c!"hdr-messageType", 3),
  (c!"ptp-follow-up", c!"hdr-messageType", 8), (c!"ptp-response", c!"hdr-messageType", 9),
  (c!"ptp-peer-response-follow-up", c!"hdr-messageType", 10), (c!"ptp-announce", c!"hdr-messageType", 11),
  (c!"ptp-tlv-org", c!"tlv-type", 3), (c!"ptp-tlv-path", c!"tlv-type", 8),
  (c!"profinet-rtc", c!"station-ok", 1), (c!"profinet-rtc", c!"provider-state-run", 1), (c!"profinet-rtc", c!"data-valid", 1),
  (c!"profinet-rtc", c!"primary", 1),
  (c!"opc-ua", c!"version", 1), (c!"opc-ua", c!"flags-pub-id", 1), (c!"opc-ua", c!"flags-grp-hdr", 1), (c!"opc-ua", c!"flags-flags1", 1),
  (c!"opc-ua", c!"flags1-pub-id-type", 1), (c!"opc-ua", c!"gflags-wg-id", 1), (c!"opc-ua", c!"gflags-gversion", 1),
  (c!"opc-ua", c!"gflags-nm-num", 1), (c!"opc-ua", c!"gflags-seq-num", 1),
  (c!"coap", c!"ver", 1),
  (c!"sp-oc1", c!"et", 0x8880), (c!"sp-oc1", c!"id", 0x000a),
  (c!"lp-oc1", c!"dmac", 0xffffffffffff), (c!"lp-oc1", c!"smac", 0xffffffffffff), (c!"lp-oc1", c!"et", 0x8880), (c!"lp-oc1", c!"id", 0x000a),
  (c!"sp-jr2", c!"dmac", 0xffffffffffff), (c!"sp-jr2", c!"smac", 0xffffffffffff), (c!"sp-jr2", c!"et", 0x8880), (c!"sp-jr2", c!"id", 0x0009),
  (c!"lp-jr2", c!"dmac", 0xffffffffffff), (c!"lp-jr2", c!"smac", 0xffffffffffff), (c!"lp-jr2", c!"tpid", 0x8100), (c!"lp-jr2", c!"vid", 1),
  (c!"lp-jr2", c!"et", 0x8880), (c!"lp-jr2", c!"id", 0x0009)]

/-- The byte of a field in a header of `size` bytes. The data of a PROFINET frame may have any length; what follows them
(byte 42 in a frame with 40 bytes of data) moves along. -/
def stdByte (s : StdHdr) (size : Nat) (q : StdField) : Nat :=
  if s.name = c!"profinet-rtc" ∧ 42 ≤ q.byte then size - (46 - q.byte) else q.byte

/-- The value of the field `n` of the header `h` if it is neither given nor computed. -/
def presetOf (h n : CStr) : Nat :=
  match presets.find? (fun p => p.1 == h && p.2.1 == n) with
  | some p => p.2.2
  | none => 0

end Ef.Spec

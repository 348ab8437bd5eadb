import Verif.Model.Tables

/-!
# Help texts

GENERATED by `tools/gen_tables.py` from the static tables in `/repo/src`; do not edit.
-/

namespace Ef

/-- The help texts of a header and of its fields, in the order of its fields; `none` where there is none. -/
structure HelpText where
  hdr : Option CStr
  fields : List (Option CStr)
  deriving Repr

/-- ef-ifh.c:13-19, ef-ifh.c:4-11. -/
def HDR_SP_OC1_help : HelpText := ⟨some c!"Short prefix for injection and extraction of frames for Ocelot1", [
  some c!"Ethertype for short prefix. Defaults to 0x8880",
  some c!"Id for short prefix. Defaults to 0x000a"]⟩

/-- ef-ifh.c:36-42, ef-ifh.c:21-34. -/
def HDR_LP_OC1_help : HelpText := ⟨some c!"Long prefix for injection and extraction of frames for Ocelot1", [
  some c!"Destination MAC address. Defaults to ff:ff:ff:ff:ff:ff",
  some c!"Source MAC address. Defaults to ff:ff:ff:ff:ff:ff",
  some c!"Ethertype for long prefix. Defaults to 0x8880",
  some c!"Id for long prefix. Defaults to 0x000a"]⟩

/-- ef-ifh.c:119-125, ef-ifh.c:44-117. -/
def HDR_IFH_OC1_help : HelpText := ⟨some c!"Injection Frame Header for Ocelot1", [
  some c!"Skip analyzer processing",
  some c!"Replace SMAC address",
  some c!"Rewriter operation command",
  some c!"Enable masquerading",
  some c!"Masquerading port",
  some c!"Receive time stamp",
  some c!"Reserved",
  some c!"Destination set for the frame. Dest[11] is the CPU",
  some c!"Reserved",
  some c!"The port number where the frame was injected (0-12)",
  some c!"Reserved",
  some c!"Timer for periodic transmissions (1..8). If zero then normal injection",
  some c!"Reserved",
  some c!"Drop precedence level after policing",
  some c!"Number of VLAN tags that must be popped",
  some c!"CPU extraction queue mask",
  some c!"Classified QoS class",
  some c!"Tag information's associated Tag Protocol Identifier (TPID)",
  some c!"Classified PCP",
  some c!"Classified DEI",
  some c!"Classified VID"]⟩

/-- ef-ifh.c:193-199, ef-ifh.c:127-191. -/
def HDR_EFH_OC1_help : HelpText := ⟨some c!"Extraction Frame Header for Ocelot1", [
  some c!"Reserved",
  some c!"Replace SMAC address.",
  some c!"Rewriter operation command.",
  some c!"Receive time stamp",
  some c!"Frame length in bytes: 60 * WLEN + LLEN - 80",
  some c!"See LLEN",
  some c!"Reserved",
  some c!"Classified ISDX",
  some c!"The port number where the frame was injected (0-12)",
  some c!"The combined ACL_ID action of the rules in IS2",
  some c!"Reserved",
  some c!"sFlow sampling ID",
  some c!"Set if frame has hit a rule in IS2",
  some c!"Drop precedence level after policing",
  some c!"MAC address learning action",
  some c!"CPU extraction queue mask",
  some c!"Classified QoS class",
  some c!"Tag information's associated Tag Protocol Identifier (TPID)",
  some c!"Classified PCP",
  some c!"Classified DEI",
  some c!"Classified VID"]⟩

/-- ef-ifh.c:216-222, ef-ifh.c:201-214. -/
def HDR_SP_JR2_help : HelpText := ⟨some c!"Short prefix for injection and extraction of frames for Jaguar2", [
  some c!"Destination MAC address. Defaults to ff:ff:ff:ff:ff:ff",
  some c!"Source MAC address. Defaults to ff:ff:ff:ff:ff:ff",
  some c!"Ethertype for short prefix. Defaults to 0x8880",
  some c!"Id for short prefix. Defaults to 0x0009"]⟩

/-- ef-ifh.c:251-257, ef-ifh.c:224-249. -/
def HDR_LP_JR2_help : HelpText := ⟨some c!"Long prefix for injection and extraction of frames for Jaguar2", [
  some c!"Destination MAC address. Defaults to ff:ff:ff:ff:ff:ff",
  some c!"Source MAC address. Defaults to ff:ff:ff:ff:ff:ff",
  some c!"Ethertype for VLAN header. Defaults to 0x8100",
  some c!"Priority Code Point",
  some c!"Drop Elegible Indicator",
  some c!"VLAN Identifier. Defaults to 1",
  some c!"Ethertype for long prefix. Defaults to 0x8880",
  some c!"Id for long prefix. Defaults to 0x0009"]⟩

/-- ef-ifh.c:647-653, ef-ifh.c:259-645. -/
def HDR_IFH_JR2_help : HelpText := ⟨some c!"Internal Frame Header for Jaguar2", [
  some c!"Arrival time stamp",
  some c!"Reserved field. Must be 0",
  some c!"Update IP4 TTL and chksum/IP6 Hopcnt",
  some c!"Instruct rewriter to swap MAC addresses",
  some c!"Tag protocol IDs",
  some c!"Reserved field. Must be 0",
  some c!"Generic index. VSI when GEN_IDX_MODE = 1",
  some c!"Generic index mode. 0: Reserved. 1: VSI",
  some c!"Protect is active",
  some c!"PDU WORD16 (= 2 bytes) offset from W16_POP_CNT to Protocol data unit (PDU)",
  some c!"PDU type used to handle OAM, PTP and SAT",
  some c!"Classified MATCH_ID combined from VCAP CLM and VCAP IS2.",
  some c!"TTL value for possible use in MPLS label",
  some c!"SBIT of last popped MPLS label for possible use in MPLS label",
  some c!"TC value for possible use in MPLS label",
  some c!"Type after pop",
  some c!"Number of WORD16 (= 2 bytes) to be popped by rewriter",
  some c!"Reserved field. Must be 0",
  some c!"Destination port mask. (only used for injection)",
  some c!"Reserved field. Must be 0",
  some c!"Egress router leg for unicast",
  some c!"Next hop DMAC. Only used for unicast routing",
  some c!"Reserved field. Must be 0",
  some c!"IP multicast group used for L3 multicast copies",
  some c!"Egress router leg for multicast",
  some c!"Number of multicast routed copies. Only used for multicast routing",
  some c!"Reserved field. Must be 1",
  some c!"Reserved field. Must be 0",
  some c!"GLAG aggregation code",
  some c!"Class of service",
  some c!"Ingress service index",
  some c!"Reserved field. Must be 0",
  some c!"Classified drop precedence level",
  some c!"Super priority",
  some c!"Classified quality of service value (internal priority)",
  some c!"Congestion management information",
  some c!"Reserved field. Must be 0",
  some c!"Reserved field. Must be 0",
  some c!"Time to live",
  some c!"Learning mode",
  some c!"Forward mode",
  some c!"Reserved field. Must be 0",
  some c!"Destination port type",
  some c!"Destination unit port set ID",
  some c!"Logical destination port at unit identified by dst_upsid",
  some c!"Reserved field. Must be 0",
  some c!"Destination unit port set ID",
  some c!"Physical destination port at unit identified by dst_upsid",
  some c!"Reserved field. Must be 0",
  some c!"Forward to ports part of this multicast group index",
  some c!"Reserved field. Must be 0",
  some c!"Destination unit port set ID",
  some c!"Reserved field. Must be 0",
  some c!"CPU destination port at unit identified by dst_upsid",
  some c!"Reserved field. Must be 0",
  some c!"Special TTL handling used for neighbor discovery",
  some c!"Reserved field. Must be 0",
  some c!"CPU destination port at unit identified by dst_upsid",
  some c!"VCAP IS2 action REW_CMD",
  some c!"Classified priority code point value",
  some c!"Classified drop eligible indicator value",
  some c!"Classified VID",
  some c!"If set, frame was VLAN-tagged at reception",
  some c!"Tag type",
  some c!"Ingress port type",
  some c!"Source port type",
  some c!"Source address mode",
  some c!"ID of stack unit port set, where the frame was initially received",
  some c!"Reserved field. Must be 0",
  some c!"Internal port number",
  some c!"ID of stack unit port set, where the frame was initially received",
  some c!"Logical port number of the port, where the frame was initially received",
  some c!"ID of the GLAG",
  some c!"Injected into AFI",
  some c!"Reserved field. Must be 0",
  some c!"Controls use of ISDX in ES0 key",
  some c!"Reserved field. Must be 0",
  some c!"True if VSTAX section is valid",
  some c!"Force update of FCS",
  some c!"Reserved field. Must be 0",
  some c!"Controls format of IFH.DST",
  some c!"Frame forwarded to CPU due to sFlow sampling",
  some c!"Must be set to 0. Set if frame is aged by QSYS",
  some c!"Signals that the frame is Rx mirrored",
  some c!"Signals mirror probe for mirrored traffic",
  some c!"Physical source port number",
  some c!"Prevents the rewriter from making any changes of frames",
  some c!"Pipeline action",
  some c!"Pipeline point",
  some c!"CPU extraction queue mask",
  some c!"Number of VLAN tags popped",
  some c!"Prevents rewriter from remapping DSCP values of frames",
  some c!"Causes rewriter to update the DSCP value with IFH.QOS.DSCP",
  some c!"DSCP value"]⟩

/-- ef-ifh.c:1046-1052, ef-ifh.c:655-1044. -/
def HDR_IFH_FA_help : HelpText := ⟨some c!"Internal Frame Header for FireAnt", [
  some c!"Reserved",
  some c!"Arrival time stamp",
  some c!"RLEG mode",
  some c!"RLEG value",
  some c!"Reserved field. Must be 0",
  some c!"Router forward flag",
  some c!"Instruct rewriter to swap MAC addresses",
  some c!"Tag protocol IDs",
  some c!"Generic VID",
  some c!"Classified VID extension",
  some c!"Protect is active",
  some c!"PDU WORD16 (= 2 bytes) offset from W16_POP_CNT to Protocol data unit (PDU)",
  some c!"PDU type used to handle OAM, PTP and SAT",
  some c!"Classified MATCH_ID combined from VCAP CLM and VCAP IS2.",
  some c!"TTL value for possible use in MPLS label",
  some c!"SBIT of last popped MPLS label for possible use in MPLS label",
  some c!"TC value for possible use in MPLS label",
  some c!"Action after pop",
  some c!"Type after pop",
  some c!"Number of WORD16 (= 2 bytes) to be popped by rewriter",
  some c!"Reserved field. Must be 0",
  some c!"Egress router leg for unicast",
  some c!"Next hop DMAC. Only used for unicast routing",
  some c!"Reserved field. Must be 0",
  some c!"IP multicast group used for L3 multicast copies",
  some c!"Egress router leg for multicast",
  some c!"Number of multicast routed copies. Only used for multicast routing",
  some c!"Reserved field. Must be 1",
  some c!"Reserved field. Must be 0",
  some c!"GLAG aggregation code",
  some c!"Class of service",
  some c!"Ingress service index",
  some c!"Reserved field. Must be 0",
  some c!"Classified drop precedence level",
  some c!"Super priority",
  some c!"Classified quality of service value (internal priority)",
  some c!"Congestion management information",
  some c!"Reserved field. Must be 0",
  some c!"Reserved field. Must be 0",
  some c!"Time to live",
  some c!"Learning mode",
  some c!"Forward mode",
  some c!"Reserved field. Must be 0",
  some c!"Destination port type",
  some c!"Destination unit port set ID",
  some c!"Logical destination port at unit identified by dst_upsid",
  some c!"Reserved field. Must be 0",
  some c!"Destination unit port set ID",
  some c!"Physical destination port at unit identified by dst_upsid",
  some c!"Forward to ports part of this multicast group index",
  some c!"Reserved field. Must be 0",
  some c!"Destination unit port set ID",
  some c!"Reserved field. Must be 0",
  some c!"CPU destination port at unit identified by dst_upsid",
  some c!"Reserved field. Must be 0",
  some c!"Special TTL handling used for neighbor discovery",
  some c!"Reserved field. Must be 0",
  some c!"CPU destination port at unit identified by dst_upsid",
  some c!"VCAP IS2 action REW_CMD",
  some c!"Classified priority code point value",
  some c!"Classified drop eligible indicator value",
  some c!"Classified VID",
  some c!"If set, frame was VLAN-tagged at reception",
  some c!"Tag type",
  some c!"Ingress port type",
  some c!"Source port type",
  some c!"Source address mode",
  some c!"ID of stack unit port set, where the frame was initially received",
  some c!"Reserved field. Must be 0",
  some c!"Internal port number",
  some c!"ID of stack unit port set, where the frame was initially received",
  some c!"Logical port number of the port, where the frame was initially received",
  some c!"ID of the GLAG",
  some c!"Injected into AFI",
  some c!"Reserved field. Must be 0",
  some c!"Controls use of ISDX in ES0 key",
  some c!"Reserved field. Must be 0",
  some c!"True if VSTAX section is valid",
  some c!"Force update of FCS",
  some c!"Reserved field. Must be 0",
  some c!"Controls format of IFH.DST",
  some c!"sFlow sampling ID",
  some c!"Must be set to 0. Set if frame is aged by QSYS",
  some c!"Signals that the frame is Rx mirrored",
  some c!"Signals mirror probe for mirrored traffic",
  some c!"Physical source port number",
  some c!"Prevents the rewriter from making any changes of frames",
  some c!"Pipeline action",
  some c!"Pipeline point",
  some c!"CPU extraction queue mask",
  some c!"Number of VLAN tags popped",
  some c!"Number of VLAN tags pushed",
  some c!"True if frame contains R-tag or E-tag",
  some c!"802.1CB sequence number",
  some c!"Prevents rewriter from remapping DSCP values of frames",
  some c!"Causes rewriter to update the DSCP value with IFH.QOS.DSCP",
  some c!"DSCP value"]⟩

/-- ef-ifh.c:1491-1497, ef-ifh.c:1054-1489. -/
def HDR_IFH_LA_help : HelpText := ⟨some c!"Internal Frame Header for Laguna", [
  some c!"Reserved - IFH must be 288 bits - 36 bytes",
  some c!"RedBox CMD",
  some c!"RedBox CMD",
  some c!"RedBox TAG",
  some c!"Arrival time stamp",
  some c!"Fill bits. LBK must be 40 bits",
  some c!"LBK_COS_NXT_SEL",
  some c!"LBK_COS_MASK",
  some c!"LBK_CHG_IFH_COSID_ENA",
  some c!"LBK_CHG_IFH_TC_ENA",
  some c!"LBK_CHG_IFH_PCP_ENA",
  some c!"LBK_CHG_OUTER_PCP_ENA",
  some c!"Fill bits. DST be 79 bits",
  some c!"RLEG mode",
  some c!"RLEG value",
  some c!"IS_FIRST_COPY",
  some c!"Router forward flag",
  some c!"Instruct rewriter to swap MAC addresses",
  some c!"Tag protocol IDs",
  some c!"Generic VID",
  some c!"Classified VID extension",
  some c!"Protect is active",
  some c!"PDU WORD16 (= 2 bytes) offset from W16_POP_CNT to Protocol data unit (PDU)",
  some c!"PDU type used to handle OAM, PTP and SAT",
  some c!"Classified MATCH_ID combined from VCAP CLM and VCAP IS2.",
  some c!"TTL value for possible use in MPLS label",
  some c!"SBIT of last popped MPLS label for possible use in MPLS label",
  some c!"TC value for possible use in MPLS label",
  some c!"Action after pop",
  some c!"Type after pop",
  some c!"Number of WORD16 (= 2 bytes) to be popped by rewriter",
  some c!"Fill bits. DST must be 79 bits",
  some c!"Egress router leg for unicast",
  some c!"Next hop DMAC. Only used for unicast routing",
  some c!"Fill bits. DST must be 79 bits",
  some c!"IP multicast group used for L3 multicast copies",
  some c!"Egress router leg for multicast",
  some c!"Number of multicast routed copies. Only used for multicast routing",
  some c!"Reserved field. Must be 1",
  some c!"Reserved field. Must be 0",
  some c!"GLAG aggregation code",
  some c!"Class of service",
  some c!"Ingress service index",
  some c!"Reserved field. Must be 0",
  some c!"Classified drop precedence level",
  some c!"Super priority",
  some c!"Classified quality of service value (internal priority)",
  some c!"Congestion management information",
  some c!"Reserved field. Must be 0",
  some c!"Reserved field. Must be 0",
  some c!"Time to live",
  some c!"Learning mode",
  some c!"Forward mode",
  some c!"Reserved field. Must be 0",
  some c!"Destination port type",
  some c!"Destination unit port set ID",
  some c!"Logical destination port at unit identified by dst_upsid",
  some c!"Reserved field. Must be 0",
  some c!"Destination unit port set ID",
  some c!"Physical destination port at unit identified by dst_upsid",
  some c!"Forward to ports part of this multicast group index",
  some c!"Reserved field. Must be 0",
  some c!"Destination unit port set ID",
  some c!"Reserved field. Must be 0",
  some c!"CPU destination port at unit identified by dst_upsid",
  some c!"Reserved field. Must be 0",
  some c!"Special TTL handling used for neighbor discovery",
  some c!"Reserved field. Must be 0",
  some c!"CPU destination port at unit identified by dst_upsid",
  some c!"VCAP IS2 action REW_CMD",
  some c!"Classified priority code point value",
  some c!"Classified drop eligible indicator value",
  some c!"Classified VID",
  some c!"If set, frame was VLAN-tagged at reception",
  some c!"Tag type",
  some c!"Ingress port type",
  some c!"Source port type",
  some c!"Source address mode",
  some c!"ID of stack unit port set, where the frame was initially received",
  some c!"Reserved field. Must be 0",
  some c!"Internal port number",
  some c!"ID of stack unit port set, where the frame was initially received",
  some c!"Logical port number of the port, where the frame was initially received",
  some c!"ID of the GLAG",
  some c!"FWD must be 28 bit wide",
  some c!"Injected into AFI",
  some c!"Do LBK field",
  some c!"Controls use of ISDX in ES0 key",
  some c!"TS mode",
  some c!"True if VSTAX section is valid",
  some c!"Force update of FCS",
  some c!"Learn all field",
  some c!"Controls format of IFH.DST",
  some c!"sFlow sampling ID",
  some c!"Must be set to 0. Set if frame is aged by QSYS",
  some c!"Signals that the frame is Rx mirrored",
  some c!"Signals mirror probe for mirrored traffic",
  some c!"Physical source port number",
  some c!"Prevents the rewriter from making any changes of frames",
  some c!"Pipeline action",
  some c!"Pipeline point",
  some c!"Injection destination port",
  some c!"Number of VLAN tags popped",
  some c!"Number of VLAN tags pushed",
  some c!"True if frame contains R-tag or E-tag",
  some c!"802.1CB sequence number",
  some c!"Prevents rewriter from remapping DSCP values of frames",
  some c!"Causes rewriter to update the DSCP value with IFH.QOS.DSCP",
  some c!"DSCP value"]⟩

/-- ef-ifh.c:1538-1544, ef-ifh.c:1499-1536. -/
def HDR_IFH_CRCL_help : HelpText := ⟨some c!"Injection Frame Header for Caracal", [
  some c!"Skip analyzer processing",
  some c!"PTP action",
  some c!"PTP ID",
  some c!"Destination port set",
  some c!"Reserved field",
  some c!"VLAN tag pop count",
  some c!"CPU extraction queue mask",
  some c!"Classified QoS class",
  some c!"C-tag (0) or S-tag (1)",
  some c!"Classified PCP",
  some c!"Classified DEI",
  some c!"Classified VID"]⟩

/-- ef-ifh.c:1591-1597, ef-ifh.c:1546-1589. -/
def HDR_EFH_CRCL_help : HelpText := ⟨some c!"Extraction Frame Header for Caracal", [
  some c!"Must be 0xff",
  some c!"Source port",
  some c!"Classified DSCP",
  some c!"ACL ID",
  some c!"SFlow sampling ID",
  some c!"ACL hit flag",
  some c!"Drop precedence",
  some c!"Learn flags",
  some c!"CPU extraction queue mask",
  some c!"Classified QoS class",
  some c!"C-tag (0) or S-tag (1)",
  some c!"Classified PCP",
  some c!"Classified DEI",
  some c!"Classified VID"]⟩

/-- ef-ifh.c:1738-1744, ef-ifh.c:1599-1736. -/
def HDR_IFH_MAS_help : HelpText := ⟨some c!"Internal Frame Header for Maserati", [
  some c!"Arrival time stamp",
  some c!"Skip analyzer processing (injection)",
  some c!"Enable masquerading (injection)",
  some c!"Masquerading port (injection)",
  some c!"Reserved field (injection)",
  some c!"Length (extraction)",
  some c!"Small Cell",
  some c!"R-tag removed",
  some c!"R-tag present",
  some c!"Cut-through",
  some c!"Rewriter command",
  some c!"Rewriter OAM",
  some c!"PDU type",
  some c!"FCS update",
  some c!"DSCP",
  some c!"Drop Precedence",
  some c!"RTE inbound update",
  some c!"VLAN tag pop count",
  some c!"Number of tags before Ethernet Type",
  some c!"Source port",
  some c!"Reserved field",
  some c!"Sequence number",
  some c!"Tag information's associated Tag Protocol Identifier (TPID)",
  some c!"Classified PCP",
  some c!"Classified DEI",
  some c!"Classified VID",
  some c!"Classified QoS class",
  some c!"CPU extraction queue mask",
  some c!"Learn flags",
  some c!"SFlow sampling ID",
  some c!"ACL hit flag",
  some c!"ACL ID",
  some c!"Classified ISDX",
  some c!"Destination set",
  some c!"Storm policer",
  some c!"Sequence operation",
  some c!"Internal priority value",
  some c!"Injected into AFI",
  some c!"Ageing value",
  some c!"RTP Identifier",
  some c!"RTP MRPD flow",
  some c!"Profinet data status",
  some c!"Profinet transfer status",
  some c!"Profinet cycle counter",
  some c!"Reserved field"]⟩

/-- ef-eth.c:20-27, ef-eth.c:8-18. -/
def HDR_ETH_help : HelpText := ⟨some c!"Ethernet frame, e.g. eth dmac 00:00:c1:a0:b1:c2 smac 00:00:c1:a5:b6:c7 et 0x0800", [
  some c!"Destination MAC address, e.g. 00:00:c1:a0:b1:c2, ::1, 1 or 0x1",
  some c!"Source MAC address, e.g. 00:00:c1:a5:b6:c7, ::1, 1 or 0x1",
  some c!"EtherType, e.g. 0x0800"]⟩

/-- ef-vlan.c:22-30, ef-vlan.c:7-20. -/
def HDR_STAG_help : HelpText := ⟨some c!"Service VLAN Tag", [
  some c!"Priority Code Point",
  some c!"Drop Elegible Indicator",
  some c!"VLAN Identifier",
  some c!"Tag Protocol Identifier"]⟩

/-- ef-vlan.c:47-55, ef-vlan.c:32-45. -/
def HDR_CTAG_help : HelpText := ⟨some c!"Customer VLAN Tag", [
  some c!"Priority Code Point",
  some c!"Drop Elegible Indicator",
  some c!"VLAN Identifier",
  some c!"Tag Protocol Identifier"]⟩

/-- ef-vlan.c:69-77, ef-vlan.c:57-67. -/
def HDR_RTAG_help : HelpText := ⟨some c!"Redundancy Tag", [
  some c!"Reserved",
  some c!"Sequence Number",
  some c!"EtherType"]⟩

/-- ef-vlan.c:94-101, ef-vlan.c:79-92. -/
def HDR_PRP_RCT_help : HelpText := ⟨some c!"PRP Redundancy Check Trailer", [
  some c!"Sequence Number",
  some c!"LAN ID",
  some c!"LSDU size",
  some c!"PRP suffix"]⟩

/-- ef-vlan.c:118-126, ef-vlan.c:103-116. -/
def HDR_HSR_TAG_help : HelpText := ⟨some c!"HSR Tag", [
  some c!"Path ID",
  some c!"LSDU size",
  some c!"Sequence Number",
  some c!"EtherType"]⟩

/-- ef-arp.c:33-40, ef-arp.c:3-31. -/
def HDR_ARP_help : HelpText := ⟨some c!"Address Resolution Protocol, e.g. arp oper 1 spa 10.10.10.1", [
  some c!"Hardware type, e.g. 0x0001 for Ethernet",
  some c!"Protocol type, e.g. 0x0800 for IPv4",
  some c!"Hardware length, e.g. 6 for Ethernet",
  some c!"Protocol length, e.g. 4 for IPv4",
  some c!"Operation, 1 for request, 2 for reply",
  some c!"Sender hardware address, e.g. 00:00:c1:a0:b1:c2",
  some c!"Sender protocol address, e.g. 10.10.10.1",
  some c!"Target hardware address, e.g. 00:00:c1:a0:b1:c3",
  some c!"Target protocol address, e.g. 10.10.10.2"]⟩

/-- ef-ipv4.c:94-102, ef-ipv4.c:52-92. -/
def HDR_IPV4_help : HelpText := ⟨some c!"Internet Protocol version 4, e.g. ipv4 sa 10.10.10.1 da 10.10.10.2", [
  some c!"Four-bit version field, e.g. 4 for IPv4",
  some c!"Internet Header Length, e.g. 5 for header without any options",
  some c!"Differentiated Services Code Point",
  some c!"Explicit Congestion Notification",
  some c!"Total Length of the entire packet",
  some c!"Identification",
  some c!"Flags used for fragmentation",
  some c!"Fragment offset",
  some c!"Time To Live",
  some c!"Protocol, e.g. 6 for TCP and 17 for UDP",
  some c!"Header Checksum",
  some c!"Source IP Address, e.g. 10.10.10.1",
  some c!"Destination IP Address, e.g. 10.10.10.2"]⟩

/-- ef-ipv6.c:67-75, ef-ipv6.c:37-65. -/
def HDR_IPV6_help : HelpText := ⟨some c!"Internet Protocol version 6, e.g. ipv6 sip 2001:db8::1 dip 2001:db8::2", [
  some c!"Four-bit version field, e.g. 6 for IPv6",
  some c!"Differentiated Services Code Point",
  some c!"Explicit Congestion Notification",
  some c!"Flow label",
  some c!"Payload Length of Extension Headers and Upper Layer data",
  some c!"Next Header, i.e. type of header that follows the IPv6 header",
  some c!"Hop Limit - same as TTL in IPv4",
  some c!"Source IP Address, e.g. 2001:db8::1",
  some c!"Destination IP Address, e.g. 2001:db8::2"]⟩

/-- ef-icmp.c:84-92, ef-icmp.c:69-82. -/
def HDR_ICMP_help : HelpText := ⟨some c!"Internet Control Message Protocol for both IPv4 and IPv6", [
  some c!"ICMP type",
  some c!"ICMP subtype",
  some c!"Checksum",
  some c!"Four-byte Header Data. Contents vary based on the ICMP type and code"]⟩

/-- ef-igmp.c:165-173, ef-igmp.c:112-146. -/
def HDR_IGMP_help : HelpText := ⟨some c!"Internet Group Management Protocol", [
  some c!"IGMP type",
  some c!"Max Resp Time (IGMPv2) or Max Resp Code (IGMPv3), Queries only)",
  some c!"Checksum",
  some c!"Group Address (not to be used in IGMPv3 reports)",
  some c!"Reserved (IGMPv3, Query, only)",
  some c!"Suppress Router-Side Processing (IGMPv3, Query, only)",
  some c!"Querier's Robustness Variable (IGMPv3, Query, only)",
  some c!"Querier's Query Interval Code (IGMPv3, Query, only)",
  some c!"Number of Sources (IGMPv3, Query, only)",
  some c!"Reserved (IGMPv3, Report, only)",
  some c!"Number of Group Records (IGMPv3, Report, only)"]⟩

/-- ef-igmp.c:175-181, ef-igmp.c:150-163. -/
def HDR_IGMPV3_GROUP_help : HelpText := ⟨some c!"Internet Group Management Protocol - groups used in IGMPv3 Membership Report Messages", [
  some c!"IGMPv3 group record type",
  some c!"IGMPv3 group auxLen",
  some c!"IGMPv3 Number of Sources in group",
  some c!"IGMPv2 Group Address"]⟩

/-- ef-mld.c:247-255, ef-mld.c:188-228. -/
def HDR_MLD_help : HelpText := ⟨some c!"Multicast Listener Discovery Protocol", [
  some c!"MLD type",
  some c!"Code - initialized to zero by the sender, ignored by receivers",
  some c!"Checksum",
  some c!"Maximum Response Delay (MLDv1) or Maximum Response Code (MLDv2), Query, only",
  some c!"Reserved",
  some c!"Group Address (not to be used in MLDv2 reports)",
  some c!"Reserved (MLDv2, Query, only)",
  some c!"Suppress Router-Side Processing (MLDv2, Query, only)",
  some c!"Querier's Robustness Variable (MLDv2, Query, only)",
  some c!"Querier's Query Interval Code (MLDv2, Query, only)",
  some c!"Number of Sources (MLDv2, Query, only)",
  some c!"Reserved (MLDv3, Report, only)",
  some c!"Number of Group Records (MLDv2, Report, only)"]⟩

/-- ef-mld.c:257-264, ef-mld.c:232-245. -/
def HDR_MLDV2_GROUP_help : HelpText := ⟨some c!"Multicast Listener Discovery - groups used in MLDv2 Membership Report Messages", [
  some c!"MLDv2 group record type",
  some c!"MLDv2 group auxLen",
  some c!"MLDv2 Number of Sources in group",
  some c!"MLDv2 Group Address"]⟩

/-- ef-udp.c:12-17, ef-udp.c:4-10. -/
def HDR_IPV4_PSEUDO_help : HelpText := ⟨none, [
  none,
  none,
  none,
  none,
  none]⟩

/-- ef-udp.c:27-32, ef-udp.c:19-25. -/
def HDR_IPV6_PSEUDO_help : HelpText := ⟨none, [
  none,
  none,
  none,
  none,
  none]⟩

/-- ef-udp.c:117-125, ef-udp.c:102-115. -/
def HDR_UDP_help : HelpText := ⟨some c!"User Datagram Protocol", [
  some c!"Source Port Number, e.g. 22 for SSH",
  some c!"Destination Port Number, e.g. 22 for SSH",
  some c!"Length of UDP header and data",
  some c!"Checksum"]⟩

/-- ef-udp.c:175-183, ef-udp.c:127-173. -/
def HDR_TCP_help : HelpText := ⟨some c!"Transmission Control Protocol", [
  some c!"Source Port Number, e.g. 22 for SSH",
  some c!"Destination Port Number, e.g. 22 for SSH",
  some c!"Sequence number",
  some c!"Acknowledgement number",
  some c!"Data offset, size of TCP header in 32-bit words",
  some c!"Reserved, must be zero",
  some c!"Urgent Pointer field significant",
  some c!"Acknowledgment field significant",
  some c!"Push Function",
  some c!"Reset the connection",
  some c!"Synchronize sequence numbers",
  some c!"No more data from sender",
  some c!"Window",
  some c!"Checksum",
  some c!"Urgent Pointer"]⟩

/-- ef-payload.c:27-33, ef-payload.c:21-25. -/
def HDR_PAYLOAD_help : HelpText := ⟨some c!"Generic payload data", [
  some c!"Variable length data"]⟩

/-- ef-padding.c:20-24. -/
def HDR_PADDING_help : HelpText := ⟨some c!"Ignore padding", [
  ]⟩

/-- ef-oam.c:65-73, ef-oam.c:10-63. -/
def HDR_CCM_help : HelpText := ⟨some c!"OAM-CCM frame", [
  some c!"",
  some c!"",
  some c!"",
  some c!"",
  some c!"",
  some c!"",
  some c!"",
  some c!"",
  some c!"",
  some c!"",
  some c!"",
  some c!"",
  some c!"",
  some c!"",
  some c!"",
  some c!"",
  some c!""]⟩

/-- ef-oam.c:118-126, ef-oam.c:79-116. -/
def HDR_LAPS_help : HelpText := ⟨some c!"OAM-LAPS frame", [
  some c!"",
  some c!"",
  some c!"",
  some c!"",
  some c!"",
  some c!"",
  some c!"",
  some c!"",
  some c!"",
  some c!"",
  some c!"",
  some c!""]⟩

/-- ef-oam.c:171-179, ef-oam.c:132-169. -/
def HDR_LB_help : HelpText := ⟨some c!"OAM-LB frame", [
  some c!"",
  some c!"",
  some c!"",
  some c!"",
  some c!"",
  some c!"",
  some c!"",
  some c!"",
  some c!"",
  some c!"",
  some c!"",
  some c!""]⟩

/-- ef-oam.c:209-217, ef-oam.c:185-207. -/
def HDR_LT_help : HelpText := ⟨some c!"OAM-LT frame", [
  some c!"",
  some c!"",
  some c!"",
  some c!"",
  some c!"",
  some c!"",
  some c!""]⟩

/-- ef-oam.c:259-267, ef-oam.c:223-257. -/
def HDR_RAPS_help : HelpText := ⟨some c!"OAM-RAPS frame", [
  some c!"",
  some c!"",
  some c!"",
  some c!"",
  some c!"",
  some c!"",
  some c!"",
  some c!"",
  some c!"",
  some c!"",
  some c!""]⟩

/-- ef-mrp.c:61-69, ef-mrp.c:10-59. -/
def HDR_MRP_TST_help : HelpText := ⟨some c!"MRP Test frame", [
  some c!"",
  some c!"",
  some c!"",
  some c!"",
  some c!"",
  some c!"",
  some c!"",
  some c!"",
  some c!"",
  some c!"",
  some c!"",
  some c!"",
  some c!"",
  some c!"",
  some c!"",
  some c!""]⟩

/-- ef-mrp.c:117-125, ef-mrp.c:75-115. -/
def HDR_MRP_TOPO_help : HelpText := ⟨some c!"MRP Topology Change frame", [
  some c!"",
  some c!"",
  some c!"",
  some c!"",
  some c!"",
  some c!"",
  some c!"",
  some c!"",
  some c!"",
  some c!"",
  some c!"",
  some c!"",
  some c!""]⟩

/-- ef-mrp.c:176-184, ef-mrp.c:131-174. -/
def HDR_MRP_LNK_help : HelpText := ⟨some c!"MRP Link Change frame", [
  some c!"",
  some c!"",
  some c!"",
  some c!"",
  some c!"",
  some c!"",
  some c!"",
  some c!"",
  some c!"",
  some c!"",
  some c!"",
  some c!"",
  some c!"",
  some c!""]⟩

/-- ef-mrp.c:250-258, ef-mrp.c:190-248. -/
def HDR_MRP_PROP_NACK_help : HelpText := ⟨some c!"MRP Propagate/MgrNAck frame", [
  some c!"",
  some c!"",
  some c!"",
  some c!"",
  some c!"",
  some c!"",
  some c!"",
  some c!"",
  some c!"",
  some c!"",
  some c!"",
  some c!"",
  some c!"",
  some c!"",
  some c!"",
  some c!"",
  some c!"",
  some c!"",
  some c!""]⟩

/-- ef-ptp.c:126-134, ef-ptp.c:53-124. -/
def HDR_SYNC_help : HelpText := ⟨some c!"PTP-SYNC frame", [
  some c!"",
  some c!"",
  some c!"",
  some c!"",
  some c!"",
  some c!"",
  some c!"",
  some c!"",
  some c!"",
  some c!"",
  some c!"",
  some c!"",
  some c!"",
  some c!"",
  some c!"",
  some c!"",
  some c!""]⟩

/-- ef-ptp.c:209-217, ef-ptp.c:136-207. -/
def HDR_FOLLOW_UP_help : HelpText := ⟨some c!"PTP-FOLLOW-UP frame", [
  some c!"",
  some c!"",
  some c!"",
  some c!"",
  some c!"",
  some c!"",
  some c!"",
  some c!"",
  some c!"",
  some c!"",
  some c!"",
  some c!"",
  some c!"",
  some c!"",
  some c!"",
  some c!"",
  some c!""]⟩

/-- ef-ptp.c:292-300, ef-ptp.c:219-290. -/
def HDR_REQUEST_help : HelpText := ⟨some c!"PTP-REQUEST frame", [
  some c!"",
  some c!"",
  some c!"",
  some c!"",
  some c!"",
  some c!"",
  some c!"",
  some c!"",
  some c!"",
  some c!"",
  some c!"",
  some c!"",
  some c!"",
  some c!"",
  some c!"",
  some c!"",
  some c!""]⟩

/-- ef-ptp.c:367-375, ef-ptp.c:302-365. -/
def HDR_RESPONSE_help : HelpText := ⟨some c!"PTP-RESPONSE frame", [
  some c!"",
  some c!"",
  some c!"",
  some c!"",
  some c!"",
  some c!"",
  some c!"",
  some c!"",
  some c!"",
  some c!"",
  some c!"",
  some c!"",
  some c!"",
  some c!"",
  some c!"",
  some c!"",
  some c!"",
  some c!"",
  some c!""]⟩

/-- ef-ptp.c:445-453, ef-ptp.c:377-443. -/
def HDR_PEER_REQUEST_help : HelpText := ⟨some c!"PTP-PEER-REQUEST frame", [
  some c!"",
  some c!"",
  some c!"",
  some c!"",
  some c!"",
  some c!"",
  some c!"",
  some c!"",
  some c!"",
  some c!"",
  some c!"",
  some c!"",
  some c!"",
  some c!"",
  some c!"",
  some c!""]⟩

/-- ef-ptp.c:520-528, ef-ptp.c:455-518. -/
def HDR_PEER_RESPONSE_help : HelpText := ⟨some c!"PTP-PEEER-RESPONSE frame", [
  some c!"",
  some c!"",
  some c!"",
  some c!"",
  some c!"",
  some c!"",
  some c!"",
  some c!"",
  some c!"",
  some c!"",
  some c!"",
  some c!"",
  some c!"",
  some c!"",
  some c!"",
  some c!"",
  some c!"",
  some c!"",
  some c!""]⟩

/-- ef-ptp.c:595-604, ef-ptp.c:530-593. -/
def HDR_PEER_RESPONSE_FOLLOW_UP_help : HelpText := ⟨some c!"PTP-PEEER-RESPONSE-FOLLOW-UP frame", [
  some c!"",
  some c!"",
  some c!"",
  some c!"",
  some c!"",
  some c!"",
  some c!"",
  some c!"",
  some c!"",
  some c!"",
  some c!"",
  some c!"",
  some c!"",
  some c!"",
  some c!"",
  some c!"",
  some c!"",
  some c!"",
  some c!""]⟩

/-- ef-ptp.c:690-698, ef-ptp.c:606-688. -/
def HDR_ANNOUNCE_help : HelpText := ⟨some c!"PTP-ANNOUNCE frame", [
  some c!"",
  some c!"",
  some c!"",
  some c!"",
  some c!"",
  some c!"",
  some c!"",
  some c!"",
  some c!"",
  some c!"",
  some c!"",
  some c!"",
  some c!"",
  some c!"",
  some c!"",
  some c!"",
  some c!"",
  some c!"",
  some c!"",
  some c!"",
  some c!"",
  some c!"",
  some c!"",
  some c!"",
  some c!"",
  some c!""]⟩

/-- ef-ptp.c:733-741, ef-ptp.c:700-731. -/
def HDR_TLV_ORG_help : HelpText := ⟨some c!"PTP-TLV-ORG frame", [
  some c!"",
  some c!"",
  some c!"",
  some c!"",
  some c!"",
  some c!"",
  some c!"",
  some c!"",
  some c!"",
  some c!""]⟩

/-- ef-ptp.c:752-760, ef-ptp.c:743-750. -/
def HDR_TLV_PATH_help : HelpText := ⟨some c!"PTP-TLV-PATH frame", [
  some c!"",
  some c!""]⟩

/-- ef-profinet.c:115-122, ef-profinet.c:44-113. -/
def HDR_PNET_RTC_help : HelpText := ⟨some c!"Profinet RTC", [
  some c!"Profinet frame ID. Common used ranges:\n                                0x0000-0x00FF Time-aware==1. RT_CLASS_STREAM    Multicast CRs\n                                0x0100-0x04FF Time-aware==1. RT_CLASS_STREAM    Unicast (input or output CRs)\n                                0x0100-0x06FF Time-aware==0. RT_CLASS_3 (RED)   Uni/multi-cast non-redundant\n                                0x0700-0x0FFF Time-aware==0. RT_CLASS_3 (RED)   Uni/multi-cast redundant\n                                0x8000-0xBBFF                RT_CLASS_1 (GREEN) Unicast non-redundant\n                                0xBC00-0xBFFF                RT_CLASS_1 (GREEN) Multicast non-redundant\n                                See IEC CDV 61158-6-10 section 4.2.2.6 for more details",
  some c!"Variable length data. The encoding of this data depends on configuration",
  some c!"Cycle counter",
  some c!"Data status: Ignore bit. Default 0",
  some c!"Data status: Reserved bit 2. Default 0",
  some c!"Data status: station problem idendicator (default 1, which means no problem)",
  some c!"Data status: provider state Run:1/Stop:0. Default 1",
  some c!"Data status: Reserved bit 1. Default 0",
  some c!"Data status: data valid. Default 1",
  some c!"Data status: Redundancy bit. Default 0",
  some c!"Data status: State Primary:1/Backup:0. Default 1",
  some c!""]⟩

/-- ef-opcua.c:85-92, ef-opcua.c:17-83. -/
def HDR_OPC_UA_help : HelpText := ⟨some c!"OPC UA PubSub", [
  some c!"UADPFlags: ExtendedFlags1 enabled",
  some c!"UADPFlags: PayloadHeader disabled",
  some c!"UADPFlags: GroupHeader enabled",
  some c!"UADPFlags: PublisherId enabled",
  some c!"UADPVersion",
  some c!"ExtendedFlags1: ExtendedFlags2 disabled",
  some c!"ExtendedFlags1: PicoSeconds disabled",
  some c!"ExtendedFlags1: Timestamp disabled",
  some c!"ExtendedFlags1: Security disabled",
  some c!"ExtendedFlags1: DataSetClassId disabled",
  some c!"ExtendedFlags1: PublisherId type",
  some c!"PublisherId (little-endian)",
  some c!"GroupFlags: Reserved",
  some c!"GroupFlags: SequenceNumber enabled",
  some c!"GroupFlags: NetworkMessageNumber enabled",
  some c!"GroupFlags: GroupVersion enabled",
  some c!"GroupFlags: WriterGroupId enabled",
  some c!"WriterGroupId (little-endian)",
  some c!"GroupVersion",
  some c!"NetworkMessageNumber",
  some c!"SequenceNumber"]⟩

/-- ef-coap.c:157-164, ef-coap.c:128-155. -/
def HDR_COAP_help : HelpText := ⟨some c!"Constrained Application Protocol", [
  some c!"CoAP version number, has to be 1",
  some c!"message type: Confirmable (0), Non-confirmable (1), Acknowledgement (2), or Reset (3)",
  some c!"Token length, 0-8 bytes",
  some c!"message code, split into a 3-bit class and a 5-bit detail e.g. 0.01 (GET) or 4.04 (Not found)",
  some c!"Used to detect message duplication and to match messages",
  some c!"Token length must not greater than 8 bytes. (optional)"]⟩

/-- ef-coap.c:288-295, ef-coap.c:274-286. -/
def HDR_COAP_OPTIONS_help : HelpText := ⟨some c!"Constrained Application Protocol Options, several fields allowed. (optional)", [
  some c!"CoAP Option Number",
  some c!"CoAP Option Value"]⟩

/-- ef-coap.c:309-316, ef-coap.c:301-307. -/
def HDR_COAP_PARMS_help : HelpText := ⟨some c!"Constrained Application Protocol Parameters. (optional)", [
  some c!"CoAP Parameter field."]⟩

/-- ef-sv.c:75-83, ef-sv.c:39-73. -/
def HDR_SV_help : HelpText := ⟨some c!"PRP & HSR Supervision Frames", [
  some c!"SupPath (0)",
  some c!"SupVersion (1)",
  some c!"Sequence Number",
  some c!"TLV1.Type (20 = PRP-DD, 21 = PRP-DA, 23 = HSR)",
  some c!"TLV1.Length (6)",
  some c!"TLV1.MacAddress (MAC of DANP/DANH)",
  some c!"TLV2.Type (30). Don't specify if not a RedBox SV frame",
  some c!"TLV2.Length (6)",
  some c!"TLV2.RedBoxMacAddress",
  some c!"TLV0.Type (0)",
  some c!"TLV0.Length (0)"]⟩

/-- The help texts of the headers in `hdrTmpls`, in the same order. -/
def hdrHelps : List HelpText := [
  HDR_SP_OC1_help,
  HDR_LP_OC1_help,
  HDR_IFH_OC1_help,
  HDR_EFH_OC1_help,
  HDR_SP_JR2_help,
  HDR_LP_JR2_help,
  HDR_IFH_JR2_help,
  HDR_IFH_FA_help,
  HDR_IFH_CRCL_help,
  HDR_EFH_CRCL_help,
  HDR_IFH_MAS_help,
  HDR_IFH_LA_help,
  HDR_ETH_help,
  HDR_CTAG_help,
  HDR_STAG_help,
  HDR_RTAG_help,
  HDR_ARP_help,
  HDR_IPV4_help,
  HDR_IPV6_help,
  HDR_ICMP_help,
  HDR_IGMP_help,
  HDR_IGMPV3_GROUP_help,
  HDR_MLD_help,
  HDR_MLDV2_GROUP_help,
  HDR_UDP_help,
  HDR_TCP_help,
  HDR_PAYLOAD_help,
  HDR_PADDING_help,
  HDR_MRP_TST_help,
  HDR_MRP_TOPO_help,
  HDR_MRP_LNK_help,
  HDR_MRP_PROP_NACK_help,
  HDR_CCM_help,
  HDR_LAPS_help,
  HDR_LB_help,
  HDR_LT_help,
  HDR_RAPS_help,
  HDR_SYNC_help,
  HDR_FOLLOW_UP_help,
  HDR_REQUEST_help,
  HDR_RESPONSE_help,
  HDR_PEER_REQUEST_help,
  HDR_PEER_RESPONSE_help,
  HDR_PEER_RESPONSE_FOLLOW_UP_help,
  HDR_ANNOUNCE_help,
  HDR_TLV_ORG_help,
  HDR_TLV_PATH_help,
  HDR_PNET_RTC_help,
  HDR_OPC_UA_help,
  HDR_PRP_RCT_help,
  HDR_HSR_TAG_help,
  HDR_COAP_help,
  HDR_COAP_OPTIONS_help,
  HDR_COAP_PARMS_help,
  HDR_SV_help]

/-- `print_help` (ef-args.c:89-167), the lines without the newlines. -/
def usageLines : List CStr := [
  c!"Usage: ef [options] <command> args [<command> args]...",
  c!"",
  c!"The ef (easy frame) tool allow to easily transmit frames, and",
  c!"optionally specify what frames it expect to receive.",
  c!"",
  c!"Options:",
  c!"  -v                    Print version.",
  c!"  -h                    Top level help message.",
  c!"  -t <timeout-in-ms>    When listening on an interface (rx),",
  c!"     When listening on an interface (rx), the tool will always",
  c!"     listen during the entire timeout period. This is needed,",
  c!"     as we must also check that no frames are received during",
  c!"     the test.  Default is 100ms.",
  c!"",
  c!"  -c <if>,[<snaplen>],[<sync>],[<file>],[cnt]",
  c!"     Use tcpdump to capture traffic on an interface while the",
  c!"     test is running. If file is not specified, then it will",
  c!"     default to './<if>.pcap'",
  c!"     tcpdump will be invoked with the following options:",
  c!"     tcpdump -i <if> [-s <snaplen>] [-j <sync>] -w <file> -c <cnt>",
  c!"",
  c!"",
  c!"Valid commands:",
  c!"  tx: Transmit a frame on a interface. Syntax:",
  c!"  tx <interface> FRAME | help",
  c!"",
  c!"  rx: Specify a frame which is expected to be received. If no ",
  c!"      frame is specified, then the expectation is that no",
  c!"      frames are received on the interface. Syntax:",
  c!"  rx <interface> [FRAME] | help",
  c!"",
  c!"  hex: Print a frame on stdout as a hex string. Syntax:",
  c!"  hex FRAME",
  c!"",
  c!"  name: Specify a frame, and provide a name (alias) for it.",
  c!"        This alias can be used other places instead of the",
  c!"        complete frame specification. Syntax:",
  c!"  name <name> FRAME-SPEC | help",
  c!"",
  c!"  pcap: Write a frame to a pcap file (appending if the file",
  c!"  exists already). Syntax:",
  c!"  pcap <file> FRAME | help",
  c!"",
  c!"Where FRAME is either a frame specification of a named frame.",
  c!"Syntax: FRAME ::= FRAME-SPEC | name <name>",
  c!"",
  c!"FRAME-SPEC is a textual specification of a frame.",
  c!"Syntax: FRAME-SPEC ::= [HDR-NAME [<HDR-FIELD> <HDR-FIELD-VAL>]...]...",
  c!"        HDR-NAME ::= eth|stag|ctag|arp|ipv4|udp",
  c!"",
  c!"Examples:",
  c!"  ef tx eth0 eth dmac ::1 smac ::2 stag vid 0x100 ipv4 dip 1 udp",
  c!"",
  c!"  ef name f1 eth dmac ff:ff:ff:ff:ff:ff smac ::1\\",
  c!"     rx eth0 name f1\\",
  c!"     tx eth1 name f1",
  c!"",
  c!"A complete header or a given field in a header can be ignored by",
  c!"using the 'ign' or 'ignore' flag.",
  c!"Example:",
  c!"  To ignore the ipv4 header completly:",
  c!"  ef hex eth dmac 1::2 smac 3::4 ipv4 ign udp",
  c!"",
  c!"  To ignore the ipv4 everything in the ipv4 header except the sip:",
  c!"  ef hex eth dmac 1::2 smac 3::4 ipv4 ign sip 1.2.3.4 udp",
  c!"",
  c!"  To ignore the sip field in ipv4:",
  c!"  ef hex eth dmac 1::2 smac 3::4 ipv4 sip ign udp",
  c!"",
  c!"A frame can be repeated to utilize up to line speed bandwith (>512 byte frames)",
  c!"using the 'rep' or 'repeat' flag.",
  c!"Example:",
  c!"   Send a frame 1 million times:",
  c!"   ef tx eth0 rep 1000000 eth dmac ::1 smac ::2",
  c!"   Note that the repeat flag must follow the tx <interface> key-word",
  c!"   Results must be viewed through the PC or DUT interface counters, i.e. outside of 'ef'",
  c!""]

end Ef

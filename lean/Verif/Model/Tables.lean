import Verif.Model.Frame

/-!
# Header tables

GENERATED by `tools/gen_tables.py` from the static tables and `*_init` functions in `/repo/src`; do not edit.
Each header is the value of the `hdr_t` object after start-up (`init()`, ef.c:602-622).
-/

namespace Ef

/-- Fields of `HDR_SP_OC1` as written in the source: ef-ifh.c:4-11. -/
def HDR_SP_OC1_fields : List Field := [
  { name := c!"et", width := 16 },
  { name := c!"id", width := 16 }]

/-- The source form of `HDR_SP_OC1` before start-up: ef-ifh.c:4-11 (SP_OC1_FIELDS), ef-ifh.c:13-19, init ef-ifh.c:1747-1749. -/
def HDR_SP_OC1_raw : Hdr :=
  { name := c!"sp-oc1", type := 0, fields := HDR_SP_OC1_fields, fill := .none, parser := .fields }

/-- ef-ifh.c:4-11 (SP_OC1_FIELDS), ef-ifh.c:13-19, init ef-ifh.c:1747-1749. -/
def HDR_SP_OC1 : Hdr :=
  defVals (defOffset HDR_SP_OC1_raw) [
    (c!"et", c!"0x8880"),
    (c!"id", c!"0x000a")]

/-- Fields of `HDR_LP_OC1` as written in the source: ef-ifh.c:21-34. -/
def HDR_LP_OC1_fields : List Field := [
  { name := c!"dmac", width := 48 },
  { name := c!"smac", width := 48 },
  { name := c!"et", width := 16 },
  { name := c!"id", width := 16 }]

/-- The source form of `HDR_LP_OC1` before start-up: ef-ifh.c:21-34 (LP_OC1_FIELDS), ef-ifh.c:36-42, init ef-ifh.c:1751-1755. -/
def HDR_LP_OC1_raw : Hdr :=
  { name := c!"lp-oc1", type := 0, fields := HDR_LP_OC1_fields, fill := .none, parser := .fields }

/-- ef-ifh.c:21-34 (LP_OC1_FIELDS), ef-ifh.c:36-42, init ef-ifh.c:1751-1755. -/
def HDR_LP_OC1 : Hdr :=
  defVals (defOffset HDR_LP_OC1_raw) [
    (c!"dmac", c!"ff:ff:ff:ff:ff:ff"),
    (c!"smac", c!"ff:ff:ff:ff:ff:ff"),
    (c!"et", c!"0x8880"),
    (c!"id", c!"0x000a")]

/-- Fields of `HDR_IFH_OC1` as written in the source: ef-ifh.c:44-117. -/
def HDR_IFH_OC1_fields : List Field := [
  { name := c!"bypass", width := 1 },
  { name := c!"b1-rew-mac", width := 1 },
  { name := c!"b1-rew-op", width := 9 },
  { name := c!"b0-masq", width := 1, offset := 1 },
  { name := c!"b0-masq-port", width := 4, offset := 2 },
  { name := c!"rew-val", width := 32 },
  { name := c!"res1", width := 17 },
  { name := c!"dest", width := 12 },
  { name := c!"res2", width := 9 },
  { name := c!"src-port", width := 4 },
  { name := c!"res3", width := 2 },
  { name := c!"trfm-timer", width := 4 },
  { name := c!"res4", width := 6 },
  { name := c!"dp", width := 1 },
  { name := c!"pop-cnt", width := 2 },
  { name := c!"cpuq", width := 8 },
  { name := c!"qos-class", width := 3 },
  { name := c!"tag-type", width := 1 },
  { name := c!"pcp", width := 3 },
  { name := c!"dei", width := 1 },
  { name := c!"vid", width := 12 }]

/-- The source form of `HDR_IFH_OC1` before start-up: ef-ifh.c:44-117 (IFH_OC1_FIELDS), ef-ifh.c:119-125, init ef-ifh.c:1757. -/
def HDR_IFH_OC1_raw : Hdr :=
  { name := c!"ifh-oc1", type := 0, fields := HDR_IFH_OC1_fields, fill := .none, parser := .fields }

/-- ef-ifh.c:44-117 (IFH_OC1_FIELDS), ef-ifh.c:119-125, init ef-ifh.c:1757. -/
def HDR_IFH_OC1 : Hdr :=
  defOffset HDR_IFH_OC1_raw

/-- Fields of `HDR_EFH_OC1` as written in the source: ef-ifh.c:127-191. -/
def HDR_EFH_OC1_fields : List Field := [
  { name := c!"res1", width := 1 },
  { name := c!"rew-mac", width := 1 },
  { name := c!"rew-op", width := 9 },
  { name := c!"rew-val", width := 32 },
  { name := c!"llen", width := 6 },
  { name := c!"wlen", width := 8 },
  { name := c!"res2", width := 14 },
  { name := c!"isdx", width := 10 },
  { name := c!"src-port", width := 4 },
  { name := c!"acl-id", width := 6 },
  { name := c!"res3", width := 1 },
  { name := c!"sflow-id", width := 4 },
  { name := c!"acl-hit", width := 1 },
  { name := c!"dp", width := 1 },
  { name := c!"lrn-flags", width := 2 },
  { name := c!"cpuq", width := 8 },
  { name := c!"qos-class", width := 3 },
  { name := c!"tag-type", width := 1 },
  { name := c!"pcp", width := 3 },
  { name := c!"dei", width := 1 },
  { name := c!"vid", width := 12 }]

/-- The source form of `HDR_EFH_OC1` before start-up: ef-ifh.c:127-191 (EFH_OC1_FIELDS), ef-ifh.c:193-199, init ef-ifh.c:1758. -/
def HDR_EFH_OC1_raw : Hdr :=
  { name := c!"efh-oc1", type := 0, fields := HDR_EFH_OC1_fields, fill := .none, parser := .fields }

/-- ef-ifh.c:127-191 (EFH_OC1_FIELDS), ef-ifh.c:193-199, init ef-ifh.c:1758. -/
def HDR_EFH_OC1 : Hdr :=
  defOffset HDR_EFH_OC1_raw

/-- Fields of `HDR_SP_JR2` as written in the source: ef-ifh.c:201-214. -/
def HDR_SP_JR2_fields : List Field := [
  { name := c!"dmac", width := 48 },
  { name := c!"smac", width := 48 },
  { name := c!"et", width := 16 },
  { name := c!"id", width := 16 }]

/-- The source form of `HDR_SP_JR2` before start-up: ef-ifh.c:201-214 (SP_JR2_FIELDS), ef-ifh.c:216-222, init ef-ifh.c:1760-1764. -/
def HDR_SP_JR2_raw : Hdr :=
  { name := c!"sp-jr2", type := 0, fields := HDR_SP_JR2_fields, fill := .none, parser := .fields }

/-- ef-ifh.c:201-214 (SP_JR2_FIELDS), ef-ifh.c:216-222, init ef-ifh.c:1760-1764. -/
def HDR_SP_JR2 : Hdr :=
  defVals (defOffset HDR_SP_JR2_raw) [
    (c!"dmac", c!"ff:ff:ff:ff:ff:ff"),
    (c!"smac", c!"ff:ff:ff:ff:ff:ff"),
    (c!"et", c!"0x8880"),
    (c!"id", c!"0x0009")]

/-- Fields of `HDR_LP_JR2` as written in the source: ef-ifh.c:224-249. -/
def HDR_LP_JR2_fields : List Field := [
  { name := c!"dmac", width := 48 },
  { name := c!"smac", width := 48 },
  { name := c!"tpid", width := 16 },
  { name := c!"pcp", width := 3 },
  { name := c!"dei", width := 1 },
  { name := c!"vid", width := 12 },
  { name := c!"et", width := 16 },
  { name := c!"id", width := 16 }]

/-- The source form of `HDR_LP_JR2` before start-up: ef-ifh.c:224-249 (LP_JR2_FIELDS), ef-ifh.c:251-257, init ef-ifh.c:1766-1772. -/
def HDR_LP_JR2_raw : Hdr :=
  { name := c!"lp-jr2", type := 0, fields := HDR_LP_JR2_fields, fill := .none, parser := .fields }

/-- ef-ifh.c:224-249 (LP_JR2_FIELDS), ef-ifh.c:251-257, init ef-ifh.c:1766-1772. -/
def HDR_LP_JR2 : Hdr :=
  defVals (defOffset HDR_LP_JR2_raw) [
    (c!"dmac", c!"ff:ff:ff:ff:ff:ff"),
    (c!"smac", c!"ff:ff:ff:ff:ff:ff"),
    (c!"tpid", c!"0x8100"),
    (c!"vid", c!"1"),
    (c!"et", c!"0x8880"),
    (c!"id", c!"0x0009")]

/-- Fields of `HDR_IFH_JR2` as written in the source: ef-ifh.c:259-645. -/
def HDR_IFH_JR2_fields : List Field := [
  { name := c!"ts", width := 32 },
  { name := c!"de-rsv1", width := 2 },
  { name := c!"de-rt-fwd", width := 1 },
  { name := c!"de-swap-mac", width := 1 },
  { name := c!"de-tag-tpid", width := 2 },
  { name := c!"de-rsv2", width := 2 },
  { name := c!"de-gen-idx", width := 10 },
  { name := c!"de-gen-idx-mode", width := 1 },
  { name := c!"de-prot-active", width := 1 },
  { name := c!"de-pdu-w16-offset", width := 6 },
  { name := c!"de-pdu-type", width := 3 },
  { name := c!"de-cl-rslt", width := 16 },
  { name := c!"de-mpls-ttl", width := 8 },
  { name := c!"de-mpls-sbit", width := 1 },
  { name := c!"de-mpls-tc", width := 3 },
  { name := c!"de-type-after-pop", width := 2 },
  { name := c!"de-w16-pop-cnt", width := 5 },
  { name := c!"di-rsv1", width := 11, offset := 32 },
  { name := c!"di-dst-port-mask", width := 53, offset := 43 },
  { name := c!"du-rsv1", width := 9, offset := 32 },
  { name := c!"du-erleg", width := 7, offset := 41 },
  { name := c!"du-next-hop-dmac", width := 48, offset := 48 },
  { name := c!"dm-rsv1", width := 40, offset := 32 },
  { name := c!"dm-l3mc-grp-idx", width := 10, offset := 72 },
  { name := c!"dm-erleg", width := 7, offset := 82 },
  { name := c!"dm-copy-cnt", width := 7, offset := 89 },
  { name := c!"v-rsv1", width := 1 },
  { name := c!"vm0-rsv1", width := 11 },
  { name := c!"vm0-ac", width := 4 },
  { name := c!"vm1-cosid", width := 3, offset := 97 },
  { name := c!"vm1-isdx", width := 12, offset := 100 },
  { name := c!"v-rsv2", width := 2 },
  { name := c!"vq-cl-dp", width := 2 },
  { name := c!"vq-sp", width := 1 },
  { name := c!"vq-cl-qos", width := 3 },
  { name := c!"vq-ingr-drop-mode", width := 1 },
  { name := c!"v-rsv3", width := 1 },
  { name := c!"vg-rsv1", width := 1 },
  { name := c!"vg-ttl", width := 5 },
  { name := c!"vg-lrn-mode", width := 1 },
  { name := c!"vg-fwd-mode", width := 3 },
  { name := c!"v-rsv4", width := 1 },
  { name := c!"vdl-dst-port-type", width := 1 },
  { name := c!"vdl-dst-upsid", width := 5 },
  { name := c!"vdl-dst-pn", width := 5 },
  { name := c!"vdp-rsv1", width := 1, offset := 133 },
  { name := c!"vdp-dst-upsid", width := 5, offset := 134 },
  { name := c!"vdp-dst-pn", width := 5, offset := 139 },
  { name := c!"vdm-rsv1", width := 1, offset := 133 },
  { name := c!"vdm-mc-idx", width := 10, offset := 134 },
  { name := c!"vdu-rsv1", width := 1, offset := 133 },
  { name := c!"vdu-dst-upsid", width := 5, offset := 134 },
  { name := c!"vdu-rsv2", width := 1, offset := 139 },
  { name := c!"vdu-dst-pn", width := 4, offset := 140 },
  { name := c!"vda-rsv1", width := 1, offset := 133 },
  { name := c!"vda-ttl-keep", width := 1, offset := 134 },
  { name := c!"vda-rsv2", width := 5, offset := 135 },
  { name := c!"vda-dst-pn", width := 4, offset := 140 },
  { name := c!"vdg-rew-cmd", width := 11, offset := 133 },
  { name := c!"vt-cl-pcp", width := 3 },
  { name := c!"vt-cl-dei", width := 1 },
  { name := c!"vt-cl-vid", width := 12 },
  { name := c!"vt-was-tagged", width := 1 },
  { name := c!"vt-tag-type", width := 1 },
  { name := c!"vt-ingr-port-type", width := 2 },
  { name := c!"vs-src-port-type", width := 1 },
  { name := c!"vs-src-addr-mode", width := 1 },
  { name := c!"vs10-src-upsid", width := 5 },
  { name := c!"vs10-rsv1", width := 1 },
  { name := c!"vs10-src-intpn", width := 4 },
  { name := c!"vs00-src-upsid", width := 5, offset := 166 },
  { name := c!"vs00-src-upspn", width := 5, offset := 171 },
  { name := c!"vs01-src-glagid", width := 10, offset := 166 },
  { name := c!"f-afi-inj", width := 1 },
  { name := c!"f-rsv1", width := 1 },
  { name := c!"f-es0-isdx-key-ena", width := 1 },
  { name := c!"f-rsv2", width := 1 },
  { name := c!"f-vstax-avail", width := 1 },
  { name := c!"f-update-fcs", width := 1 },
  { name := c!"f-rsv3", width := 1 },
  { name := c!"f-dst-mode", width := 3 },
  { name := c!"f-sflow-marking", width := 1 },
  { name := c!"f-aged", width := 1 },
  { name := c!"f-rx-mirror", width := 1 },
  { name := c!"f-mirror-probe", width := 2 },
  { name := c!"f-src-port", width := 6 },
  { name := c!"f-do-not-rew", width := 1 },
  { name := c!"m-pipeline-act", width := 3 },
  { name := c!"m-pipeline-pt", width := 5 },
  { name := c!"m-cpu-mask", width := 8 },
  { name := c!"t-pop-cnt", width := 2 },
  { name := c!"q-transp-dscp", width := 1 },
  { name := c!"q-update-dscp", width := 1 },
  { name := c!"q-dscp", width := 6 }]

/-- The source form of `HDR_IFH_JR2` before start-up: ef-ifh.c:259-645 (IFH_JR2_FIELDS), ef-ifh.c:647-653, init ef-ifh.c:1774-1775. -/
def HDR_IFH_JR2_raw : Hdr :=
  { name := c!"ifh-jr2", type := 0, fields := HDR_IFH_JR2_fields, fill := .none, parser := .fields }

/-- ef-ifh.c:259-645 (IFH_JR2_FIELDS), ef-ifh.c:647-653, init ef-ifh.c:1774-1775. -/
def HDR_IFH_JR2 : Hdr :=
  defVals (defOffset HDR_IFH_JR2_raw) [
    (c!"v-rsv1", c!"1")]

/-- Fields of `HDR_IFH_FA` as written in the source: ef-ifh.c:655-1044. -/
def HDR_IFH_FA_fields : List Field := [
  { name := c!"rsv", width := 16 },
  { name := c!"ts", width := 40 },
  { name := c!"de-rleg-mode", width := 2 },
  { name := c!"de-rleg", width := 10 },
  { name := c!"de-rsv1", width := 1 },
  { name := c!"de-rt-fwd", width := 1 },
  { name := c!"de-swap-mac", width := 1 },
  { name := c!"de-tag-tpid", width := 2 },
  { name := c!"de-gvid", width := 12 },
  { name := c!"de-xvid-ext", width := 1 },
  { name := c!"de-prot-active", width := 1 },
  { name := c!"de-pdu-w16-offset", width := 6 },
  { name := c!"de-pdu-type", width := 4 },
  { name := c!"de-cl-rslt", width := 16 },
  { name := c!"de-mpls-ttl", width := 9 },
  { name := c!"de-mpls-sbit", width := 1 },
  { name := c!"de-mpls-tc", width := 3 },
  { name := c!"de-action-after-pop", width := 1 },
  { name := c!"de-type-after-pop", width := 2 },
  { name := c!"de-w16-pop-cnt", width := 6 },
  { name := c!"du-rsv1", width := 22, offset := 56 },
  { name := c!"du-erleg", width := 9, offset := 78 },
  { name := c!"du-next-hop-dmac", width := 48, offset := 87 },
  { name := c!"dm-rsv1", width := 50, offset := 56 },
  { name := c!"dm-l3mc-grp-idx", width := 11, offset := 106 },
  { name := c!"dm-erleg", width := 9, offset := 117 },
  { name := c!"dm-copy-cnt", width := 9, offset := 126 },
  { name := c!"v-rsv1", width := 1 },
  { name := c!"vm0-rsv1", width := 11 },
  { name := c!"vm0-ac", width := 4 },
  { name := c!"vm1-cosid", width := 3, offset := 136 },
  { name := c!"vm1-isdx", width := 12, offset := 139 },
  { name := c!"v-rsv2", width := 2 },
  { name := c!"vq-cl-dp", width := 2 },
  { name := c!"vq-sp", width := 1 },
  { name := c!"vq-cl-qos", width := 3 },
  { name := c!"vq-ingr-drop-mode", width := 1 },
  { name := c!"v-rsv3", width := 1 },
  { name := c!"vg-rsv1", width := 1 },
  { name := c!"vg-ttl", width := 5 },
  { name := c!"vg-lrn-mode", width := 1 },
  { name := c!"vg-fwd-mode", width := 3 },
  { name := c!"v-rsv4", width := 1 },
  { name := c!"vdl-dst-port-type", width := 1 },
  { name := c!"vdl-dst-upsid", width := 5 },
  { name := c!"vdl-dst-pn", width := 5 },
  { name := c!"vdp-rsv1", width := 1, offset := 172 },
  { name := c!"vdp-dst-upsid", width := 5, offset := 173 },
  { name := c!"vdp-dst-pn", width := 5, offset := 178 },
  { name := c!"vdm-mc-idx", width := 11, offset := 172 },
  { name := c!"vdu-rsv1", width := 1, offset := 172 },
  { name := c!"vdu-dst-upsid", width := 5, offset := 173 },
  { name := c!"vdu-rsv2", width := 1, offset := 178 },
  { name := c!"vdu-dst-pn", width := 4, offset := 179 },
  { name := c!"vda-rsv1", width := 1, offset := 172 },
  { name := c!"vda-ttl-keep", width := 1, offset := 173 },
  { name := c!"vda-rsv2", width := 5, offset := 174 },
  { name := c!"vda-dst-pn", width := 4, offset := 179 },
  { name := c!"vdg-rew-cmd", width := 11, offset := 172 },
  { name := c!"vt-cl-pcp", width := 3 },
  { name := c!"vt-cl-dei", width := 1 },
  { name := c!"vt-cl-vid", width := 12 },
  { name := c!"vt-was-tagged", width := 1 },
  { name := c!"vt-tag-type", width := 1 },
  { name := c!"vt-ingr-port-type", width := 2 },
  { name := c!"vs-src-port-type", width := 1 },
  { name := c!"vs-src-addr-mode", width := 1 },
  { name := c!"vs10-src-upsid", width := 5 },
  { name := c!"vs10-rsv1", width := 1 },
  { name := c!"vs10-src-intpn", width := 4 },
  { name := c!"vs00-src-upsid", width := 5, offset := 205 },
  { name := c!"vs00-src-upspn", width := 5, offset := 210 },
  { name := c!"vs01-src-glagid", width := 10, offset := 205 },
  { name := c!"f-afi-inj", width := 1 },
  { name := c!"f-rsv1", width := 1 },
  { name := c!"f-es0-isdx-key-ena", width := 1 },
  { name := c!"f-rsv2", width := 1 },
  { name := c!"f-vstax-avail", width := 1 },
  { name := c!"f-update-fcs", width := 1 },
  { name := c!"f-rsv3", width := 1 },
  { name := c!"f-dst-mode", width := 2 },
  { name := c!"f-sflow-id", width := 7 },
  { name := c!"f-aged", width := 1 },
  { name := c!"f-rx-mirror", width := 1 },
  { name := c!"f-mirror-probe", width := 2 },
  { name := c!"f-src-port", width := 7 },
  { name := c!"f-do-not-rew", width := 1 },
  { name := c!"m-pipeline-act", width := 3 },
  { name := c!"m-pipeline-pt", width := 5 },
  { name := c!"m-cpu-mask", width := 8 },
  { name := c!"t-pop-cnt", width := 2 },
  { name := c!"t-push-cnt", width := 2 },
  { name := c!"t-rtag-etag-avail", width := 1 },
  { name := c!"t-seq-no", width := 16 },
  { name := c!"q-transp-dscp", width := 1 },
  { name := c!"q-update-dscp", width := 1 },
  { name := c!"q-dscp", width := 6 }]

/-- The source form of `HDR_IFH_FA` before start-up: ef-ifh.c:655-1044 (IFH_FA_FIELDS), ef-ifh.c:1046-1052, init ef-ifh.c:1777-1778. -/
def HDR_IFH_FA_raw : Hdr :=
  { name := c!"ifh-fa", type := 0, fields := HDR_IFH_FA_fields, fill := .none, parser := .fields }

/-- ef-ifh.c:655-1044 (IFH_FA_FIELDS), ef-ifh.c:1046-1052, init ef-ifh.c:1777-1778. -/
def HDR_IFH_FA : Hdr :=
  defVals (defOffset HDR_IFH_FA_raw) [
    (c!"v-rsv1", c!"1")]

/-- Fields of `HDR_IFH_LA` as written in the source: ef-ifh.c:1054-1489. -/
def HDR_IFH_LA_fields : List Field := [
  { name := c!"rsv", width := 9 },
  { name := c!"rb-cmd", width := 5 },
  { name := c!"rb-src", width := 1 },
  { name := c!"rb-tag", width := 1 },
  { name := c!"ts", width := 40 },
  { name := c!"lbk-fill", width := 26, offset := 16 },
  { name := c!"lbk-cos-nxt", width := 2, offset := 42 },
  { name := c!"lbk-cos-mask", width := 8, offset := 44 },
  { name := c!"lbk-cosid-ena", width := 1, offset := 52 },
  { name := c!"lbk-tc-ena", width := 1, offset := 53 },
  { name := c!"lbk-pcp-ena", width := 1, offset := 54 },
  { name := c!"lbk-outer-pcp-ena", width := 1, offset := 55 },
  { name := c!"de-fill", width := 3 },
  { name := c!"de-rleg-mode", width := 2 },
  { name := c!"de-rleg", width := 8 },
  { name := c!"de-first-copy", width := 1 },
  { name := c!"de-rt-fwd", width := 1 },
  { name := c!"de-swap-mac", width := 1 },
  { name := c!"de-tag-tpid", width := 2 },
  { name := c!"de-gvid", width := 12 },
  { name := c!"de-xvid-ext", width := 1 },
  { name := c!"de-prot-active", width := 1 },
  { name := c!"de-pdu-w16-offset", width := 6 },
  { name := c!"de-pdu-type", width := 4 },
  { name := c!"de-match-id", width := 16 },
  { name := c!"de-mpls-ttl", width := 8 },
  { name := c!"de-mpls-sbit", width := 1 },
  { name := c!"de-mpls-tc", width := 3 },
  { name := c!"de-action-after-pop", width := 1 },
  { name := c!"de-type-after-pop", width := 2 },
  { name := c!"de-w16-pop-cnt", width := 6 },
  { name := c!"du-fill", width := 24, offset := 56 },
  { name := c!"du-erleg", width := 7, offset := 80 },
  { name := c!"du-next-hop-dmac", width := 48, offset := 87 },
  { name := c!"du-fill", width := 50, offset := 56 },
  { name := c!"dm-l3mc-grp-idx", width := 11, offset := 106 },
  { name := c!"dm-erleg", width := 9, offset := 117 },
  { name := c!"dm-copy-cnt", width := 9, offset := 126 },
  { name := c!"v-rsv1", width := 1 },
  { name := c!"vm0-rsv1", width := 11 },
  { name := c!"vm0-ac", width := 4 },
  { name := c!"vm1-cosid", width := 3, offset := 136 },
  { name := c!"vm1-isdx", width := 12, offset := 139 },
  { name := c!"v-rsv2", width := 2 },
  { name := c!"vq-cl-dp", width := 2 },
  { name := c!"vq-sp", width := 1 },
  { name := c!"vq-cl-qos", width := 3 },
  { name := c!"vq-ingr-drop-mode", width := 1 },
  { name := c!"v-rsv3", width := 1 },
  { name := c!"vg-rsv1", width := 1 },
  { name := c!"vg-ttl", width := 5 },
  { name := c!"vg-lrn-mode", width := 1 },
  { name := c!"vg-fwd-mode", width := 3 },
  { name := c!"v-rsv4", width := 1 },
  { name := c!"vdl-dst-port-type", width := 1 },
  { name := c!"vdl-dst-upsid", width := 5 },
  { name := c!"vdl-dst-pn", width := 5 },
  { name := c!"vdp-rsv1", width := 1, offset := 172 },
  { name := c!"vdp-dst-upsid", width := 5, offset := 173 },
  { name := c!"vdp-dst-pn", width := 5, offset := 178 },
  { name := c!"vdm-mc-idx", width := 11, offset := 172 },
  { name := c!"vdu-rsv1", width := 1, offset := 172 },
  { name := c!"vdu-dst-upsid", width := 5, offset := 173 },
  { name := c!"vdu-rsv2", width := 1, offset := 178 },
  { name := c!"vdu-dst-pn", width := 4, offset := 179 },
  { name := c!"vda-rsv1", width := 1, offset := 172 },
  { name := c!"vda-ttl-keep", width := 1, offset := 173 },
  { name := c!"vda-rsv2", width := 5, offset := 174 },
  { name := c!"vda-dst-pn", width := 4, offset := 179 },
  { name := c!"vdg-rew-cmd", width := 11, offset := 172 },
  { name := c!"vt-cl-pcp", width := 3 },
  { name := c!"vt-cl-dei", width := 1 },
  { name := c!"vt-cl-vid", width := 12 },
  { name := c!"vt-was-tagged", width := 1 },
  { name := c!"vt-tag-type", width := 1 },
  { name := c!"vt-ingr-port-type", width := 2 },
  { name := c!"vs-src-port-type", width := 1 },
  { name := c!"vs-src-addr-mode", width := 1 },
  { name := c!"vs10-src-upsid", width := 5 },
  { name := c!"vs10-rsv1", width := 1 },
  { name := c!"vs10-src-intpn", width := 4 },
  { name := c!"vs00-src-upsid", width := 5, offset := 205 },
  { name := c!"vs00-src-upspn", width := 5, offset := 210 },
  { name := c!"vs01-src-glagid", width := 10, offset := 205 },
  { name := c!"f-fill", width := 1 },
  { name := c!"f-afi-inj", width := 1 },
  { name := c!"f-do_lbk", width := 1 },
  { name := c!"f-es0-isdx-key-ena", width := 1 },
  { name := c!"f-ts-mode", width := 1 },
  { name := c!"f-vstax-avail", width := 1 },
  { name := c!"f-update-fcs", width := 1 },
  { name := c!"f-lrn_all", width := 1 },
  { name := c!"f-dst-mode", width := 2 },
  { name := c!"f-sflow-id", width := 7 },
  { name := c!"f-aged", width := 1 },
  { name := c!"f-rx-mirror", width := 1 },
  { name := c!"f-mirror-probe", width := 2 },
  { name := c!"f-src-port", width := 6 },
  { name := c!"f-do-not-rew", width := 1 },
  { name := c!"m-pipeline-act", width := 3 },
  { name := c!"m-pipeline-pt", width := 5 },
  { name := c!"m-inj-dport", width := 8 },
  { name := c!"t-pop-cnt", width := 2 },
  { name := c!"t-push-cnt", width := 2 },
  { name := c!"t-rtag-etag-avail", width := 1 },
  { name := c!"t-seq-no", width := 16 },
  { name := c!"q-transp-dscp", width := 1 },
  { name := c!"q-update-dscp", width := 1 },
  { name := c!"q-dscp", width := 6 }]

/-- The source form of `HDR_IFH_LA` before start-up: ef-ifh.c:1054-1489 (IFH_LA_FIELDS), ef-ifh.c:1491-1497, init ef-ifh.c:1785. -/
def HDR_IFH_LA_raw : Hdr :=
  { name := c!"ifh-la", type := 0, fields := HDR_IFH_LA_fields, fill := .none, parser := .fields }

/-- ef-ifh.c:1054-1489 (IFH_LA_FIELDS), ef-ifh.c:1491-1497, init ef-ifh.c:1785. -/
def HDR_IFH_LA : Hdr :=
  defOffset HDR_IFH_LA_raw

/-- Fields of `HDR_IFH_CRCL` as written in the source: ef-ifh.c:1499-1536. -/
def HDR_IFH_CRCL_fields : List Field := [
  { name := c!"bypass", width := 1 },
  { name := c!"ptp", width := 2 },
  { name := c!"ptp-id", width := 2 },
  { name := c!"dest", width := 27 },
  { name := c!"resv", width := 2 },
  { name := c!"pop-cnt", width := 2 },
  { name := c!"cpuq", width := 8 },
  { name := c!"qos-class", width := 3 },
  { name := c!"tag-type", width := 1 },
  { name := c!"pcp", width := 3 },
  { name := c!"dei", width := 1 },
  { name := c!"vid", width := 12 }]

/-- The source form of `HDR_IFH_CRCL` before start-up: ef-ifh.c:1499-1536 (IFH_CRCL_FIELDS), ef-ifh.c:1538-1544, init ef-ifh.c:1780. -/
def HDR_IFH_CRCL_raw : Hdr :=
  { name := c!"ifh-crcl", type := 0, fields := HDR_IFH_CRCL_fields, fill := .none, parser := .fields }

/-- ef-ifh.c:1499-1536 (IFH_CRCL_FIELDS), ef-ifh.c:1538-1544, init ef-ifh.c:1780. -/
def HDR_IFH_CRCL : Hdr :=
  defOffset HDR_IFH_CRCL_raw

/-- Fields of `HDR_EFH_CRCL` as written in the source: ef-ifh.c:1546-1589. -/
def HDR_EFH_CRCL_fields : List Field := [
  { name := c!"signature", width := 8 },
  { name := c!"src-port", width := 5 },
  { name := c!"dscp", width := 6 },
  { name := c!"acl-id", width := 8 },
  { name := c!"sflow-id", width := 5 },
  { name := c!"acl-hit", width := 1 },
  { name := c!"dp", width := 1 },
  { name := c!"lrn-flags", width := 2 },
  { name := c!"cpuq", width := 8 },
  { name := c!"qos-class", width := 3 },
  { name := c!"tag-type", width := 1 },
  { name := c!"pcp", width := 3 },
  { name := c!"dei", width := 1 },
  { name := c!"vid", width := 12 }]

/-- The source form of `HDR_EFH_CRCL` before start-up: ef-ifh.c:1546-1589 (EFH_CRCL_FIELDS), ef-ifh.c:1591-1597, init ef-ifh.c:1781-1782. -/
def HDR_EFH_CRCL_raw : Hdr :=
  { name := c!"efh-crcl", type := 0, fields := HDR_EFH_CRCL_fields, fill := .none, parser := .fields }

/-- ef-ifh.c:1546-1589 (EFH_CRCL_FIELDS), ef-ifh.c:1591-1597, init ef-ifh.c:1781-1782. -/
def HDR_EFH_CRCL : Hdr :=
  defVals (defOffset HDR_EFH_CRCL_raw) [
    (c!"signature", c!"0xff")]

/-- Fields of `HDR_IFH_MAS` as written in the source: ef-ifh.c:1599-1736. -/
def HDR_IFH_MAS_fields : List Field := [
  { name := c!"ts", width := 32 },
  { name := c!"bypass", width := 1 },
  { name := c!"masq", width := 1 },
  { name := c!"masq-port", width := 4 },
  { name := c!"rsv1", width := 8 },
  { name := c!"len", width := 14, offset := 32 },
  { name := c!"smallc", width := 2 },
  { name := c!"rtag48", width := 1 },
  { name := c!"rtag", width := 1 },
  { name := c!"ct", width := 1 },
  { name := c!"rew-cmd", width := 10 },
  { name := c!"rew-oam", width := 1 },
  { name := c!"pdu-type", width := 4 },
  { name := c!"fcs-upd", width := 1 },
  { name := c!"dscp", width := 6 },
  { name := c!"dp", width := 1 },
  { name := c!"rte-inb-upd", width := 1 },
  { name := c!"pop-cnt", width := 2 },
  { name := c!"etype-offs", width := 2 },
  { name := c!"src-port", width := 4 },
  { name := c!"rsv2", width := 5 },
  { name := c!"seq-no", width := 16 },
  { name := c!"tag-type", width := 1 },
  { name := c!"pcp", width := 3 },
  { name := c!"dei", width := 1 },
  { name := c!"vid", width := 12 },
  { name := c!"qos-class", width := 3 },
  { name := c!"cpuq", width := 8 },
  { name := c!"lrn-flags", width := 2 },
  { name := c!"sflow-id", width := 4 },
  { name := c!"acl-hit", width := 1 },
  { name := c!"acl-id", width := 6 },
  { name := c!"isdx", width := 8 },
  { name := c!"dest", width := 9 },
  { name := c!"flood", width := 2 },
  { name := c!"seq-op", width := 2 },
  { name := c!"ipv", width := 3 },
  { name := c!"afi", width := 1 },
  { name := c!"aged", width := 2 },
  { name := c!"rtp-id", width := 10 },
  { name := c!"rtp-subid", width := 1 },
  { name := c!"pn-data-status", width := 8 },
  { name := c!"pn-tf-status_zero", width := 1 },
  { name := c!"pn-cc", width := 16 },
  { name := c!"rsv3", width := 16 }]

/-- The source form of `HDR_IFH_MAS` before start-up: ef-ifh.c:1599-1736 (IFH_MAS_FIELDS), ef-ifh.c:1738-1744, init ef-ifh.c:1784. -/
def HDR_IFH_MAS_raw : Hdr :=
  { name := c!"ifh-mas", type := 0, fields := HDR_IFH_MAS_fields, fill := .none, parser := .fields }

/-- ef-ifh.c:1599-1736 (IFH_MAS_FIELDS), ef-ifh.c:1738-1744, init ef-ifh.c:1784. -/
def HDR_IFH_MAS : Hdr :=
  defOffset HDR_IFH_MAS_raw

/-- Fields of `HDR_ETH` as written in the source: ef-eth.c:8-18. -/
def HDR_ETH_fields : List Field := [
  { name := c!"dmac", width := 48 },
  { name := c!"smac", width := 48 },
  { name := c!"et", width := 16 }]

/-- The source form of `HDR_ETH` before start-up: ef-eth.c:8-18 (ETH_FIELDS), ef-eth.c:20-27, init ef-eth.c:30-33. -/
def HDR_ETH_raw : Hdr :=
  { name := c!"eth", type := 0, fields := HDR_ETH_fields, fill := .etherType, parser := .fields }

/-- ef-eth.c:8-18 (ETH_FIELDS), ef-eth.c:20-27, init ef-eth.c:30-33. -/
def HDR_ETH : Hdr :=
  defVals (defOffset HDR_ETH_raw) [
    (c!"dmac", c!"ff:ff:ff:ff:ff:ff"),
    (c!"smac", c!"00:00:00:00:00:01"),
    (c!"et", c!"0xaaaa")]

/-- Fields of `HDR_STAG` as written in the source: ef-vlan.c:7-20. -/
def HDR_STAG_fields : List Field := [
  { name := c!"pcp", width := 3 },
  { name := c!"dei", width := 1 },
  { name := c!"vid", width := 12 },
  { name := c!"et", width := 16 }]

/-- The source form of `HDR_STAG` before start-up: ef-vlan.c:7-20 (STAG_FIELDS), ef-vlan.c:22-30, init ef-vlan.c:129. -/
def HDR_STAG_raw : Hdr :=
  { name := c!"stag", type := 34984, fields := HDR_STAG_fields, fill := .etherType, parser := .fields }

/-- ef-vlan.c:7-20 (STAG_FIELDS), ef-vlan.c:22-30, init ef-vlan.c:129. -/
def HDR_STAG : Hdr :=
  defOffset HDR_STAG_raw

/-- Fields of `HDR_CTAG` as written in the source: ef-vlan.c:32-45. -/
def HDR_CTAG_fields : List Field := [
  { name := c!"pcp", width := 3 },
  { name := c!"dei", width := 1 },
  { name := c!"vid", width := 12 },
  { name := c!"et", width := 16 }]

/-- The source form of `HDR_CTAG` before start-up: ef-vlan.c:32-45 (CTAG_FIELDS), ef-vlan.c:47-55, init ef-vlan.c:130. -/
def HDR_CTAG_raw : Hdr :=
  { name := c!"ctag", type := 33024, fields := HDR_CTAG_fields, fill := .etherType, parser := .fields }

/-- ef-vlan.c:32-45 (CTAG_FIELDS), ef-vlan.c:47-55, init ef-vlan.c:130. -/
def HDR_CTAG : Hdr :=
  defOffset HDR_CTAG_raw

/-- Fields of `HDR_RTAG` as written in the source: ef-vlan.c:57-67. -/
def HDR_RTAG_fields : List Field := [
  { name := c!"recv", width := 16 },
  { name := c!"seqn", width := 16 },
  { name := c!"et", width := 16 }]

/-- The source form of `HDR_RTAG` before start-up: ef-vlan.c:57-67 (RTAG_FIELDS), ef-vlan.c:69-77, init ef-vlan.c:131. -/
def HDR_RTAG_raw : Hdr :=
  { name := c!"rtag", type := 61889, fields := HDR_RTAG_fields, fill := .etherType, parser := .fields }

/-- ef-vlan.c:57-67 (RTAG_FIELDS), ef-vlan.c:69-77, init ef-vlan.c:131. -/
def HDR_RTAG : Hdr :=
  defOffset HDR_RTAG_raw

/-- Fields of `HDR_PRP_RCT` as written in the source: ef-vlan.c:79-92. -/
def HDR_PRP_RCT_fields : List Field := [
  { name := c!"seqn", width := 16 },
  { name := c!"lanid", width := 4 },
  { name := c!"size", width := 12 },
  { name := c!"suffix", width := 16 }]

/-- The source form of `HDR_PRP_RCT` before start-up: ef-vlan.c:79-92 (PRP_RCT_FIELDS), ef-vlan.c:94-101, init ef-vlan.c:132-134. -/
def HDR_PRP_RCT_raw : Hdr :=
  { name := c!"prp", type := 0, fields := HDR_PRP_RCT_fields, fill := .none, parser := .fields }

/-- ef-vlan.c:79-92 (PRP_RCT_FIELDS), ef-vlan.c:94-101, init ef-vlan.c:132-134. -/
def HDR_PRP_RCT : Hdr :=
  defVals (defOffset HDR_PRP_RCT_raw) [
    (c!"suffix", c!"0x88fb")]

/-- Fields of `HDR_HSR_TAG` as written in the source: ef-vlan.c:103-116. -/
def HDR_HSR_TAG_fields : List Field := [
  { name := c!"pathid", width := 4 },
  { name := c!"size", width := 12 },
  { name := c!"seqn", width := 16 },
  { name := c!"et", width := 16 }]

/-- The source form of `HDR_HSR_TAG` before start-up: ef-vlan.c:103-116 (HSR_TAG_FIELDS), ef-vlan.c:118-126, init ef-vlan.c:133. -/
def HDR_HSR_TAG_raw : Hdr :=
  { name := c!"htag", type := 35119, fields := HDR_HSR_TAG_fields, fill := .etherType, parser := .fields }

/-- ef-vlan.c:103-116 (HSR_TAG_FIELDS), ef-vlan.c:118-126, init ef-vlan.c:133. -/
def HDR_HSR_TAG : Hdr :=
  defOffset HDR_HSR_TAG_raw

/-- Fields of `HDR_ARP` as written in the source: ef-arp.c:3-31. -/
def HDR_ARP_fields : List Field := [
  { name := c!"htype", width := 16 },
  { name := c!"ptype", width := 16 },
  { name := c!"hlen", width := 8 },
  { name := c!"plen", width := 8 },
  { name := c!"oper", width := 16 },
  { name := c!"sha", width := 48 },
  { name := c!"spa", width := 32 },
  { name := c!"tha", width := 48 },
  { name := c!"tpa", width := 32 }]

/-- The source form of `HDR_ARP` before start-up: ef-arp.c:3-31 (ARP_FIELDS), ef-arp.c:33-40, init ef-arp.c:43-47. -/
def HDR_ARP_raw : Hdr :=
  { name := c!"arp", type := 2054, fields := HDR_ARP_fields, fill := .none, parser := .fields }

/-- ef-arp.c:3-31 (ARP_FIELDS), ef-arp.c:33-40, init ef-arp.c:43-47. -/
def HDR_ARP : Hdr :=
  defVals (defOffset HDR_ARP_raw) [
    (c!"htype", c!"0x0001"),
    (c!"ptype", c!"0x0800"),
    (c!"hlen", c!"6"),
    (c!"plen", c!"4")]

/-- Fields of `HDR_IPV4` as written in the source: ef-ipv4.c:52-92. -/
def HDR_IPV4_fields : List Field := [
  { name := c!"ver", width := 4 },
  { name := c!"ihl", width := 4 },
  { name := c!"dscp", width := 6 },
  { name := c!"ecn", width := 2 },
  { name := c!"len", width := 16 },
  { name := c!"id", width := 16 },
  { name := c!"flags", width := 3 },
  { name := c!"offset", width := 13 },
  { name := c!"ttl", width := 8 },
  { name := c!"proto", width := 8 },
  { name := c!"chksum", width := 16 },
  { name := c!"sip", width := 32 },
  { name := c!"dip", width := 32 }]

/-- The source form of `HDR_IPV4` before start-up: ef-ipv4.c:52-92 (IPV4_FIELDS), ef-ipv4.c:94-102, init ef-ipv4.c:105-108. -/
def HDR_IPV4_raw : Hdr :=
  { name := c!"ipv4", type := 2048, fields := HDR_IPV4_fields, fill := .ipv4, parser := .fields }

/-- ef-ipv4.c:52-92 (IPV4_FIELDS), ef-ipv4.c:94-102, init ef-ipv4.c:105-108. -/
def HDR_IPV4 : Hdr :=
  defVals (defOffset HDR_IPV4_raw) [
    (c!"ver", c!"4"),
    (c!"ihl", c!"5"),
    (c!"ttl", c!"31")]

/-- Fields of `HDR_IPV6` as written in the source: ef-ipv6.c:37-65. -/
def HDR_IPV6_fields : List Field := [
  { name := c!"ver", width := 4 },
  { name := c!"dscp", width := 6 },
  { name := c!"ecn", width := 2 },
  { name := c!"flow", width := 20 },
  { name := c!"len", width := 16 },
  { name := c!"next", width := 8 },
  { name := c!"hlim", width := 8 },
  { name := c!"sip", width := 128 },
  { name := c!"dip", width := 128 }]

/-- The source form of `HDR_IPV6` before start-up: ef-ipv6.c:37-65 (IPV6_FIELDS), ef-ipv6.c:67-75, init ef-ipv6.c:78-80. -/
def HDR_IPV6_raw : Hdr :=
  { name := c!"ipv6", type := 34525, fields := HDR_IPV6_fields, fill := .ipv6, parser := .fields }

/-- ef-ipv6.c:37-65 (IPV6_FIELDS), ef-ipv6.c:67-75, init ef-ipv6.c:78-80. -/
def HDR_IPV6 : Hdr :=
  defVals (defOffset HDR_IPV6_raw) [
    (c!"ver", c!"6"),
    (c!"hlim", c!"31")]

/-- Fields of `HDR_ICMP` as written in the source: ef-icmp.c:69-82. -/
def HDR_ICMP_fields : List Field := [
  { name := c!"type", width := 8 },
  { name := c!"code", width := 8 },
  { name := c!"chksum", width := 16 },
  { name := c!"hd", width := 32 }]

/-- The source form of `HDR_ICMP` before start-up: ef-icmp.c:69-82 (ICMP_FIELDS), ef-icmp.c:84-92, init ef-icmp.c:95. -/
def HDR_ICMP_raw : Hdr :=
  { name := c!"icmp", type := 1, fields := HDR_ICMP_fields, fill := .icmp, parser := .fields }

/-- ef-icmp.c:69-82 (ICMP_FIELDS), ef-icmp.c:84-92, init ef-icmp.c:95. -/
def HDR_ICMP : Hdr :=
  defOffset HDR_ICMP_raw

/-- Fields of `HDR_IGMP` as written in the source: ef-igmp.c:112-146. -/
def HDR_IGMP_fields : List Field := [
  { name := c!"type", width := 8 },
  { name := c!"max_resp", width := 8 },
  { name := c!"chksum", width := 16 },
  { name := c!"ga", width := 32 },
  { name := c!"qresv", width := 4 },
  { name := c!"s", width := 1 },
  { name := c!"qrv", width := 3 },
  { name := c!"qqic", width := 8 },
  { name := c!"ns", width := 16 },
  { name := c!"rresv", width := 16 },
  { name := c!"ng", width := 16 }]

/-- The source form of `HDR_IGMP` before start-up: ef-igmp.c:112-146 (IGMP_FIELDS), ef-igmp.c:165-173, init ef-igmp.c:184. -/
def HDR_IGMP_raw : Hdr :=
  { name := c!"igmp", type := 2, fields := HDR_IGMP_fields, fill := .igmp, parser := .fields }

/-- ef-igmp.c:112-146 (IGMP_FIELDS), ef-igmp.c:165-173, init ef-igmp.c:184. -/
def HDR_IGMP : Hdr :=
  defOffset HDR_IGMP_raw

/-- Fields of `HDR_IGMPV3_GROUP` as written in the source: ef-igmp.c:150-163. -/
def HDR_IGMPV3_GROUP_fields : List Field := [
  { name := c!"rec_type", width := 8 },
  { name := c!"auxlen", width := 8 },
  { name := c!"ns", width := 16 },
  { name := c!"ga", width := 32 }]

/-- The source form of `HDR_IGMPV3_GROUP` before start-up: ef-igmp.c:150-163 (IGMPV3_GROUP_FIELDS), ef-igmp.c:175-181, init ef-igmp.c:185. -/
def HDR_IGMPV3_GROUP_raw : Hdr :=
  { name := c!"igmpv3_group", type := 0, fields := HDR_IGMPV3_GROUP_fields, fill := .none, parser := .fields }

/-- ef-igmp.c:150-163 (IGMPV3_GROUP_FIELDS), ef-igmp.c:175-181, init ef-igmp.c:185. -/
def HDR_IGMPV3_GROUP : Hdr :=
  defOffset HDR_IGMPV3_GROUP_raw

/-- Fields of `HDR_MLD` as written in the source: ef-mld.c:188-228. -/
def HDR_MLD_fields : List Field := [
  { name := c!"type", width := 8 },
  { name := c!"code", width := 8 },
  { name := c!"chksum", width := 16 },
  { name := c!"max_resp", width := 16 },
  { name := c!"rsv", width := 16 },
  { name := c!"ga", width := 128 },
  { name := c!"qresv", width := 4 },
  { name := c!"s", width := 1 },
  { name := c!"qrv", width := 3 },
  { name := c!"qqic", width := 8 },
  { name := c!"ns", width := 16 },
  { name := c!"rresv", width := 16 },
  { name := c!"ng", width := 16 }]

/-- The source form of `HDR_MLD` before start-up: ef-mld.c:188-228 (MLD_FIELDS), ef-mld.c:247-255, init ef-mld.c:267. -/
def HDR_MLD_raw : Hdr :=
  { name := c!"mld", type := 0, fields := HDR_MLD_fields, fill := .mld, parser := .fields }

/-- ef-mld.c:188-228 (MLD_FIELDS), ef-mld.c:247-255, init ef-mld.c:267. -/
def HDR_MLD : Hdr :=
  defOffset HDR_MLD_raw

/-- Fields of `HDR_MLDV2_GROUP` as written in the source: ef-mld.c:232-245. -/
def HDR_MLDV2_GROUP_fields : List Field := [
  { name := c!"rec_type", width := 8 },
  { name := c!"auxlen", width := 8 },
  { name := c!"ns", width := 16 },
  { name := c!"ga", width := 128 }]

/-- The source form of `HDR_MLDV2_GROUP` before start-up: ef-mld.c:232-245 (MLDV2_GROUP_FIELDS), ef-mld.c:257-264, init ef-mld.c:268. -/
def HDR_MLDV2_GROUP_raw : Hdr :=
  { name := c!"mldv2_group", type := 2, fields := HDR_MLDV2_GROUP_fields, fill := .none, parser := .fields }

/-- ef-mld.c:232-245 (MLDV2_GROUP_FIELDS), ef-mld.c:257-264, init ef-mld.c:268. -/
def HDR_MLDV2_GROUP : Hdr :=
  defOffset HDR_MLDV2_GROUP_raw

/-- Fields of `HDR_IPV4_PSEUDO` as written in the source: ef-udp.c:4-10. -/
def HDR_IPV4_PSEUDO_fields : List Field := [
  { name := c!"sip", width := 32 },
  { name := c!"dip", width := 32 },
  { name := c!"zero", width := 8 },
  { name := c!"proto", width := 8 },
  { name := c!"len", width := 16 }]

/-- The source form of `HDR_IPV4_PSEUDO` before start-up: ef-udp.c:4-10 (IPv4_PSEUDO_FIELDS), ef-udp.c:12-17, init ef-udp.c:186. -/
def HDR_IPV4_PSEUDO_raw : Hdr :=
  { name := c!"ipv4-pseudo", type := 0, fields := HDR_IPV4_PSEUDO_fields, fill := .none, parser := .fields }

/-- ef-udp.c:4-10 (IPv4_PSEUDO_FIELDS), ef-udp.c:12-17, init ef-udp.c:186. -/
def HDR_IPV4_PSEUDO : Hdr :=
  defOffset HDR_IPV4_PSEUDO_raw

/-- Fields of `HDR_IPV6_PSEUDO` as written in the source: ef-udp.c:19-25. -/
def HDR_IPV6_PSEUDO_fields : List Field := [
  { name := c!"sip", width := 128 },
  { name := c!"dip", width := 128 },
  { name := c!"len", width := 32 },
  { name := c!"zero", width := 24 },
  { name := c!"proto", width := 8 }]

/-- The source form of `HDR_IPV6_PSEUDO` before start-up: ef-udp.c:19-25 (IPv6_PSEUDO_FIELDS), ef-udp.c:27-32, init ef-udp.c:187. -/
def HDR_IPV6_PSEUDO_raw : Hdr :=
  { name := c!"ipv6-pseudo", type := 0, fields := HDR_IPV6_PSEUDO_fields, fill := .none, parser := .fields }

/-- ef-udp.c:19-25 (IPv6_PSEUDO_FIELDS), ef-udp.c:27-32, init ef-udp.c:187. -/
def HDR_IPV6_PSEUDO : Hdr :=
  defOffset HDR_IPV6_PSEUDO_raw

/-- Fields of `HDR_UDP` as written in the source: ef-udp.c:102-115. -/
def HDR_UDP_fields : List Field := [
  { name := c!"sport", width := 16 },
  { name := c!"dport", width := 16 },
  { name := c!"len", width := 16 },
  { name := c!"chksum", width := 16 }]

/-- The source form of `HDR_UDP` before start-up: ef-udp.c:102-115 (UDP_FIELDS), ef-udp.c:117-125, init ef-udp.c:189. -/
def HDR_UDP_raw : Hdr :=
  { name := c!"udp", type := 17, fields := HDR_UDP_fields, fill := .udpTcp, parser := .fields }

/-- ef-udp.c:102-115 (UDP_FIELDS), ef-udp.c:117-125, init ef-udp.c:189. -/
def HDR_UDP : Hdr :=
  defOffset HDR_UDP_raw

/-- Fields of `HDR_TCP` as written in the source: ef-udp.c:127-173. -/
def HDR_TCP_fields : List Field := [
  { name := c!"sport", width := 16 },
  { name := c!"dport", width := 16 },
  { name := c!"seqn", width := 32 },
  { name := c!"ackn", width := 32 },
  { name := c!"doff", width := 4 },
  { name := c!"resv", width := 6 },
  { name := c!"urg", width := 1 },
  { name := c!"ack", width := 1 },
  { name := c!"psh", width := 1 },
  { name := c!"rst", width := 1 },
  { name := c!"syn", width := 1 },
  { name := c!"fin", width := 1 },
  { name := c!"win", width := 16 },
  { name := c!"chksum", width := 16 },
  { name := c!"urgp", width := 16 }]

/-- The source form of `HDR_TCP` before start-up: ef-udp.c:127-173 (TCP_FIELDS), ef-udp.c:175-183, init ef-udp.c:190-191. -/
def HDR_TCP_raw : Hdr :=
  { name := c!"tcp", type := 6, fields := HDR_TCP_fields, fill := .udpTcp, parser := .fields }

/-- ef-udp.c:127-173 (TCP_FIELDS), ef-udp.c:175-183, init ef-udp.c:190-191. -/
def HDR_TCP : Hdr :=
  defVals (defOffset HDR_TCP_raw) [
    (c!"doff", c!"5")]

/-- Fields of `HDR_PAYLOAD` as written in the source: ef-payload.c:21-25. -/
def HDR_PAYLOAD_fields : List Field := [
  { name := c!"hex", width := 0 }]

/-- The source form of `HDR_PAYLOAD` before start-up: ef-payload.c:21-25 (PAYLOAD_FIELDS), ef-payload.c:27-33, init ef-payload.c:36. -/
def HDR_PAYLOAD_raw : Hdr :=
  { name := c!"data", type := 0, fields := HDR_PAYLOAD_fields, fill := .none, parser := .payload }

/-- ef-payload.c:21-25 (PAYLOAD_FIELDS), ef-payload.c:27-33, init ef-payload.c:36. -/
def HDR_PAYLOAD : Hdr :=
  defOffset HDR_PAYLOAD_raw

/-- The source form of `HDR_PADDING` before start-up: ef-padding.c:20-24. -/
def HDR_PADDING_raw : Hdr :=
  { name := c!"padding", type := 0, fields := [], fill := .none, parser := .padding }

/-- ef-padding.c:20-24. -/
def HDR_PADDING : Hdr :=
  HDR_PADDING_raw

/-- Fields of `HDR_CCM` as written in the source: ef-oam.c:10-63. -/
def HDR_CCM_fields : List Field := [
  { name := c!"mel", width := 3 },
  { name := c!"version", width := 5 },
  { name := c!"opcode", width := 8 },
  { name := c!"rdi", width := 1 },
  { name := c!"reserved", width := 4 },
  { name := c!"period", width := 3 },
  { name := c!"tlv_off", width := 8 },
  { name := c!"seq_num", width := 32 },
  { name := c!"mep_id", width := 16 },
  { name := c!"meg_id", width := 384, parser := .fieldHex },
  { name := c!"txfcf", width := 32 },
  { name := c!"rxfcb", width := 32 },
  { name := c!"txfcb", width := 32 },
  { name := c!"reserved", width := 32 },
  { name := c!"end_tlv", width := 8 },
  { name := c!"tlv_length", width := 16 },
  { name := c!"tlv_value", width := 8 }]

/-- The source form of `HDR_CCM` before start-up: ef-oam.c:10-63 (CCM_FIELDS), ef-oam.c:65-73, init ef-oam.c:270-276. -/
def HDR_CCM_raw : Hdr :=
  { name := c!"oam-ccm", type := 35074, fields := HDR_CCM_fields, fill := .none, parser := .fields }

/-- ef-oam.c:10-63 (CCM_FIELDS), ef-oam.c:65-73, init ef-oam.c:270-276. -/
def HDR_CCM : Hdr :=
  defVals (defOffset HDR_CCM_raw) [
    (c!"version", c!"0"),
    (c!"opcode", c!"1"),
    (c!"tlv_off", c!"70"),
    (c!"rdi", c!"0"),
    (c!"reserved", c!"0"),
    (c!"seq_num", c!"0")]

/-- Fields of `HDR_LAPS` as written in the source: ef-oam.c:79-116. -/
def HDR_LAPS_fields : List Field := [
  { name := c!"mel", width := 3 },
  { name := c!"version", width := 5 },
  { name := c!"opcode", width := 8 },
  { name := c!"flags", width := 8 },
  { name := c!"tlv_off", width := 8 },
  { name := c!"req_sta", width := 4 },
  { name := c!"prot_type", width := 4 },
  { name := c!"request_sig", width := 8 },
  { name := c!"bridge_sig", width := 8 },
  { name := c!"t", width := 1 },
  { name := c!"reserved", width := 7 },
  { name := c!"padding", width := 400 }]

/-- The source form of `HDR_LAPS` before start-up: ef-oam.c:79-116 (LAPS_FIELDS), ef-oam.c:118-126, init ef-oam.c:278-281. -/
def HDR_LAPS_raw : Hdr :=
  { name := c!"oam-laps", type := 35074, fields := HDR_LAPS_fields, fill := .none, parser := .fields }

/-- ef-oam.c:79-116 (LAPS_FIELDS), ef-oam.c:118-126, init ef-oam.c:278-281. -/
def HDR_LAPS : Hdr :=
  defVals (defOffset HDR_LAPS_raw) [
    (c!"version", c!"0"),
    (c!"opcode", c!"39"),
    (c!"tlv_off", c!"4")]

/-- Fields of `HDR_LB` as written in the source: ef-oam.c:132-169. -/
def HDR_LB_fields : List Field := [
  { name := c!"mel", width := 3 },
  { name := c!"version", width := 5 },
  { name := c!"opcode", width := 8 },
  { name := c!"flags", width := 8 },
  { name := c!"tlv_off", width := 8 },
  { name := c!"trans_id", width := 32 },
  { name := c!"type", width := 8 },
  { name := c!"tlv_length", width := 16 },
  { name := c!"pattern_type", width := 8 },
  { name := c!"pattern", width := 56 },
  { name := c!"crc32", width := 32 },
  { name := c!"padding", width := 400 }]

/-- The source form of `HDR_LB` before start-up: ef-oam.c:132-169 (LB_FIELDS), ef-oam.c:171-179, init ef-oam.c:283-287. -/
def HDR_LB_raw : Hdr :=
  { name := c!"oam-lb", type := 35074, fields := HDR_LB_fields, fill := .none, parser := .fields }

/-- ef-oam.c:132-169 (LB_FIELDS), ef-oam.c:171-179, init ef-oam.c:283-287. -/
def HDR_LB : Hdr :=
  defVals (defOffset HDR_LB_raw) [
    (c!"version", c!"0"),
    (c!"tlv_off", c!"4"),
    (c!"type", c!"0"),
    (c!"tlv_length", c!"0")]

/-- Fields of `HDR_LT` as written in the source: ef-oam.c:185-207. -/
def HDR_LT_fields : List Field := [
  { name := c!"mel", width := 3 },
  { name := c!"version", width := 5 },
  { name := c!"opcode", width := 8 },
  { name := c!"flags", width := 8 },
  { name := c!"tlv_off", width := 8 },
  { name := c!"trans_id", width := 32 },
  { name := c!"padding", width := 480 }]

/-- The source form of `HDR_LT` before start-up: ef-oam.c:185-207 (LT_FIELDS), ef-oam.c:209-217, init ef-oam.c:289-290. -/
def HDR_LT_raw : Hdr :=
  { name := c!"oam-lt", type := 35074, fields := HDR_LT_fields, fill := .none, parser := .fields }

/-- ef-oam.c:185-207 (LT_FIELDS), ef-oam.c:209-217, init ef-oam.c:289-290. -/
def HDR_LT : Hdr :=
  defVals (defOffset HDR_LT_raw) [
    (c!"version", c!"0")]

/-- Fields of `HDR_RAPS` as written in the source: ef-oam.c:223-257. -/
def HDR_RAPS_fields : List Field := [
  { name := c!"mel", width := 3 },
  { name := c!"version", width := 5 },
  { name := c!"opcode", width := 8 },
  { name := c!"flags", width := 8 },
  { name := c!"tlv_off", width := 8 },
  { name := c!"req_sta", width := 4 },
  { name := c!"sub_code", width := 4 },
  { name := c!"status", width := 8 },
  { name := c!"node_id", width := 48 },
  { name := c!"reserved", width := 192 },
  { name := c!"padding", width := 80 }]

/-- The source form of `HDR_RAPS` before start-up: ef-oam.c:223-257 (RAPS_FIELDS), ef-oam.c:259-267, init ef-oam.c:292-295. -/
def HDR_RAPS_raw : Hdr :=
  { name := c!"oam-raps", type := 35074, fields := HDR_RAPS_fields, fill := .none, parser := .fields }

/-- ef-oam.c:223-257 (RAPS_FIELDS), ef-oam.c:259-267, init ef-oam.c:292-295. -/
def HDR_RAPS : Hdr :=
  defVals (defOffset HDR_RAPS_raw) [
    (c!"version", c!"1"),
    (c!"opcode", c!"40"),
    (c!"tlv_off", c!"32")]

/-- Fields of `HDR_MRP_TST` as written in the source: ef-mrp.c:10-59. -/
def HDR_MRP_TST_fields : List Field := [
  { name := c!"version", width := 16 },
  { name := c!"t_type", width := 8 },
  { name := c!"t_length", width := 8 },
  { name := c!"t_prio", width := 16 },
  { name := c!"t_sa", width := 48 },
  { name := c!"t_role", width := 16 },
  { name := c!"t_state", width := 16 },
  { name := c!"t_trans", width := 16 },
  { name := c!"t_ts", width := 32 },
  { name := c!"c_type", width := 8 },
  { name := c!"c_length", width := 8 },
  { name := c!"c_seq_num", width := 16 },
  { name := c!"c_domain", width := 128 },
  { name := c!"e_type", width := 8 },
  { name := c!"e_length", width := 8 },
  { name := c!"padding", width := 160 }]

/-- The source form of `HDR_MRP_TST` before start-up: ef-mrp.c:10-59 (MRP_TST_FIELDS), ef-mrp.c:61-69, init ef-mrp.c:262-269. -/
def HDR_MRP_TST_raw : Hdr :=
  { name := c!"mrp_tst", type := 35043, fields := HDR_MRP_TST_fields, fill := .none, parser := .fields }

/-- ef-mrp.c:10-59 (MRP_TST_FIELDS), ef-mrp.c:61-69, init ef-mrp.c:262-269. -/
def HDR_MRP_TST : Hdr :=
  defVals (defOffset HDR_MRP_TST_raw) [
    (c!"version", c!"1"),
    (c!"t_type", c!"2"),
    (c!"t_length", c!"18"),
    (c!"c_type", c!"1"),
    (c!"c_length", c!"18"),
    (c!"e_type", c!"0"),
    (c!"e_length", c!"0")]

/-- Fields of `HDR_MRP_TOPO` as written in the source: ef-mrp.c:75-115. -/
def HDR_MRP_TOPO_fields : List Field := [
  { name := c!"version", width := 16 },
  { name := c!"t_type", width := 8 },
  { name := c!"t_length", width := 8 },
  { name := c!"t_prio", width := 16 },
  { name := c!"t_sa", width := 48 },
  { name := c!"t_interval", width := 16 },
  { name := c!"c_type", width := 8 },
  { name := c!"c_length", width := 8 },
  { name := c!"c_seq_num", width := 16 },
  { name := c!"c_domain", width := 128 },
  { name := c!"e_type", width := 8 },
  { name := c!"e_length", width := 8 },
  { name := c!"padding", width := 240 }]

/-- The source form of `HDR_MRP_TOPO` before start-up: ef-mrp.c:75-115 (MRP_TOPO_FIELDS), ef-mrp.c:117-125, init ef-mrp.c:271-278. -/
def HDR_MRP_TOPO_raw : Hdr :=
  { name := c!"mrp_topo", type := 35043, fields := HDR_MRP_TOPO_fields, fill := .none, parser := .fields }

/-- ef-mrp.c:75-115 (MRP_TOPO_FIELDS), ef-mrp.c:117-125, init ef-mrp.c:271-278. -/
def HDR_MRP_TOPO : Hdr :=
  defVals (defOffset HDR_MRP_TOPO_raw) [
    (c!"version", c!"1"),
    (c!"t_type", c!"3"),
    (c!"t_length", c!"12"),
    (c!"c_type", c!"1"),
    (c!"c_length", c!"18"),
    (c!"e_type", c!"0"),
    (c!"e_length", c!"0")]

/-- Fields of `HDR_MRP_LNK` as written in the source: ef-mrp.c:131-174. -/
def HDR_MRP_LNK_fields : List Field := [
  { name := c!"version", width := 16 },
  { name := c!"t_type", width := 8 },
  { name := c!"t_length", width := 8 },
  { name := c!"t_sa", width := 48 },
  { name := c!"t_role", width := 16 },
  { name := c!"t_interval", width := 16 },
  { name := c!"t_blocked", width := 16 },
  { name := c!"c_type", width := 8 },
  { name := c!"c_length", width := 8 },
  { name := c!"c_seq_num", width := 16 },
  { name := c!"c_domain", width := 128 },
  { name := c!"e_type", width := 8 },
  { name := c!"e_length", width := 8 },
  { name := c!"padding", width := 240 }]

/-- The source form of `HDR_MRP_LNK` before start-up: ef-mrp.c:131-174 (MRP_LNK_FIELDS), ef-mrp.c:176-184, init ef-mrp.c:280-287. -/
def HDR_MRP_LNK_raw : Hdr :=
  { name := c!"mrp_lnk", type := 35043, fields := HDR_MRP_LNK_fields, fill := .none, parser := .fields }

/-- ef-mrp.c:131-174 (MRP_LNK_FIELDS), ef-mrp.c:176-184, init ef-mrp.c:280-287. -/
def HDR_MRP_LNK : Hdr :=
  defVals (defOffset HDR_MRP_LNK_raw) [
    (c!"version", c!"1"),
    (c!"t_type", c!"4"),
    (c!"t_length", c!"12"),
    (c!"c_type", c!"1"),
    (c!"c_length", c!"18"),
    (c!"e_type", c!"0"),
    (c!"e_length", c!"0")]

/-- Fields of `HDR_MRP_PROP_NACK` as written in the source: ef-mrp.c:190-248. -/
def HDR_MRP_PROP_NACK_fields : List Field := [
  { name := c!"version", width := 16 },
  { name := c!"t_type", width := 8 },
  { name := c!"t_length", width := 8 },
  { name := c!"t_qui", width := 24 },
  { name := c!"t_sub1_type", width := 8 },
  { name := c!"t_sub1_man", width := 16 },
  { name := c!"t_s_type", width := 8 },
  { name := c!"t_s_length", width := 8 },
  { name := c!"t_s_prio", width := 16 },
  { name := c!"t_s_sa", width := 48 },
  { name := c!"t_s_oprio", width := 16 },
  { name := c!"t_s_osa", width := 48 },
  { name := c!"c_type", width := 8 },
  { name := c!"c_length", width := 8 },
  { name := c!"c_seq_num", width := 16 },
  { name := c!"c_domain", width := 128 },
  { name := c!"e_type", width := 8 },
  { name := c!"e_length", width := 8 },
  { name := c!"padding", width := 320 }]

/-- The source form of `HDR_MRP_PROP_NACK` before start-up: ef-mrp.c:190-248 (MRP_PROP_NACK_FIELDS), ef-mrp.c:250-258, init ef-mrp.c:289-298. -/
def HDR_MRP_PROP_NACK_raw : Hdr :=
  { name := c!"mrp_prop_nack", type := 35043, fields := HDR_MRP_PROP_NACK_fields, fill := .none, parser := .fields }

/-- ef-mrp.c:190-248 (MRP_PROP_NACK_FIELDS), ef-mrp.c:250-258, init ef-mrp.c:289-298. -/
def HDR_MRP_PROP_NACK : Hdr :=
  defVals (defOffset HDR_MRP_PROP_NACK_raw) [
    (c!"version", c!"1"),
    (c!"t_type", c!"127"),
    (c!"t_length", c!"24"),
    (c!"t_s_type", c!"2"),
    (c!"t_s_length", c!"16"),
    (c!"c_type", c!"1"),
    (c!"c_length", c!"18"),
    (c!"e_type", c!"0"),
    (c!"e_length", c!"0")]

/-- Fields of `HDR_SYNC` as written in the source: ef-ptp.c:53-124. -/
def HDR_SYNC_fields : List Field := [
  { name := c!"hdr-transportSpecific", width := 4 },
  { name := c!"hdr-messageType", width := 4 },
  { name := c!"hdr-minorVersionPTP", width := 4 },
  { name := c!"hdr-versionPTP", width := 4 },
  { name := c!"hdr-messageLength", width := 16 },
  { name := c!"hdr-domainNumber", width := 8 },
  { name := c!"hdr-reserved1", width := 8 },
  { name := c!"hdr-flagField", width := 16 },
  { name := c!"hdr-correctionField", width := 64 },
  { name := c!"hdr-reserved2", width := 32 },
  { name := c!"hdr-clockId", width := 64 },
  { name := c!"hdr-portNumber", width := 16 },
  { name := c!"hdr-sequenceId", width := 16 },
  { name := c!"hdr-controlField", width := 8 },
  { name := c!"hdr-logMessageInterval", width := 8 },
  { name := c!"ots-secondsField", width := 48 },
  { name := c!"ots-nanosecondsField", width := 32 }]

/-- The source form of `HDR_SYNC` before start-up: ef-ptp.c:53-124 (SYNC_FIELDS), ef-ptp.c:126-134, init ef-ptp.c:763-766. -/
def HDR_SYNC_raw : Hdr :=
  { name := c!"ptp-sync", type := 35063, fields := HDR_SYNC_fields, fill := .ptp, parser := .fields }

/-- ef-ptp.c:53-124 (SYNC_FIELDS), ef-ptp.c:126-134, init ef-ptp.c:763-766. -/
def HDR_SYNC : Hdr :=
  defVals (defOffset HDR_SYNC_raw) [
    (c!"hdr-messageType", c!"0"),
    (c!"ots-secondsField", c!"0"),
    (c!"ots-nanosecondsField", c!"0")]

/-- Fields of `HDR_FOLLOW_UP` as written in the source: ef-ptp.c:136-207. -/
def HDR_FOLLOW_UP_fields : List Field := [
  { name := c!"hdr-transportSpecific", width := 4 },
  { name := c!"hdr-messageType", width := 4 },
  { name := c!"hdr-minorVersionPTP", width := 4 },
  { name := c!"hdr-versionPTP", width := 4 },
  { name := c!"hdr-messageLength", width := 16 },
  { name := c!"hdr-domainNumber", width := 8 },
  { name := c!"hdr-reserved1", width := 8 },
  { name := c!"hdr-flagField", width := 16 },
  { name := c!"hdr-correctionField", width := 64 },
  { name := c!"hdr-reserved2", width := 32 },
  { name := c!"hdr-clockId", width := 64 },
  { name := c!"hdr-portNumber", width := 16 },
  { name := c!"hdr-sequenceId", width := 16 },
  { name := c!"hdr-controlField", width := 8 },
  { name := c!"hdr-logMessageInterval", width := 8 },
  { name := c!"pts-secondsField", width := 48 },
  { name := c!"pts-nanosecondsField", width := 32 }]

/-- The source form of `HDR_FOLLOW_UP` before start-up: ef-ptp.c:136-207 (FOLLOW_UP_FIELDS), ef-ptp.c:209-217, init ef-ptp.c:768-769. -/
def HDR_FOLLOW_UP_raw : Hdr :=
  { name := c!"ptp-follow-up", type := 35063, fields := HDR_FOLLOW_UP_fields, fill := .ptp, parser := .fields }

/-- ef-ptp.c:136-207 (FOLLOW_UP_FIELDS), ef-ptp.c:209-217, init ef-ptp.c:768-769. -/
def HDR_FOLLOW_UP : Hdr :=
  defVals (defOffset HDR_FOLLOW_UP_raw) [
    (c!"hdr-messageType", c!"8")]

/-- Fields of `HDR_REQUEST` as written in the source: ef-ptp.c:219-290. -/
def HDR_REQUEST_fields : List Field := [
  { name := c!"hdr-transportSpecific", width := 4 },
  { name := c!"hdr-messageType", width := 4 },
  { name := c!"hdr-minorVersionPTP", width := 4 },
  { name := c!"hdr-versionPTP", width := 4 },
  { name := c!"hdr-messageLength", width := 16 },
  { name := c!"hdr-domainNumber", width := 8 },
  { name := c!"hdr-reserved1", width := 8 },
  { name := c!"hdr-flagField", width := 16 },
  { name := c!"hdr-correctionField", width := 64 },
  { name := c!"hdr-reserved2", width := 32 },
  { name := c!"hdr-clockId", width := 64 },
  { name := c!"hdr-portNumber", width := 16 },
  { name := c!"hdr-sequenceId", width := 16 },
  { name := c!"hdr-controlField", width := 8 },
  { name := c!"hdr-logMessageInterval", width := 8 },
  { name := c!"ots-secondsField", width := 48 },
  { name := c!"ots-nanosecondsField", width := 32 }]

/-- The source form of `HDR_REQUEST` before start-up: ef-ptp.c:219-290 (REQ_FIELDS), ef-ptp.c:292-300, init ef-ptp.c:771-772. -/
def HDR_REQUEST_raw : Hdr :=
  { name := c!"ptp-request", type := 35063, fields := HDR_REQUEST_fields, fill := .ptp, parser := .fields }

/-- ef-ptp.c:219-290 (REQ_FIELDS), ef-ptp.c:292-300, init ef-ptp.c:771-772. -/
def HDR_REQUEST : Hdr :=
  defVals (defOffset HDR_REQUEST_raw) [
    (c!"hdr-messageType", c!"1")]

/-- Fields of `HDR_RESPONSE` as written in the source: ef-ptp.c:302-365. -/
def HDR_RESPONSE_fields : List Field := [
  { name := c!"hdr-transportSpecific", width := 4 },
  { name := c!"hdr-messageType", width := 4 },
  { name := c!"hdr-minotrVersionPTP", width := 4 },
  { name := c!"hdr-versionPTP", width := 4 },
  { name := c!"hdr-messageLength", width := 16 },
  { name := c!"hdr-domainNumber", width := 8 },
  { name := c!"hdr-reserved1", width := 8 },
  { name := c!"hdr-flagField", width := 16 },
  { name := c!"hdr-correctionField", width := 64 },
  { name := c!"hdr-reserved2", width := 32 },
  { name := c!"hdr-clockId", width := 64 },
  { name := c!"hdr-portNumber", width := 16 },
  { name := c!"hdr-sequenceId", width := 16 },
  { name := c!"hdr-controlField", width := 8 },
  { name := c!"hdr-logMessageInterval", width := 8 },
  { name := c!"rts-secondsField", width := 48 },
  { name := c!"rts-nanosecondsField", width := 32 },
  { name := c!"rpi-clockId", width := 64 },
  { name := c!"rpi-portNumber", width := 16 }]

/-- The source form of `HDR_RESPONSE` before start-up: ef-ptp.c:302-365 (RESPONSE_FIELDS), ef-ptp.c:367-375, init ef-ptp.c:774-775. -/
def HDR_RESPONSE_raw : Hdr :=
  { name := c!"ptp-response", type := 35063, fields := HDR_RESPONSE_fields, fill := .ptp, parser := .fields }

/-- ef-ptp.c:302-365 (RESPONSE_FIELDS), ef-ptp.c:367-375, init ef-ptp.c:774-775. -/
def HDR_RESPONSE : Hdr :=
  defVals (defOffset HDR_RESPONSE_raw) [
    (c!"hdr-messageType", c!"9")]

/-- Fields of `HDR_PEER_REQUEST` as written in the source: ef-ptp.c:377-443. -/
def HDR_PEER_REQUEST_fields : List Field := [
  { name := c!"hdr-transportSpecific", width := 4 },
  { name := c!"hdr-messageType", width := 4 },
  { name := c!"hdr-minorVersionPTP", width := 4 },
  { name := c!"hdr-versionPTP", width := 4 },
  { name := c!"hdr-messageLength", width := 16 },
  { name := c!"hdr-domainNumber", width := 8 },
  { name := c!"hdr-reserved1", width := 8 },
  { name := c!"hdr-flagField", width := 16 },
  { name := c!"hdr-correctionField", width := 64 },
  { name := c!"hdr-reserved2", width := 32 },
  { name := c!"hdr-clockId", width := 64 },
  { name := c!"hdr-portNumber", width := 16 },
  { name := c!"hdr-sequenceId", width := 16 },
  { name := c!"hdr-controlField", width := 8 },
  { name := c!"hdr-logMessageInterval", width := 8 },
  { name := c!"rpi-reserved", width := 160 }]

/-- The source form of `HDR_PEER_REQUEST` before start-up: ef-ptp.c:377-443 (PEER_REQUEST_FIELDS), ef-ptp.c:445-453, init ef-ptp.c:777-778. -/
def HDR_PEER_REQUEST_raw : Hdr :=
  { name := c!"ptp-peer-request", type := 35063, fields := HDR_PEER_REQUEST_fields, fill := .ptp, parser := .fields }

/-- ef-ptp.c:377-443 (PEER_REQUEST_FIELDS), ef-ptp.c:445-453, init ef-ptp.c:777-778. -/
def HDR_PEER_REQUEST : Hdr :=
  defVals (defOffset HDR_PEER_REQUEST_raw) [
    (c!"hdr-messageType", c!"2")]

/-- Fields of `HDR_PEER_RESPONSE` as written in the source: ef-ptp.c:455-518. -/
def HDR_PEER_RESPONSE_fields : List Field := [
  { name := c!"hdr-transportSpecific", width := 4 },
  { name := c!"hdr-messageType", width := 4 },
  { name := c!"hdr-minorVersionPTP", width := 4 },
  { name := c!"hdr-versionPTP", width := 4 },
  { name := c!"hdr-messageLength", width := 16 },
  { name := c!"hdr-domainNumber", width := 8 },
  { name := c!"hdr-reserved1", width := 8 },
  { name := c!"hdr-flagField", width := 16 },
  { name := c!"hdr-correctionField", width := 64 },
  { name := c!"hdr-reserved2", width := 32 },
  { name := c!"hdr-clockId", width := 64 },
  { name := c!"hdr-portNumber", width := 16 },
  { name := c!"hdr-sequenceId", width := 16 },
  { name := c!"hdr-controlField", width := 8 },
  { name := c!"hdr-logMessageInterval", width := 8 },
  { name := c!"rts-secondsField", width := 48 },
  { name := c!"rts-nanosecondsField", width := 32 },
  { name := c!"rpi-clockId", width := 64 },
  { name := c!"rpi-portNumber", width := 16 }]

/-- The source form of `HDR_PEER_RESPONSE` before start-up: ef-ptp.c:455-518 (PEER_RESPONSE_FIELDS), ef-ptp.c:520-528, init ef-ptp.c:780-781. -/
def HDR_PEER_RESPONSE_raw : Hdr :=
  { name := c!"ptp-peer-response", type := 35063, fields := HDR_PEER_RESPONSE_fields, fill := .ptp, parser := .fields }

/-- ef-ptp.c:455-518 (PEER_RESPONSE_FIELDS), ef-ptp.c:520-528, init ef-ptp.c:780-781. -/
def HDR_PEER_RESPONSE : Hdr :=
  defVals (defOffset HDR_PEER_RESPONSE_raw) [
    (c!"hdr-messageType", c!"3")]

/-- Fields of `HDR_PEER_RESPONSE_FOLLOW_UP` as written in the source: ef-ptp.c:530-593. -/
def HDR_PEER_RESPONSE_FOLLOW_UP_fields : List Field := [
  { name := c!"hdr-transportSpecific", width := 4 },
  { name := c!"hdr-messageType", width := 4 },
  { name := c!"hdr-minorVersionPTP", width := 4 },
  { name := c!"hdr-versionPTP", width := 4 },
  { name := c!"hdr-messageLength", width := 16 },
  { name := c!"hdr-domainNumber", width := 8 },
  { name := c!"hdr-reserved1", width := 8 },
  { name := c!"hdr-flagField", width := 16 },
  { name := c!"hdr-correctionField", width := 64 },
  { name := c!"hdr-reserved2", width := 32 },
  { name := c!"hdr-clockId", width := 64 },
  { name := c!"hdr-portNumber", width := 16 },
  { name := c!"hdr-sequenceId", width := 16 },
  { name := c!"hdr-controlField", width := 8 },
  { name := c!"hdr-logMessageInterval", width := 8 },
  { name := c!"rots-secondsField", width := 48 },
  { name := c!"rots-nanosecondsField", width := 32 },
  { name := c!"rpi-clockId", width := 64 },
  { name := c!"rpi-portNumber", width := 16 }]

/-- The source form of `HDR_PEER_RESPONSE_FOLLOW_UP` before start-up: ef-ptp.c:530-593 (PEER_RESPONSE_FOLLOW_UP_FIELDS), ef-ptp.c:595-604, init ef-ptp.c:783-784. -/
def HDR_PEER_RESPONSE_FOLLOW_UP_raw : Hdr :=
  { name := c!"ptp-peer-response-follow-up", type := 35063, fields := HDR_PEER_RESPONSE_FOLLOW_UP_fields, fill := .ptp, parser := .fields }

/-- ef-ptp.c:530-593 (PEER_RESPONSE_FOLLOW_UP_FIELDS), ef-ptp.c:595-604, init ef-ptp.c:783-784. -/
def HDR_PEER_RESPONSE_FOLLOW_UP : Hdr :=
  defVals (defOffset HDR_PEER_RESPONSE_FOLLOW_UP_raw) [
    (c!"hdr-messageType", c!"10")]

/-- Fields of `HDR_ANNOUNCE` as written in the source: ef-ptp.c:606-688. -/
def HDR_ANNOUNCE_fields : List Field := [
  { name := c!"hdr-transportSpecific", width := 4 },
  { name := c!"hdr-messageType", width := 4 },
  { name := c!"hdr-minorVersionPTP", width := 4 },
  { name := c!"hdr-versionPTP", width := 4 },
  { name := c!"hdr-messageLength", width := 16 },
  { name := c!"hdr-domainNumber", width := 8 },
  { name := c!"hdr-reserved1", width := 8 },
  { name := c!"hdr-flagField", width := 16 },
  { name := c!"hdr-correctionField", width := 64 },
  { name := c!"hdr-reserved2", width := 32 },
  { name := c!"hdr-clockId", width := 64 },
  { name := c!"hdr-portNumber", width := 16 },
  { name := c!"hdr-sequenceId", width := 16 },
  { name := c!"hdr-controlField", width := 8 },
  { name := c!"hdr-logMessageInterval", width := 8 },
  { name := c!"ann-reserved1", width := 80 },
  { name := c!"ann-offset", width := 16 },
  { name := c!"ann-reserved1", width := 8 },
  { name := c!"ann-gmPrio1", width := 8 },
  { name := c!"ann-clockClass", width := 8 },
  { name := c!"ann-clockAcc", width := 8 },
  { name := c!"ann-offsetScaledLogVariance", width := 16 },
  { name := c!"ann-gmPrio2", width := 8 },
  { name := c!"ann-gmIdentity", width := 64 },
  { name := c!"ann-stepsRemoved", width := 16 },
  { name := c!"ann-timeSource", width := 8 }]

/-- The source form of `HDR_ANNOUNCE` before start-up: ef-ptp.c:606-688 (ANNOUNCE_FIELDS), ef-ptp.c:690-698, init ef-ptp.c:786-787. -/
def HDR_ANNOUNCE_raw : Hdr :=
  { name := c!"ptp-announce", type := 35063, fields := HDR_ANNOUNCE_fields, fill := .ptp, parser := .fields }

/-- ef-ptp.c:606-688 (ANNOUNCE_FIELDS), ef-ptp.c:690-698, init ef-ptp.c:786-787. -/
def HDR_ANNOUNCE : Hdr :=
  defVals (defOffset HDR_ANNOUNCE_raw) [
    (c!"hdr-messageType", c!"11")]

/-- Fields of `HDR_TLV_ORG` as written in the source: ef-ptp.c:700-731. -/
def HDR_TLV_ORG_fields : List Field := [
  { name := c!"tlv-type", width := 16 },
  { name := c!"tlv-length", width := 16 },
  { name := c!"tlv-org-id", width := 24 },
  { name := c!"tlv-org-sub-type", width := 24 },
  { name := c!"tlv-csro", width := 32 },
  { name := c!"tlv-gm-time-base-indicator", width := 16 },
  { name := c!"tlv-gm-phase-change-msb-nsec", width := 16 },
  { name := c!"tlv-gm-phase-change-lsb-nsec", width := 64 },
  { name := c!"tlv-gm-phase-change-frac-nsec", width := 16 },
  { name := c!"tlv-gm-freq-change", width := 32 }]

/-- The source form of `HDR_TLV_ORG` before start-up: ef-ptp.c:700-731 (TLV_ORG_FIELDS), ef-ptp.c:733-741, init ef-ptp.c:789-790. -/
def HDR_TLV_ORG_raw : Hdr :=
  { name := c!"ptp-tlv-org", type := 6, fields := HDR_TLV_ORG_fields, fill := .ptpTlv, parser := .fields }

/-- ef-ptp.c:700-731 (TLV_ORG_FIELDS), ef-ptp.c:733-741, init ef-ptp.c:789-790. -/
def HDR_TLV_ORG : Hdr :=
  defVals (defOffset HDR_TLV_ORG_raw) [
    (c!"tlv-type", c!"3")]

/-- Fields of `HDR_TLV_PATH` as written in the source: ef-ptp.c:743-750. -/
def HDR_TLV_PATH_fields : List Field := [
  { name := c!"tlv-type", width := 16 },
  { name := c!"tlv-length", width := 16 }]

/-- The source form of `HDR_TLV_PATH` before start-up: ef-ptp.c:743-750 (TLV_PATH_FIELDS), ef-ptp.c:752-760, init ef-ptp.c:792-793. -/
def HDR_TLV_PATH_raw : Hdr :=
  { name := c!"ptp-tlv-path", type := 6, fields := HDR_TLV_PATH_fields, fill := .ptpTlv, parser := .fields }

/-- ef-ptp.c:743-750 (TLV_PATH_FIELDS), ef-ptp.c:752-760, init ef-ptp.c:792-793. -/
def HDR_TLV_PATH : Hdr :=
  defVals (defOffset HDR_TLV_PATH_raw) [
    (c!"tlv-path", c!"8")]

/-- Fields of `HDR_PNET_RTC` as written in the source: ef-profinet.c:44-113. -/
def HDR_PNET_RTC_fields : List Field := [
  { name := c!"frameid", width := 16 },
  { name := c!"data", width := 320, parser := .profinetData },
  { name := c!"cycle", width := 16 },
  { name := c!"ignore", width := 1 },
  { name := c!"reserved2", width := 1 },
  { name := c!"station-ok", width := 1 },
  { name := c!"provider-state-run", width := 1 },
  { name := c!"reserved1", width := 1 },
  { name := c!"data-valid", width := 1 },
  { name := c!"redundancy", width := 1 },
  { name := c!"primary", width := 1 },
  { name := c!"transfer-status", width := 8 }]

/-- The source form of `HDR_PNET_RTC` before start-up: ef-profinet.c:44-113 (PNET_RTC_FIELDS), ef-profinet.c:115-122, init ef-profinet.c:126-131. -/
def HDR_PNET_RTC_raw : Hdr :=
  { name := c!"profinet-rtc", type := 34962, fields := HDR_PNET_RTC_fields, fill := .none, parser := .fields }

/-- ef-profinet.c:44-113 (PNET_RTC_FIELDS), ef-profinet.c:115-122, init ef-profinet.c:126-131. -/
def HDR_PNET_RTC : Hdr :=
  defVals (defOffset HDR_PNET_RTC_raw) [
    (c!"station-ok", c!"1"),
    (c!"provider-state-run", c!"1"),
    (c!"data-valid", c!"1"),
    (c!"primary", c!"1"),
    (c!"data", c!"00")]

/-- Fields of `HDR_OPC_UA` as written in the source: ef-opcua.c:17-83. -/
def HDR_OPC_UA_fields : List Field := [
  { name := c!"flags-flags1", width := 1 },
  { name := c!"flags-pl-hdr", width := 1 },
  { name := c!"flags-grp-hdr", width := 1 },
  { name := c!"flags-pub-id", width := 1 },
  { name := c!"version", width := 4 },
  { name := c!"flags1-flags2", width := 1 },
  { name := c!"flags1-pico-seconds", width := 1 },
  { name := c!"flags1-timestamp", width := 1 },
  { name := c!"flags1-security", width := 1 },
  { name := c!"flags1-dsc-id", width := 1 },
  { name := c!"flags1-pub-id-type", width := 3 },
  { name := c!"pub-id", width := 16, parser := .opcUint16 },
  { name := c!"gflags-rsvd", width := 4 },
  { name := c!"gflags-seq-num", width := 1 },
  { name := c!"gflags-nm-num", width := 1 },
  { name := c!"gflags-gversion", width := 1 },
  { name := c!"gflags-wg-id", width := 1 },
  { name := c!"wg-id", width := 16, parser := .opcUint16 },
  { name := c!"gversion", width := 32 },
  { name := c!"nm-num", width := 16 },
  { name := c!"seq-num", width := 16 }]

/-- The source form of `HDR_OPC_UA` before start-up: ef-opcua.c:17-83 (OPC_UA_FIELDS), ef-opcua.c:85-92, init ef-opcua.c:95-105. -/
def HDR_OPC_UA_raw : Hdr :=
  { name := c!"opc-ua", type := 46636, fields := HDR_OPC_UA_fields, fill := .none, parser := .fields }

/-- ef-opcua.c:17-83 (OPC_UA_FIELDS), ef-opcua.c:85-92, init ef-opcua.c:95-105. -/
def HDR_OPC_UA : Hdr :=
  defVals (defOffset HDR_OPC_UA_raw) [
    (c!"version", c!"1"),
    (c!"flags-pub-id", c!"1"),
    (c!"flags-grp-hdr", c!"1"),
    (c!"flags-flags1", c!"1"),
    (c!"flags1-pub-id-type", c!"1"),
    (c!"flags1-flags2", c!"1"),
    (c!"gflags-wg-id", c!"1"),
    (c!"gflags-gversion", c!"1"),
    (c!"gflags-nm-num", c!"1"),
    (c!"gflags-seq-num", c!"1")]

/-- Fields of `HDR_COAP` as written in the source: ef-coap.c:128-155. -/
def HDR_COAP_fields : List Field := [
  { name := c!"ver", width := 2 },
  { name := c!"type", width := 2 },
  { name := c!"tkl", width := 4 },
  { name := c!"code", width := 8, parser := .coapCode },
  { name := c!"msgid", width := 16 },
  { name := c!"token", width := 0, parser := .coapToken }]

/-- The source form of `HDR_COAP` before start-up: ef-coap.c:128-155 (COAP_FIELDS), ef-coap.c:157-164, init ef-coap.c:320-325. -/
def HDR_COAP_raw : Hdr :=
  { name := c!"coap", type := 0, fields := HDR_COAP_fields, fill := .coap, parser := .fields }

/-- ef-coap.c:128-155 (COAP_FIELDS), ef-coap.c:157-164, init ef-coap.c:320-325. -/
def HDR_COAP : Hdr :=
  defVals (defOffset HDR_COAP_raw) [
    (c!"ver", c!"1"),
    (c!"type", c!"0"),
    (c!"tkl", c!"0"),
    (c!"code", c!"0"),
    (c!"msgid", c!"0")]

/-- Fields of `HDR_COAP_OPTIONS` as written in the source: ef-coap.c:274-286. -/
def HDR_COAP_OPTIONS_fields : List Field := [
  { name := c!"num", width := 16 },
  { name := c!"val", width := 0, multi := .coapOptVal }]

/-- The source form of `HDR_COAP_OPTIONS` before start-up: ef-coap.c:274-286 (COAP_OPT_FIELDS), ef-coap.c:288-295, init ef-coap.c:327. -/
def HDR_COAP_OPTIONS_raw : Hdr :=
  { name := c!"coap-opt", type := 0, fields := HDR_COAP_OPTIONS_fields, fill := .coapOpt, parser := .fields }

/-- ef-coap.c:274-286 (COAP_OPT_FIELDS), ef-coap.c:288-295, init ef-coap.c:327. -/
def HDR_COAP_OPTIONS : Hdr :=
  defOffset HDR_COAP_OPTIONS_raw

/-- Fields of `HDR_COAP_PARMS` as written in the source: ef-coap.c:301-307. -/
def HDR_COAP_PARMS_fields : List Field := [
  { name := c!"par", width := 0, multi := .coapParms }]

/-- The source form of `HDR_COAP_PARMS` before start-up: ef-coap.c:301-307 (COAP_PARMS_FIELDS), ef-coap.c:309-316, init ef-coap.c:328. -/
def HDR_COAP_PARMS_raw : Hdr :=
  { name := c!"coap-parms", type := 0, fields := HDR_COAP_PARMS_fields, fill := .none, parser := .fields }

/-- ef-coap.c:301-307 (COAP_PARMS_FIELDS), ef-coap.c:309-316, init ef-coap.c:328. -/
def HDR_COAP_PARMS : Hdr :=
  defOffset HDR_COAP_PARMS_raw

/-- Fields of `HDR_SV` as written in the source: ef-sv.c:39-73. -/
def HDR_SV_fields : List Field := [
  { name := c!"path", width := 4 },
  { name := c!"ver", width := 12 },
  { name := c!"seqn", width := 16 },
  { name := c!"tlv1_type", width := 8 },
  { name := c!"tlv1_len", width := 8 },
  { name := c!"tlv1_mac", width := 48 },
  { name := c!"tlv2_type", width := 8 },
  { name := c!"tlv2_len", width := 8 },
  { name := c!"tlv2_mac", width := 48 },
  { name := c!"tlv0_type", width := 8 },
  { name := c!"tlv0_len", width := 8 }]

/-- The source form of `HDR_SV` before start-up: ef-sv.c:39-73 (SV_FIELDS), ef-sv.c:75-83, init ef-sv.c:86-91. -/
def HDR_SV_raw : Hdr :=
  { name := c!"sv", type := 35067, fields := HDR_SV_fields, fill := .sv, parser := .fields }

/-- ef-sv.c:39-73 (SV_FIELDS), ef-sv.c:75-83, init ef-sv.c:86-91. -/
def HDR_SV : Hdr :=
  defVals (defOffset HDR_SV_raw) [
    (c!"ver", c!"1"),
    (c!"tlv1_type", c!"20"),
    (c!"tlv1_len", c!"6"),
    (c!"tlv2_len", c!"6"),
    (c!"tlv2_type", c!"30")]

/-- `hdr_tmpls` in the order of `hdr_tmpl_t` (ef.h:199-257). -/
def hdrTmpls : List Hdr := [
  HDR_SP_OC1,
  HDR_LP_OC1,
  HDR_IFH_OC1,
  HDR_EFH_OC1,
  HDR_SP_JR2,
  HDR_LP_JR2,
  HDR_IFH_JR2,
  HDR_IFH_FA,
  HDR_IFH_CRCL,
  HDR_EFH_CRCL,
  HDR_IFH_MAS,
  HDR_IFH_LA,
  HDR_ETH,
  HDR_CTAG,
  HDR_STAG,
  HDR_RTAG,
  HDR_ARP,
  HDR_IPV4,
  HDR_IPV6,
  HDR_ICMP,
  HDR_IGMP,
  HDR_IGMPV3_GROUP,
  HDR_MLD,
  HDR_MLDV2_GROUP,
  HDR_UDP,
  HDR_TCP,
  HDR_PAYLOAD,
  HDR_PADDING,
  HDR_MRP_TST,
  HDR_MRP_TOPO,
  HDR_MRP_LNK,
  HDR_MRP_PROP_NACK,
  HDR_CCM,
  HDR_LAPS,
  HDR_LB,
  HDR_LT,
  HDR_RAPS,
  HDR_SYNC,
  HDR_FOLLOW_UP,
  HDR_REQUEST,
  HDR_RESPONSE,
  HDR_PEER_REQUEST,
  HDR_PEER_RESPONSE,
  HDR_PEER_RESPONSE_FOLLOW_UP,
  HDR_ANNOUNCE,
  HDR_TLV_ORG,
  HDR_TLV_PATH,
  HDR_PNET_RTC,
  HDR_OPC_UA,
  HDR_PRP_RCT,
  HDR_HSR_TAG,
  HDR_COAP,
  HDR_COAP_OPTIONS,
  HDR_COAP_PARMS,
  HDR_SV]

/-- The headers of `hdr_tmpls` before start-up. -/
def hdrTmplsRaw : List Hdr := [
  HDR_SP_OC1_raw,
  HDR_LP_OC1_raw,
  HDR_IFH_OC1_raw,
  HDR_EFH_OC1_raw,
  HDR_SP_JR2_raw,
  HDR_LP_JR2_raw,
  HDR_IFH_JR2_raw,
  HDR_IFH_FA_raw,
  HDR_IFH_CRCL_raw,
  HDR_EFH_CRCL_raw,
  HDR_IFH_MAS_raw,
  HDR_IFH_LA_raw,
  HDR_ETH_raw,
  HDR_CTAG_raw,
  HDR_STAG_raw,
  HDR_RTAG_raw,
  HDR_ARP_raw,
  HDR_IPV4_raw,
  HDR_IPV6_raw,
  HDR_ICMP_raw,
  HDR_IGMP_raw,
  HDR_IGMPV3_GROUP_raw,
  HDR_MLD_raw,
  HDR_MLDV2_GROUP_raw,
  HDR_UDP_raw,
  HDR_TCP_raw,
  HDR_PAYLOAD_raw,
  HDR_PADDING_raw,
  HDR_MRP_TST_raw,
  HDR_MRP_TOPO_raw,
  HDR_MRP_LNK_raw,
  HDR_MRP_PROP_NACK_raw,
  HDR_CCM_raw,
  HDR_LAPS_raw,
  HDR_LB_raw,
  HDR_LT_raw,
  HDR_RAPS_raw,
  HDR_SYNC_raw,
  HDR_FOLLOW_UP_raw,
  HDR_REQUEST_raw,
  HDR_RESPONSE_raw,
  HDR_PEER_REQUEST_raw,
  HDR_PEER_RESPONSE_raw,
  HDR_PEER_RESPONSE_FOLLOW_UP_raw,
  HDR_ANNOUNCE_raw,
  HDR_TLV_ORG_raw,
  HDR_TLV_PATH_raw,
  HDR_PNET_RTC_raw,
  HDR_OPC_UA_raw,
  HDR_PRP_RCT_raw,
  HDR_HSR_TAG_raw,
  HDR_COAP_raw,
  HDR_COAP_OPTIONS_raw,
  HDR_COAP_PARMS_raw,
  HDR_SV_raw]

end Ef

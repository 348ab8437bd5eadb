import Verif.Model.Main

/-!
# Replay of the upstream test vectors

GENERATED by tools/gen_vectors.py from /repo/test/parser-tests.rb. These are tests of the model against the
results the authors expect from the C program (`ef hex ...`); they are evaluated, not proved.
-/

namespace Ef.Tests

/-- Output of `ef hex WORDS`: frame and mask as printed. -/
def hexOf (ws : List CStr) : Option (CStr × Option CStr) :=
  match parseCmds true (c!"hex" :: ws) with
  | .ok (some [c]) =>
    match c.buf with
    | some b => some (printHexStr b, c.mask.map printHexStr)
    | none => none
  | _ => none

#guard hexOf [c!"eth"]
    = some (c!"ffffffffffff000000000001aaaa00000000000000000000000000000000000000000000000000000000000000000000000000000000000000000000", none)

#guard hexOf [c!"eth", c!"dmac", c!"0:1::2", c!"smac", c!"123"]
    = some (c!"00010000000200000000007baaaa00000000000000000000000000000000000000000000000000000000000000000000000000000000000000000000", none)

#guard hexOf [c!"eth", c!"dmac", c!"1", c!"smac", c!"2", c!"ctag", c!"vid", c!"100"]
    = some (c!"000000000001000000000002810000640000000000000000000000000000000000000000000000000000000000000000000000000000000000000000", none)

#guard hexOf [c!"eth", c!"dmac", c!"1", c!"smac", c!"2", c!"ctag", c!"pcp", c!"4", c!"vid", c!"0x100", c!"ctag", c!"vid", c!"100"]
    = some (c!"000000000001000000000002810081008100006400000000000000000000000000000000000000000000000000000000000000000000000000000000", none)

#guard hexOf [c!"eth", c!"dmac", c!"1", c!"smac", c!"2", c!"ctag", c!"dei", c!"1", c!"pcp", c!"4", c!"vid", c!"0x100", c!"ctag", c!"vid", c!"100"]
    = some (c!"000000000001000000000002810091008100006400000000000000000000000000000000000000000000000000000000000000000000000000000000", none)

#guard hexOf [c!"eth", c!"dmac", c!"1", c!"smac", c!"2", c!"stag", c!"dei", c!"1", c!"pcp", c!"4", c!"vid", c!"0x100", c!"ctag", c!"vid", c!"100"]
    = some (c!"00000000000100000000000288a891008100006400000000000000000000000000000000000000000000000000000000000000000000000000000000", none)

#guard hexOf [c!"eth", c!"dmac", c!"1", c!"smac", c!"2", c!"data", c!"pattern", c!"cnt", c!"1"]
    = some (c!"000000000001000000000002000000000000000000000000000000000000000000000000000000000000000000000000000000000000000000000000", none)

#guard hexOf [c!"eth", c!"dmac", c!"1", c!"smac", c!"2", c!"data", c!"pattern", c!"cnt", c!"2"]
    = some (c!"000000000001000000000002000000010000000000000000000000000000000000000000000000000000000000000000000000000000000000000000", none)

#guard hexOf [c!"eth", c!"dmac", c!"1", c!"smac", c!"2", c!"data", c!"pattern", c!"cnt", c!"3"]
    = some (c!"000000000001000000000002000000010200000000000000000000000000000000000000000000000000000000000000000000000000000000000000", none)

#guard hexOf [c!"eth", c!"dmac", c!"1", c!"smac", c!"2", c!"data", c!"pattern", c!"cnt", c!"4"]
    = some (c!"000000000001000000000002000000010203000000000000000000000000000000000000000000000000000000000000000000000000000000000000", none)

#guard hexOf [c!"eth", c!"dmac", c!"1", c!"smac", c!"2", c!"data", c!"pattern", c!"cnt", c!"8"]
    = some (c!"000000000001000000000002000000010203040506070000000000000000000000000000000000000000000000000000000000000000000000000000", none)

#guard hexOf [c!"eth", c!"dmac", c!"1", c!"smac", c!"2", c!"data", c!"pattern", c!"cnt", c!"0x20"]
    = some (c!"0000000000010000000000020000000102030405060708090a0b0c0d0e0f101112131415161718191a1b1c1d1e1f0000000000000000000000000000", none)

#guard hexOf [c!"eth", c!"dmac", c!"1", c!"smac", c!"2", c!"data", c!"pattern", c!"cnt", c!"0x40"]
    = some (c!"0000000000010000000000020000000102030405060708090a0b0c0d0e0f101112131415161718191a1b1c1d1e1f202122232425262728292a2b2c2d2e2f303132333435363738393a3b3c3d3e3f", none)

#guard hexOf [c!"eth", c!"dmac", c!"1", c!"smac", c!"2", c!"ipv4", c!"sip", c!"1", c!"dip", c!"10.0.99.2", c!"data", c!"pattern", c!"cnt", c!"0x40"]
    = some (c!"000000000001000000000002080045000054000000001f002ea8000000010a006302000102030405060708090a0b0c0d0e0f101112131415161718191a1b1c1d1e1f202122232425262728292a2b2c2d2e2f303132333435363738393a3b3c3d3e3f", none)

#guard hexOf [c!"eth", c!"dmac", c!"1", c!"smac", c!"2", c!"ipv4", c!"sip", c!"1", c!"dip", c!"10.0.99.2", c!"udp", c!"data", c!"pattern", c!"cnt", c!"0x40"]
    = some (c!"00000000000100000000000208004500005c000000001f112e8f000000010a006302000000000048ae57000102030405060708090a0b0c0d0e0f101112131415161718191a1b1c1d1e1f202122232425262728292a2b2c2d2e2f303132333435363738393a3b3c3d3e3f", none)

#guard hexOf [c!"eth", c!"dmac", c!"1", c!"smac", c!"2", c!"ipv4", c!"sip", c!"1", c!"dip", c!"10.0.99.2", c!"udp", c!"data", c!"ascii", c!"Hello World!"]
    = some (c!"000000000001000000000002080045000028000000001f112ec3000000010a00630200000000001440d448656c6c6f20576f726c6421000000000000", none)

#guard hexOf [c!"eth", c!"dmac", c!"1", c!"smac", c!"2", c!"ipv4", c!"sip", c!"1", c!"dip", c!"10.0.99.2", c!"udp", c!"data", c!"ascii0", c!"Hello World!"]
    = some (c!"000000000001000000000002080045000029000000001f112ec2000000010a00630200000000001540d248656c6c6f20576f726c6421000000000000", none)

#guard hexOf [c!"data", c!"hex", c!"000000000000000000000000080045000028000000001f119bc60000000000000000000000000014add748656c6c6f20576f726c6421000000000000"]
    = some (c!"000000000000000000000000080045000028000000001f119bc60000000000000000000000000014add748656c6c6f20576f726c6421000000000000", none)

#guard hexOf [c!"eth", c!"ipv4", c!"udp", c!"data", c!"ascii", c!"Hello World!"]
    = some (c!"ffffffffffff000000000001080045000028000000001f119bc60000000000000000000000000014add748656c6c6f20576f726c6421000000000000", none)

#guard hexOf [c!"sp-oc1", c!"ifh-oc1", c!"bypass", c!"1"]
    = some (c!"8880000a8000000000000000000000000000000000000000000000000000000000000000000000000000000000000000000000000000000000000000", none)

#guard hexOf [c!"sp-oc1", c!"et", c!"0x1234", c!"id", c!"0x5678", c!"ifh-oc1", c!"bypass", c!"1"]
    = some (c!"123456788000000000000000000000000000000000000000000000000000000000000000000000000000000000000000000000000000000000000000", none)

#guard hexOf [c!"lp-oc1", c!"ifh-oc1", c!"bypass", c!"1"]
    = some (c!"ffffffffffffffffffffffff8880000a8000000000000000000000000000000000000000000000000000000000000000000000000000000000000000", none)

#guard hexOf [c!"lp-oc1", c!"dmac", c!"01:02:03:04:05:06", c!"smac", c!"a1:a2:a3:a4:a5:a6", c!"et", c!"0x5678", c!"id", c!"0x1234", c!"ifh-oc1", c!"bypass", c!"1"]
    = some (c!"010203040506a1a2a3a4a5a6567812348000000000000000000000000000000000000000000000000000000000000000000000000000000000000000", none)

#guard hexOf [c!"ifh-oc1", c!"eth", c!"dmac", c!"ff::ff"]
    = some (c!"00000000000000000000000000000000ff00000000ff000000000001aaaa000000000000000000000000000000000000000000000000000000000000", none)

#guard hexOf [c!"ifh-oc1", c!"bypass", c!"1", c!"b1-rew-op", c!"0x1ff", c!"res1", c!"1"]
    = some (c!"bfe000000000001000000000000000000000000000000000000000000000000000000000000000000000000000000000000000000000000000000000", none)

#guard hexOf [c!"ifh-oc1", c!"bypass", c!"1", c!"b1-rew-mac", c!"1", c!"res1", c!"1"]
    = some (c!"c00000000000001000000000000000000000000000000000000000000000000000000000000000000000000000000000000000000000000000000000", none)

#guard hexOf [c!"ifh-oc1", c!"bypass", c!"0", c!"b0-masq-port", c!"0xf", c!"res1", c!"1"]
    = some (c!"3c0000000000001000000000000000000000000000000000000000000000000000000000000000000000000000000000000000000000000000000000", none)

#guard hexOf [c!"ifh-oc1", c!"bypass", c!"0", c!"b0-masq", c!"1", c!"res1", c!"1"]
    = some (c!"400000000000001000000000000000000000000000000000000000000000000000000000000000000000000000000000000000000000000000000000", none)

#guard hexOf [c!"ifh-oc1", c!"rew-val", c!"0xffffffff", c!"res2", c!"1", c!"res3", c!"1", c!"res4", c!"0x3f", c!"pop-cnt", c!"3", c!"qos-class", c!"7", c!"pcp", c!"7", c!"vid", c!"0xfff"]
    = some (c!"001fffffffe000000000821fb00eefff0000000000000000000000000000000000000000000000000000000000000000000000000000000000000000", none)

#guard hexOf [c!"ifh-oc1", c!"dest", c!"0xfff", c!"src-port", c!"0xf", c!"trfm-timer", c!"0xf", c!"dp", c!"1", c!"cpuq", c!"0xff", c!"tag-type", c!"1", c!"dei", c!"1"]
    = some (c!"000000000000000fff0079e04ff110000000000000000000000000000000000000000000000000000000000000000000000000000000000000000000", none)

#guard hexOf [c!"efh-oc1", c!"eth", c!"dmac", c!"ff::ff"]
    = some (c!"00000000000000000000000000000000ff00000000ff000000000001aaaa000000000000000000000000000000000000000000000000000000000000", none)

#guard hexOf [c!"efh-oc1", c!"res1", c!"1", c!"rew-op", c!"0x1ff", c!"llen", c!"0x3f", c!"res2", c!"0xffffff", c!"acl-id", c!"0x3f", c!"sflow-id", c!"0xf", c!"dp", c!"1", c!"cpuq", c!"0xff", c!"tag-type", c!"1", c!"dei", c!"1"]
    = some (c!"bfe00000001f807ffe0007ef4ff110000000000000000000000000000000000000000000000000000000000000000000000000000000000000000000", none)

#guard hexOf [c!"efh-oc1", c!"rew-mac", c!"1", c!"rew-val", c!"0xffffffff", c!"wlen", c!"0xff", c!"src-port", c!"0xf", c!"res3", c!"1", c!"acl-hit", c!"1", c!"lrn-flags", c!"3", c!"qos-class", c!"7", c!"pcp", c!"7", c!"vid", c!"0xfff"]
    = some (c!"401fffffffe07f8000007810b00eefff0000000000000000000000000000000000000000000000000000000000000000000000000000000000000000", none)

#guard hexOf [c!"sp-jr2", c!"ifh-jr2", c!"ts", c!"0xffffffff"]
    = some (c!"ffffffffffffffffffffffff88800009ffffffff00000000000000008000000000000000000000000000000000000000000000000000000000000000", none)

#guard hexOf [c!"sp-jr2", c!"dmac", c!"01:02:03:04:05:06", c!"smac", c!"b1:b2:b3:b4:b5:b6", c!"et", c!"0x9876", c!"id", c!"0x5432", c!"ifh-jr2", c!"ts", c!"0xffffffff"]
    = some (c!"010203040506b1b2b3b4b5b698765432ffffffff00000000000000008000000000000000000000000000000000000000000000000000000000000000", none)

#guard hexOf [c!"lp-jr2", c!"ifh-jr2", c!"ts", c!"0xffffffff"]
    = some (c!"ffffffffffffffffffffffff8100000188800009ffffffff000000000000000080000000000000000000000000000000000000000000000000000000", none)

#guard hexOf [c!"lp-jr2", c!"dmac", c!"01:02:03:04:05:06", c!"smac", c!"b1:b2:b3:b4:b5:b6", c!"tpid", c!"0x2222", c!"pcp", c!"7", c!"dei", c!"1", c!"vid", c!"0xabe", c!"et", c!"0x9876", c!"id", c!"0x5432", c!"ifh-jr2", c!"ts", c!"0xffffffff"]
    = some (c!"010203040506b1b2b3b4b5b62222fabe98765432ffffffff000000000000000080000000000000000000000000000000000000000000000000000000", none)

#guard hexOf [c!"ifh-jr2", c!"eth", c!"dmac", c!"ff::ff"]
    = some (c!"00000000000000000000000080000000000000000000000000000000ff00000000ff000000000001aaaa000000000000000000000000000000000000", none)

#guard hexOf [c!"ifh-jr2", c!"ts", c!"0xffffffff", c!"de-rt-fwd", c!"1", c!"de-tag-tpid", c!"3", c!"de-gen-idx", c!"0x3ff", c!"de-prot-active", c!"1", c!"de-pdu-type", c!"7", c!"de-mpls-ttl", c!"0xff", c!"de-mpls-tc", c!"7", c!"de-w16-pop-cnt", c!"0x1f"]
    = some (c!"ffffffff2cffd0380007fb9f800000000000000000000000000000000000000000000000000000000000000000000000000000000000000000000000", none)

#guard hexOf [c!"ifh-jr2", c!"de-rsv1", c!"3", c!"de-swap-mac", c!"1", c!"de-rsv2", c!"3", c!"de-gen-idx-mode", c!"1", c!"de-pdu-w16-offset", c!"0x3f", c!"de-cl-rslt", c!"0xffff", c!"de-mpls-sbit", c!"1", c!"de-type-after-pop", c!"3"]
    = some (c!"00000000d3002fc7fff80460800000000000000000000000000000000000000000000000000000000000000000000000000000000000000000000000", none)

#guard hexOf [c!"ifh-jr2", c!"ts", c!"0xffffffff", c!"di-dst-port-mask", c!"0x1fffffffffffff"]
    = some (c!"ffffffff001fffffffffffff800000000000000000000000000000000000000000000000000000000000000000000000000000000000000000000000", none)

#guard hexOf [c!"ifh-jr2", c!"di-rsv1", c!"0x7ff"]
    = some (c!"00000000ffe0000000000000800000000000000000000000000000000000000000000000000000000000000000000000000000000000000000000000", none)

#guard hexOf [c!"ifh-jr2", c!"ts", c!"0xffffffff", c!"du-erleg", c!"0x7f"]
    = some (c!"ffffffff007f000000000000800000000000000000000000000000000000000000000000000000000000000000000000000000000000000000000000", none)

#guard hexOf [c!"ifh-jr2", c!"du-rsv1", c!"0x1ff", c!"du-next-hop-dmac", c!"11:22:33:44:55:66"]
    = some (c!"00000000ff80112233445566800000000000000000000000000000000000000000000000000000000000000000000000000000000000000000000000", none)

#guard hexOf [c!"ifh-jr2", c!"ts", c!"0xffffffff", c!"dm-l3mc-grp-idx", c!"0x3ff", c!"dm-copy-cnt", c!"0x7f"]
    = some (c!"ffffffff0000000000ffc07f800000000000000000000000000000000000000000000000000000000000000000000000000000000000000000000000", none)

#guard hexOf [c!"ifh-jr2", c!"dm-rsv1", c!"0xffffffffff", c!"dm-erleg", c!"0x7f"]
    = some (c!"00000000ffffffffff003f80800000000000000000000000000000000000000000000000000000000000000000000000000000000000000000000000", none)

#guard hexOf [c!"ifh-jr2", c!"v-rsv1", c!"0", c!"vm0-ac", c!"0xf"]
    = some (c!"000000000000000000000000000f00000000000000000000000000000000000000000000000000000000000000000000000000000000000000000000", none)

#guard hexOf [c!"ifh-jr2", c!"vm0-rsv1", c!"0x7ff"]
    = some (c!"000000000000000000000000fff000000000000000000000000000000000000000000000000000000000000000000000000000000000000000000000", none)

#guard hexOf [c!"ifh-jr2", c!"v-rsv1", c!"0", c!"vm1-isdx", c!"0xfff"]
    = some (c!"0000000000000000000000000fff00000000000000000000000000000000000000000000000000000000000000000000000000000000000000000000", none)

#guard hexOf [c!"ifh-jr2", c!"vm1-cosid", c!"7", c!"v-rsv2", c!"3"]
    = some (c!"000000000000000000000000f000c0000000000000000000000000000000000000000000000000000000000000000000000000000000000000000000", none)

#guard hexOf [c!"ifh-jr2", c!"vq-cl-dp", c!"3", c!"vq-cl-qos", c!"7", c!"v-rsv3", c!"1"]
    = some (c!"000000000000000000000000800037400000000000000000000000000000000000000000000000000000000000000000000000000000000000000000", none)

#guard hexOf [c!"ifh-jr2", c!"vq-sp", c!"1", c!"vq-ingr-drop-mode", c!"1"]
    = some (c!"000000000000000000000000800008800000000000000000000000000000000000000000000000000000000000000000000000000000000000000000", none)

#guard hexOf [c!"ifh-jr2", c!"vg-rsv1", c!"1", c!"vg-lrn-mode", c!"1", c!"v-rsv4", c!"1"]
    = some (c!"000000000000000000000000800000208800000000000000000000000000000000000000000000000000000000000000000000000000000000000000", none)

#guard hexOf [c!"ifh-jr2", c!"vg-ttl", c!"0x1f", c!"vg-fwd-mode", c!"7"]
    = some (c!"0000000000000000000000008000001f7000000000000000000000000000000000000000000000000000000000000000000000000000000000000000", none)

#guard hexOf [c!"ifh-jr2", c!"vdl-dst-port-type", c!"1", c!"vdl-dst-pn", c!"0x1f"]
    = some (c!"00000000000000000000000080000000041f000000000000000000000000000000000000000000000000000000000000000000000000000000000000", none)

#guard hexOf [c!"ifh-jr2", c!"vdl-dst-upsid", c!"0x1f"]
    = some (c!"0000000000000000000000008000000003e0000000000000000000000000000000000000000000000000000000000000000000000000000000000000", none)

#guard hexOf [c!"ifh-jr2", c!"vdp-rsv1", c!"1", c!"vdp-dst-pn", c!"0x1f"]
    = some (c!"00000000000000000000000080000000041f000000000000000000000000000000000000000000000000000000000000000000000000000000000000", none)

#guard hexOf [c!"ifh-jr2", c!"vdp-dst-upsid", c!"0x1f"]
    = some (c!"0000000000000000000000008000000003e0000000000000000000000000000000000000000000000000000000000000000000000000000000000000", none)

#guard hexOf [c!"ifh-jr2", c!"vdm-rsv1", c!"1"]
    = some (c!"000000000000000000000000800000000400000000000000000000000000000000000000000000000000000000000000000000000000000000000000", none)

#guard hexOf [c!"ifh-jr2", c!"vdm-mc-idx", c!"0x3ff"]
    = some (c!"0000000000000000000000008000000003ff000000000000000000000000000000000000000000000000000000000000000000000000000000000000", none)

#guard hexOf [c!"ifh-jr2", c!"vdu-rsv1", c!"1", c!"vdu-rsv2", c!"1"]
    = some (c!"000000000000000000000000800000000410000000000000000000000000000000000000000000000000000000000000000000000000000000000000", none)

#guard hexOf [c!"ifh-jr2", c!"vdu-dst-upsid", c!"0x1f", c!"vdu-dst-pn", c!"0xf"]
    = some (c!"0000000000000000000000008000000003ef000000000000000000000000000000000000000000000000000000000000000000000000000000000000", none)

#guard hexOf [c!"ifh-jr2", c!"vda-rsv1", c!"1", c!"vda-rsv2", c!"0x1f"]
    = some (c!"0000000000000000000000008000000005f0000000000000000000000000000000000000000000000000000000000000000000000000000000000000", none)

#guard hexOf [c!"ifh-jr2", c!"vda-ttl-keep", c!"1", c!"vda-dst-pn", c!"0xf"]
    = some (c!"00000000000000000000000080000000020f000000000000000000000000000000000000000000000000000000000000000000000000000000000000", none)

#guard hexOf [c!"ifh-jr2", c!"vdg-rew-cmd", c!"0x7ff"]
    = some (c!"0000000000000000000000008000000007ff000000000000000000000000000000000000000000000000000000000000000000000000000000000000", none)

#guard hexOf [c!"ifh-jr2", c!"vt-cl-pcp", c!"3", c!"vt-cl-vid", c!"0xfff", c!"vt-tag-type", c!"1"]
    = some (c!"0000000000000000000000008000000000006fff40000000000000000000000000000000000000000000000000000000000000000000000000000000", none)

#guard hexOf [c!"ifh-jr2", c!"vt-cl-dei", c!"1", c!"vt-was-tagged", c!"1", c!"vt-ingr-port-type", c!"3"]
    = some (c!"0000000000000000000000008000000000001000b0000000000000000000000000000000000000000000000000000000000000000000000000000000", none)

#guard hexOf [c!"ifh-jr2", c!"vs-src-port-type", c!"1", c!"vs10-src-upsid", c!"0x1f"]
    = some (c!"00000000000000000000000080000000000000000be00000000000000000000000000000000000000000000000000000000000000000000000000000", none)

#guard hexOf [c!"ifh-jr2", c!"vs-src-port-type", c!"1", c!"vs10-src-upsid", c!"0x1f", c!"vs10-src-intpn", c!"0xf"]
    = some (c!"00000000000000000000000080000000000000000bef0000000000000000000000000000000000000000000000000000000000000000000000000000", none)

#guard hexOf [c!"ifh-jr2", c!"vs-src-addr-mode", c!"1", c!"vs10-rsv1", c!"1"]
    = some (c!"000000000000000000000000800000000000000004100000000000000000000000000000000000000000000000000000000000000000000000000000", none)

#guard hexOf [c!"ifh-jr2", c!"vs00-src-upsid", c!"0x1f"]
    = some (c!"000000000000000000000000800000000000000003e00000000000000000000000000000000000000000000000000000000000000000000000000000", none)

#guard hexOf [c!"ifh-jr2", c!"vs00-src-upspn", c!"0x1f"]
    = some (c!"0000000000000000000000008000000000000000001f0000000000000000000000000000000000000000000000000000000000000000000000000000", none)

#guard hexOf [c!"ifh-jr2", c!"vs01-src-glagid", c!"0x3ff"]
    = some (c!"000000000000000000000000800000000000000003ff0000000000000000000000000000000000000000000000000000000000000000000000000000", none)

#guard hexOf [c!"ifh-jr2", c!"f-afi-inj", c!"1", c!"f-es0-isdx-key-ena", c!"1", c!"f-vstax-avail", c!"1", c!"f-rsv3", c!"1", c!"f-sflow-marking", c!"1", c!"f-rx-mirror", c!"1", c!"f-src-port", c!"0x3f"]
    = some (c!"00000000000000000000000080000000000000000000aa29f80000000000000000000000000000000000000000000000000000000000000000000000", none)

#guard hexOf [c!"ifh-jr2", c!"f-rsv1", c!"1", c!"f-rsv2", c!"1", c!"f-update-fcs", c!"1", c!"f-dst-mode", c!"7", c!"f-aged", c!"1", c!"f-mirror-probe", c!"3", c!"f-do-not-rew", c!"1"]
    = some (c!"0000000000000000000000008000000000000000000055d6040000000000000000000000000000000000000000000000000000000000000000000000", none)

#guard hexOf [c!"ifh-jr2", c!"m-pipeline-act", c!"7", c!"m-cpu-mask", c!"0xf", c!"q-transp-dscp", c!"1", c!"q-dscp", c!"0x3f"]
    = some (c!"00000000000000000000000080000000000000000000000003803cbf0000000000000000000000000000000000000000000000000000000000000000", none)

#guard hexOf [c!"ifh-jr2", c!"m-pipeline-pt", c!"0x1f", c!"t-pop-cnt", c!"3", c!"q-update-dscp", c!"1"]
    = some (c!"000000000000000000000000800000000000000000000000007c03400000000000000000000000000000000000000000000000000000000000000000", none)

#guard hexOf [c!"eth", c!"dmac", c!"1", c!"smac", c!"2", c!"ipv6", c!"sip", c!"aaaa::1234", c!"dip", c!"bbbb::8.9.10.11", c!"udp", c!"data", c!"pattern", c!"cnt", c!"16"]
    = some (c!"00000000000100000000000286dd600000000018111faaaa0000000000000000000000001234bbbb0000000000000000000008090a0b0000000000183cd0000102030405060708090a0b0c0d0e0f", none)

#guard hexOf [c!"eth", c!"ipv6", c!"ver", c!"0xf", c!"ecn", c!"3", c!"len", c!"0xffff", c!"hlim", c!"0xff"]
    = some (c!"ffffffffffff00000000000186ddf0300000ffff11ff0000000000000000000000000000000000000000000000000000000000000000000000000000", none)

#guard hexOf [c!"eth", c!"ipv6", c!"dscp", c!"0x3f", c!"flow", c!"0xfffff", c!"next", c!"0xff"]
    = some (c!"ffffffffffff00000000000186dd6fcfffff0000ff1f0000000000000000000000000000000000000000000000000000000000000000000000000000", none)

#guard hexOf [c!"eth", c!"ipv4", c!"icmp", c!"type", c!"8", c!"hd", c!"0x0004000a", c!"data", c!"ascii", c!"Hello World!"]
    = some (c!"ffffffffffff000000000001080045000028000000001f019bd600000000000000000800a6020004000a48656c6c6f20576f726c6421000000000000", none)

#guard hexOf [c!"eth", c!"ipv4", c!"icmp", c!"type", c!"0", c!"hd", c!"0x0005000b", c!"data", c!"ascii", c!"Hello World!"]
    = some (c!"ffffffffffff000000000001080045000028000000001f019bd600000000000000000000ae000005000b48656c6c6f20576f726c6421000000000000", none)

#guard hexOf [c!"eth", c!"ipv6", c!"icmp", c!"type", c!"128", c!"hd", c!"0x00220033", c!"data", c!"ascii", c!"Hello World!"]
    = some (c!"ffffffffffff00000000000186dd6000000000143a1f000000000000000000000000000000000000000000000000000000000000000080002d6d0022003348656c6c6f20576f726c6421", none)

#guard hexOf [c!"eth", c!"ipv6", c!"icmp", c!"type", c!"129", c!"hd", c!"0x00230034", c!"data", c!"ascii", c!"Hello World!"]
    = some (c!"ffffffffffff00000000000186dd6000000000143a1f000000000000000000000000000000000000000000000000000000000000000081002c6b0023003448656c6c6f20576f726c6421", none)

#guard hexOf [c!"eth", c!"ipv4", c!"tcp", c!"sport", c!"0xaaaa", c!"seqn", c!"0xffffffff", c!"doff", c!"0xf", c!"urg", c!"1", c!"psh", c!"1", c!"syn", c!"1", c!"win", c!"0xffff", c!"urgp", c!"0xffff"]
    = some (c!"ffffffffffff000000000001080045000028000000001f069bd10000000000000000aaaa0000ffffffff00000000f02affff6510ffff000000000000", none)

#guard hexOf [c!"eth", c!"ipv4", c!"tcp", c!"dport", c!"0xbbbb", c!"ackn", c!"0xffffffff", c!"resv", c!"0x3f", c!"ack", c!"1", c!"rst", c!"1", c!"fin", c!"1"]
    = some (c!"ffffffffffff000000000001080045000028000000001f069bd100000000000000000000bbbb00000000ffffffff5fd50000e4540000000000000000", none)

#guard hexOf [c!"eth", c!"ipv4", c!"tcp", c!"sport", c!"0xaaaa", c!"dport", c!"0xbbbb", c!"data", c!"ascii", c!"Hello World!"]
    = some (c!"ffffffffffff000000000001080045000034000000001f069bc50000000000000000aaaabbbb000000000000000050000000f783000048656c6c6f20576f726c6421", none)

#guard hexOf [c!"eth", c!"ipv6", c!"tcp", c!"sport", c!"0xaaaa", c!"dport", c!"0xbbbb", c!"data", c!"ascii", c!"Hello World!"]
    = some (c!"ffffffffffff00000000000186dd600000000020061f0000000000000000000000000000000000000000000000000000000000000000aaaabbbb000000000000000050000000f783000048656c6c6f20576f726c6421", none)

#guard hexOf [c!"eth", c!"dmac", c!"1::2", c!"smac", c!"3::4", c!"ipv4", c!"ign", c!"udp"]
    = some (c!"01000000000203000000000408004500001c000000001f119bd20000000000000000000000000008ffde000000000000000000000000000000000000", some c!"ffffffffffffffffffffffffffff0000000000000000000000000000000000000000ffffffffffffffffffffffffffffffffffffffffffffffffffff")

#guard hexOf [c!"eth", c!"dmac", c!"1::2", c!"smac", c!"3::4", c!"ipv4", c!"ign", c!"sip", c!"1.2.3.4", c!"udp"]
    = some (c!"01000000000203000000000408004500001c000000001f1197cc0102030400000000000000000008fbd8000000000000000000000000000000000000", some c!"ffffffffffffffffffffffffffff000000000000000000000000ffffffff00000000ffffffffffffffffffffffffffffffffffffffffffffffffffff")

#guard hexOf [c!"eth", c!"dmac", c!"1::2", c!"smac", c!"3::4", c!"ipv4", c!"sip", c!"ign", c!"udp"]
    = some (c!"01000000000203000000000408004500001c000000001f119bd20000000000000000000000000008ffde000000000000000000000000000000000000", some c!"ffffffffffffffffffffffffffffffffffffffffffffffffffff00000000ffffffffffffffffffffffffffffffffffffffffffffffffffffffffffff")

#guard hexOf [c!"eth", c!"dmac", c!"::1", c!"smac", c!"::2", c!"ctag", c!"pcp", c!"6", c!"profinet-rtc", c!"frameid", c!"0x9001", c!"data", c!"80808080004080", c!"cycle", c!"0xc9e0"]
    = some (c!"0000000000010000000000028100c0008892900180808080004080000000000000000000000000000000000000000000000000000000000000000000c9e03500", none)

#guard hexOf [c!"eth", c!"dmac", c!"::1", c!"smac", c!"::2", c!"profinet-rtc", c!"frameid", c!"0x9001", c!"data", c!"80808080004080", c!"cycle", c!"0xc9e0"]
    = some (c!"0000000000010000000000028892900180808080004080000000000000000000000000000000000000000000000000000000000000000000c9e03500", none)

#guard hexOf [c!"coap-opt", c!"num", c!"11", c!"val", c!"ascii", c!"temperature"]
    = some (c!"bb74656d7065726174757265000000000000000000000000000000000000000000000000000000000000000000000000000000000000000000000000", none)

#guard hexOf [c!"coap", c!"type", c!"0", c!"code", c!"0.01", c!"msgid", c!"0x736a", c!"token", c!"7778", c!"coap-opt", c!"num", c!"11", c!"val", c!"ascii", c!"temperature"]
    = some (c!"4201736a7778bb74656d7065726174757265000000000000000000000000000000000000000000000000000000000000000000000000000000000000", none)

#guard hexOf [c!"coap", c!"type", c!"0", c!"code", c!"0.01", c!"msgid", c!"0x736a", c!"token", c!"7778", c!"coap-opt", c!"val", c!"ascii", c!"temperature", c!"num", c!"11"]
    = some (c!"4201736a7778bb74656d7065726174757265000000000000000000000000000000000000000000000000000000000000000000000000000000000000", none)

#guard hexOf [c!"coap", c!"type", c!"0", c!"code", c!"0.01", c!"msgid", c!"0x736a", c!"token", c!"7778", c!"coap-opt", c!"num", c!"11", c!"val", c!"ascii", c!"temperature", c!"coap-opt", c!"num", c!"1", c!"val", c!"hex", c!"00"]
    = some (c!"4201736a7778bb74656d7065726174757265100000000000000000000000000000000000000000000000000000000000000000000000000000000000", none)

#guard hexOf [c!"coap", c!"type", c!"0", c!"code", c!"0.01", c!"msgid", c!"0x736a", c!"token", c!"7778", c!"coap-opt", c!"num", c!"11", c!"val", c!"ascii", c!"Hello World"]
    = some (c!"4201736a7778bb48656c6c6f20576f726c64000000000000000000000000000000000000000000000000000000000000000000000000000000000000", none)

#guard hexOf [c!"coap", c!"type", c!"0", c!"code", c!"0.01", c!"msgid", c!"0x736a", c!"token", c!"7778", c!"coap-opt", c!"num", c!"11", c!"val", c!"ascii", c!"temperature", c!"coap-opt", c!"num", c!"0", c!"val", c!"ascii", c!"temperature"]
    = some (c!"4201736a7778bb74656d70657261747572650b74656d7065726174757265000000000000000000000000000000000000000000000000000000000000", none)

#guard hexOf [c!"coap", c!"type", c!"0", c!"code", c!"0.03", c!"msgid", c!"0x736a", c!"token", c!"7778", c!"coap-opt", c!"num", c!"11", c!"val", c!"ascii", c!"temperature/current", c!"coap-parms", c!"par", c!"ascii", c!"36 C"]
    = some (c!"4203736a7778bd0674656d70657261747572652f63757272656e74ff3336204300000000000000000000000000000000000000000000000000000000", none)

/-- `hexstr(parse_bytes(s, n))`. -/
def pb (s : CStr) (n : Nat) : Option CStr :=
  match parseBytes s n with
  | .ok (some b) => some (printHexStr b)
  | _ => none

/-- `hexstr` of a field written into a zero buffer. -/
def wf (bytes : Nat) (v : CStr) (width offset size : Nat) : Option CStr :=
  match parseBytes v bytes with
  | .ok (some b) =>
    match writeField (balloc size) 0 { name := [], width := width, offset := offset } b with
    | .ok r => some (printHexStr r)
    | _ => none
  | _ => none

/-- `hexstr` of `parse_var_bytes`. -/
def pv (ws : List CStr) : Option CStr :=
  match parseVarBytes ws with
  | .ok (some (_, some b)) => some (printHexStr b)
  | _ => none

#guard pb c!"5" 4 = some c!"00000005"
#guard pb c!"5" 3 = some c!"000005"
#guard pb c!"5" 2 = some c!"0005"
#guard pb c!"5" 1 = some c!"05"
#guard pb c!"100" 4 = some c!"00000064"
#guard pb c!"77" 4 = some c!"0000004d"
#guard pb c!"1234" 4 = some c!"000004d2"
#guard pb c!"0x0800" 2 = some c!"0800"
#guard pb c!"0b1111" 2 = some c!"000f"
#guard pb c!"::1" 16 = some c!"00000000000000000000000000000001"
#guard pb c!"2000::10.1.2.3" 16 = some c!"2000000000000000000000000a010203"
#guard pb c!"10.1.2.3" 4 = some c!"0a010203"
#guard pb c!"10.1.2.8" 4 = some c!"0a010208"
#guard pb c!"10.0.99.2" 4 = some c!"0a006302"
#guard pb c!"5.6.7.8" 4 = some c!"05060708"
#guard pb c!":::" 6 = none
#guard pb c!"00::00::00" 6 = none
#guard pb c!"::00::00" 6 = none
#guard pb c!"::" 6 = some c!"000000000000"
#guard pb c!"::1" 6 = some c!"000000000001"
#guard pb c!"::1:2" 6 = some c!"000000000102"
#guard pb c!"::1:2:3" 6 = some c!"000000010203"
#guard pb c!"::1:2:3:4" 6 = some c!"000001020304"
#guard pb c!"::1:2:3:4:5" 6 = some c!"000102030405"
#guard pb c!"::1:2:3:4:5:6" 6 = none
#guard pb c!"::1:2:3:4:5:6:7" 6 = none
#guard pb c!"10::" 6 = some c!"100000000000"
#guard pb c!"10::1" 6 = some c!"100000000001"
#guard pb c!"10::1:2" 6 = some c!"100000000102"
#guard pb c!"10::1:2:3" 6 = some c!"100000010203"
#guard pb c!"10::1:2:3:4" 6 = some c!"100001020304"
#guard pb c!"10::1:2:3:4:5" 6 = none
#guard pb c!"10::1:2:3:4:5:6" 6 = none
#guard pb c!"10:20::" 6 = some c!"102000000000"
#guard pb c!"10:20::1" 6 = some c!"102000000001"
#guard pb c!"10:20::1:2" 6 = some c!"102000000102"
#guard pb c!"10:20::1:2:3" 6 = some c!"102000010203"
#guard pb c!"10:20::1:2:3:4" 6 = none
#guard pb c!"10:20::1:2:3:4:5" 6 = none
#guard pb c!"10:20:30::" 6 = some c!"102030000000"
#guard pb c!"10:20:30::1" 6 = some c!"102030000001"
#guard pb c!"10:20:30::1:2" 6 = some c!"102030000102"
#guard pb c!"10:20:30::1:2:3" 6 = none
#guard pb c!"10:20:30::1:2:3:4" 6 = none
#guard pb c!"10:20:30:40::" 6 = some c!"102030400000"
#guard pb c!"10:20:30:40::1" 6 = some c!"102030400001"
#guard pb c!"10:20:30:40::1:2" 6 = none
#guard pb c!"10:20:30:40::1:2:3" 6 = none
#guard pb c!"10:20:30:40:50::" 6 = some c!"102030405000"
#guard pb c!"10:20:30:40:50::1" 6 = none
#guard pb c!"10:20:30:40:50::1:2" 6 = none
#guard pb c!"a::4" 6 = some c!"0a0000000004"
#guard pb c!"0a::4" 6 = some c!"0a0000000004"
#guard pb c!"a0::4" 6 = some c!"a00000000004"
#guard pb c!"B::5" 6 = some c!"0b0000000005"
#guard pb c!"0B::5" 6 = some c!"0b0000000005"
#guard pb c!"B0::5" 6 = some c!"b00000000005"
#guard pb c!"::" 16 = some c!"00000000000000000000000000000000"
#guard pb c!"0x3311ff" 16 = some c!"000000000000000000000000003311ff"
#guard pb c!"0x11000022" 12 = some c!"000000000000000011000022"
#guard pb c!"0b00000001" 12 = some c!"000000000000000000000001"
#guard pb c!"0b00000101" 12 = some c!"000000000000000000000005"
#guard pb c!"0b1000000000000101" 12 = some c!"000000000000000000008005"
#guard wf 3 c!"0x112233" 24 0 18 = some c!"112233000000000000000000000000000000"
#guard wf 3 c!"0x112233" 24 16 18 = some c!"000011223300000000000000000000000000"
#guard wf 1 c!"0x1" 1 0 3 = some c!"800000"
#guard wf 1 c!"0x1" 1 1 3 = some c!"400000"
#guard wf 1 c!"0x1" 1 2 3 = some c!"200000"
#guard wf 1 c!"0x1" 1 3 3 = some c!"100000"
#guard wf 1 c!"0x1" 1 4 3 = some c!"080000"
#guard wf 1 c!"0x1" 1 5 3 = some c!"040000"
#guard wf 1 c!"0x1" 1 6 3 = some c!"020000"
#guard wf 1 c!"0x1" 1 7 3 = some c!"010000"
#guard wf 1 c!"0x1" 1 8 3 = some c!"008000"
#guard wf 1 c!"0x1" 1 9 3 = some c!"004000"
#guard wf 1 c!"0x1" 1 10 3 = some c!"002000"
#guard wf 1 c!"0x1" 1 11 3 = some c!"001000"
#guard wf 1 c!"0x1" 1 12 3 = some c!"000800"
#guard wf 1 c!"0x1" 1 13 3 = some c!"000400"
#guard wf 1 c!"0x1" 1 14 3 = some c!"000200"
#guard wf 1 c!"0x1" 1 15 3 = some c!"000100"
#guard wf 1 c!"0x1" 1 16 3 = some c!"000080"
#guard wf 1 c!"0x1" 1 17 3 = some c!"000040"
#guard wf 1 c!"0x1" 1 18 3 = some c!"000020"
#guard wf 1 c!"0x1" 1 19 3 = some c!"000010"
#guard wf 1 c!"0x1" 1 20 3 = some c!"000008"
#guard wf 1 c!"0x1" 1 21 3 = some c!"000004"
#guard wf 1 c!"0x1" 1 22 3 = some c!"000002"
#guard wf 1 c!"0x1" 1 23 3 = some c!"000001"
#guard wf 1 c!"0x3" 2 0 3 = some c!"c00000"
#guard wf 1 c!"0x3" 2 1 3 = some c!"600000"
#guard wf 1 c!"0x3" 2 2 3 = some c!"300000"
#guard wf 1 c!"0x3" 2 3 3 = some c!"180000"
#guard wf 1 c!"0x3" 2 4 3 = some c!"0c0000"
#guard wf 1 c!"0x3" 2 5 3 = some c!"060000"
#guard wf 1 c!"0x3" 2 6 3 = some c!"030000"
#guard wf 1 c!"0x3" 2 7 3 = some c!"018000"
#guard wf 1 c!"0x2" 2 7 3 = some c!"010000"
#guard wf 1 c!"0x1" 2 7 3 = some c!"008000"
#guard wf 1 c!"0x3" 2 8 3 = some c!"00c000"
#guard wf 1 c!"0x3" 2 9 3 = some c!"006000"
#guard wf 1 c!"0x3" 2 10 3 = some c!"003000"
#guard wf 1 c!"0x3" 2 11 3 = some c!"001800"
#guard wf 1 c!"0x3" 2 12 3 = some c!"000c00"
#guard wf 1 c!"0x3" 2 13 3 = some c!"000600"
#guard wf 1 c!"0x3" 2 14 3 = some c!"000300"
#guard wf 1 c!"0x3" 2 15 3 = some c!"000180"
#guard wf 1 c!"0x3" 2 16 3 = some c!"0000c0"
#guard wf 1 c!"0x3" 2 17 3 = some c!"000060"
#guard wf 1 c!"0x3" 2 18 3 = some c!"000030"
#guard wf 1 c!"0x3" 2 19 3 = some c!"000018"
#guard wf 1 c!"0x3" 2 20 3 = some c!"00000c"
#guard wf 1 c!"0x3" 2 21 3 = some c!"000006"
#guard wf 1 c!"0x3" 2 22 3 = some c!"000003"
#guard wf 1 c!"0x7" 3 0 3 = some c!"e00000"
#guard wf 1 c!"0x7" 3 1 3 = some c!"700000"
#guard wf 1 c!"0x7" 3 2 3 = some c!"380000"
#guard wf 1 c!"0x7" 3 3 3 = some c!"1c0000"
#guard wf 1 c!"0x7" 3 4 3 = some c!"0e0000"
#guard wf 1 c!"0x7" 3 5 3 = some c!"070000"
#guard wf 1 c!"0x7" 3 6 3 = some c!"038000"
#guard wf 1 c!"0x7" 3 7 3 = some c!"01c000"
#guard wf 1 c!"0x7" 3 8 3 = some c!"00e000"
#guard wf 1 c!"0x7" 3 9 3 = some c!"007000"
#guard wf 1 c!"0x7" 3 10 3 = some c!"003800"
#guard wf 1 c!"0x7" 3 11 3 = some c!"001c00"
#guard wf 1 c!"0x7" 3 12 3 = some c!"000e00"
#guard wf 1 c!"0x7" 3 13 3 = some c!"000700"
#guard wf 1 c!"0x7" 3 14 3 = some c!"000380"
#guard wf 1 c!"0x7" 3 15 3 = some c!"0001c0"
#guard wf 1 c!"0x7" 3 16 3 = some c!"0000e0"
#guard wf 1 c!"0x7" 3 17 3 = some c!"000070"
#guard wf 1 c!"0x7" 3 18 3 = some c!"000038"
#guard wf 1 c!"0x7" 3 19 3 = some c!"00001c"
#guard wf 1 c!"0x7" 3 20 3 = some c!"00000e"
#guard wf 1 c!"0x7" 3 21 3 = some c!"000007"
#guard wf 1 c!"0xff" 8 0 3 = some c!"ff0000"
#guard wf 1 c!"0xff" 8 1 3 = some c!"7f8000"
#guard wf 1 c!"0xff" 8 2 3 = some c!"3fc000"
#guard wf 1 c!"0xff" 8 3 3 = some c!"1fe000"
#guard wf 1 c!"0xff" 8 4 3 = some c!"0ff000"
#guard wf 1 c!"0xff" 8 5 3 = some c!"07f800"
#guard wf 1 c!"0xff" 8 6 3 = some c!"03fc00"
#guard wf 1 c!"0xff" 8 7 3 = some c!"01fe00"
#guard wf 1 c!"0xff" 8 8 3 = some c!"00ff00"
#guard wf 1 c!"0xff" 8 9 3 = some c!"007f80"
#guard wf 1 c!"0xff" 8 10 3 = some c!"003fc0"
#guard wf 1 c!"0xff" 8 11 3 = some c!"001fe0"
#guard wf 1 c!"0xff" 8 12 3 = some c!"000ff0"
#guard wf 1 c!"0xff" 8 13 3 = some c!"0007f8"
#guard wf 1 c!"0xff" 8 14 3 = some c!"0003fc"
#guard wf 1 c!"0xff" 8 15 3 = some c!"0001fe"
#guard wf 1 c!"0xff" 8 16 3 = some c!"0000ff"
#guard wf 2 c!"0xfff" 12 0 10 = some c!"fff00000000000000000"
#guard wf 2 c!"0xfff" 12 1 10 = some c!"7ff80000000000000000"
#guard wf 2 c!"0xfff" 12 2 10 = some c!"3ffc0000000000000000"
#guard wf 2 c!"0xfff" 12 3 10 = some c!"1ffe0000000000000000"
#guard wf 2 c!"0xfff" 12 4 10 = some c!"0fff0000000000000000"
#guard wf 2 c!"0xfff" 12 5 10 = some c!"07ff8000000000000000"
#guard wf 2 c!"0xfff" 12 6 10 = some c!"03ffc000000000000000"
#guard wf 2 c!"0xfff" 12 7 10 = some c!"01ffe000000000000000"
#guard wf 2 c!"0xfff" 12 8 10 = some c!"00fff000000000000000"
#guard wf 2 c!"0xfff" 12 9 10 = some c!"007ff800000000000000"
#guard wf 2 c!"0xfff" 12 10 10 = some c!"003ffc00000000000000"
#guard wf 2 c!"0xfff" 12 11 10 = some c!"001ffe00000000000000"
#guard wf 2 c!"0xfff" 12 12 10 = some c!"000fff00000000000000"
#guard wf 2 c!"0xfff" 12 13 10 = some c!"0007ff80000000000000"
#guard wf 2 c!"0xfff" 12 14 10 = some c!"0003ffc0000000000000"
#guard wf 2 c!"0xfff" 12 15 10 = some c!"0001ffe0000000000000"
#guard wf 2 c!"0xfff" 12 16 10 = some c!"0000fff0000000000000"
#guard wf 2 c!"0xfff" 12 17 10 = some c!"00007ff8000000000000"
#guard wf 2 c!"0xfff" 12 18 10 = some c!"00003ffc000000000000"
#guard wf 2 c!"0xfff" 12 19 10 = some c!"00001ffe000000000000"
#guard wf 2 c!"0xfff" 12 20 10 = some c!"00000fff000000000000"
#guard wf 2 c!"0xfff" 12 21 10 = some c!"000007ff800000000000"
#guard wf 2 c!"0xfff" 12 22 10 = some c!"000003ffc00000000000"
#guard wf 2 c!"0xfff" 12 23 10 = some c!"000001ffe00000000000"
#guard wf 6 c!"0xffffffffffff" 48 0 10 = some c!"ffffffffffff00000000"
#guard wf 6 c!"0xffffffffffff" 48 1 10 = some c!"7fffffffffff80000000"
#guard wf 6 c!"0xffffffffffff" 48 2 10 = some c!"3fffffffffffc0000000"
#guard wf 6 c!"0xffffffffffff" 48 3 10 = some c!"1fffffffffffe0000000"
#guard wf 6 c!"0xffffffffffff" 48 4 10 = some c!"0ffffffffffff0000000"
#guard wf 6 c!"0xffffffffffff" 48 5 10 = some c!"07fffffffffff8000000"
#guard wf 6 c!"0xffffffffffff" 48 6 10 = some c!"03fffffffffffc000000"
#guard wf 6 c!"0xffffffffffff" 48 7 10 = some c!"01fffffffffffe000000"
#guard wf 6 c!"0xffffffffffff" 48 8 10 = some c!"00ffffffffffff000000"
#guard wf 6 c!"0xffffffffffff" 48 9 10 = some c!"007fffffffffff800000"
#guard wf 6 c!"0xffffffffffff" 48 10 10 = some c!"003fffffffffffc00000"
#guard wf 6 c!"0xffffffffffff" 48 11 10 = some c!"001fffffffffffe00000"
#guard wf 6 c!"0xffffffffffff" 48 12 10 = some c!"000ffffffffffff00000"
#guard wf 6 c!"0xffffffffffff" 48 13 10 = some c!"0007fffffffffff80000"
#guard wf 6 c!"0xffffffffffff" 48 14 10 = some c!"0003fffffffffffc0000"
#guard wf 6 c!"0xffffffffffff" 48 15 10 = some c!"0001fffffffffffe0000"
#guard wf 6 c!"0xffffffffffff" 48 16 10 = some c!"0000ffffffffffff0000"
#guard wf 6 c!"0xffffffffffff" 48 17 10 = some c!"00007fffffffffff8000"
#guard wf 6 c!"0xffffffffffff" 48 18 10 = some c!"00003fffffffffffc000"
#guard wf 6 c!"0xffffffffffff" 48 19 10 = some c!"00001fffffffffffe000"
#guard wf 6 c!"0xffffffffffff" 48 20 10 = some c!"00000ffffffffffff000"
#guard wf 6 c!"0xffffffffffff" 48 21 10 = some c!"000007fffffffffff800"
#guard wf 6 c!"0xffffffffffff" 48 22 10 = some c!"000003fffffffffffc00"
#guard wf 6 c!"0xffffffffffff" 48 23 10 = some c!"000001fffffffffffe00"
#guard wf 6 c!"0xffffffffffff" 48 24 10 = some c!"000000ffffffffffff00"
#guard wf 6 c!"0xffffffffffff" 48 25 10 = some c!"0000007fffffffffff80"
#guard wf 6 c!"0xffffffffffff" 48 26 10 = some c!"0000003fffffffffffc0"
#guard wf 6 c!"0xffffffffffff" 48 27 10 = some c!"0000001fffffffffffe0"
#guard wf 6 c!"0xffffffffffff" 48 28 10 = some c!"0000000ffffffffffff0"
#guard wf 6 c!"0xffffffffffff" 48 29 10 = some c!"00000007fffffffffff8"
#guard wf 6 c!"0xffffffffffff" 48 30 10 = some c!"00000003fffffffffffc"
#guard wf 6 c!"0xffffffffffff" 48 31 10 = some c!"00000001fffffffffffe"
#guard wf 6 c!"0xffffffffffff" 48 32 10 = some c!"00000000ffffffffffff"
#guard pv [c!"hex", c!"fedeabe0badebabe0011223344"] = some c!"fedeabe0badebabe0011223344"
#guard pv [c!"hex", c!"fede.abe0:bade-babe-0011223344"] = some c!"fedeabe0badebabe0011223344"
#guard pv [c!"ascii", c!"Hello world"] = some c!"48656c6c6f20776f726c64"
#guard pv [c!"ascii0", c!"Hello world"] = some c!"48656c6c6f20776f726c6400"
#guard pv [c!"repeat", c!"1", c!"0xab"] = some c!"ab"
#guard pv [c!"repeat", c!"2", c!"0xab"] = some c!"abab"
#guard pv [c!"repeat", c!"3", c!"0xab"] = some c!"ababab"
#guard pv [c!"repeat", c!"4", c!"0xab"] = some c!"abababab"
#guard pv [c!"repeat", c!"4", c!"100"] = some c!"64646464"
#guard pv [c!"pattern", c!"cnt", c!"20"] = some c!"000102030405060708090a0b0c0d0e0f10111213"
#guard pv [c!"pattern", c!"zero", c!"20"] = some c!"0000000000000000000000000000000000000000"
#guard pv [c!"pattern", c!"ones", c!"20"] = some c!"ffffffffffffffffffffffffffffffffffffffff"
#guard pv [c!"repeat", c!"10", c!"0xaa", c!"hex", c!"acef", c!"pattern", c!"cnt", c!"10"] = some c!"aaaaaaaaaaaaaaaaaaaaacef00010203040506070809"
end Ef.Tests

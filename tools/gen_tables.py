#!/usr/bin/env python3
"""Generates lean/Verif/Model/Tables.lean from the static tables and *_init functions in /repo/src.

Only table data is translated: field names, widths, explicit offsets, parser functions, header names,
types and fill functions, and the def_offset/def_val calls of the init functions."""
import re, os, sys
SRC="/repo/src"
FILES=["ef-ifh.c","ef-eth.c","ef-vlan.c","ef-arp.c","ef-ipv4.c","ef-ipv6.c","ef-icmp.c","ef-igmp.c","ef-mld.c",
       "ef-udp.c","ef-payload.c","ef-padding.c","ef-oam.c","ef-mrp.c","ef-ptp.c","ef-profinet.c","ef-opcua.c","ef-coap.c","ef-sv.c"]
PARSER={"coap_parse_code":".coapCode","coap_parse_token":".coapToken","profinet_data_parser":".profinetData",
        "opc_parse_uint16":".opcUint16","parse_field_hex":".fieldHex"}
MULTI={"coap_parse_option_value":".coapOptVal","coap_parse_parms":".coapParms"}
HPARSER={"hdr_parse_fields":".fields","payload_parser":".payload","padding_parser":".padding"}
FILL={"eth_fill_defaults":".etherType","vlan_fill_defaults":".etherType","ipv4_fill_defaults":".ipv4","ipv6_fill_defaults":".ipv6",
 "udp_tcp_fill_defaults":".udpTcp","icmp_fill_defaults":".icmp","igmp_fill_defaults":".igmp","mld_fill_defaults":".mld","sv_fill_defaults":".sv",
 "coap_fill_defaults":".coap","options_fill_defaults":".coapOpt","fill_defaults":".ptp","tlv_fill_defaults":".ptpTlv"}
NOP={"tst_fill_defaults","topo_fill_defaults","lnk_fill_defaults","prop_fill_defaults","ccm_fill_defaults","laps_fill_defaults",
     "lb_fill_defaults","lt_fill_defaults","raps_fill_defaults","parameters_fill_defaults"}

def strip_comments(s):
    def rep(m):
        t=m.group(0)
        if t.startswith('"'): return t
        return re.sub(r'[^\n]',' ',t)
    return re.sub(r'"(?:\\.|[^"\\])*"|/\*.*?\*/|//[^\n]*', rep, s, flags=re.S)

def braces(s,i):
    """s[i]=='{' -> index after matching }"""
    d=0; j=i
    while True:
        c=s[j]
        if c=='"':
            j+=1
            while s[j]!='"':
                if s[j]=='\\': j+=1
                j+=1
        elif c=='{': d+=1
        elif c=='}':
            d-=1
            if d==0: return j+1
        j+=1

def designators(body):
    """.name = value list (values: string, number, identifier, expression without comma)"""
    out={}
    for m in re.finditer(r'\.(\w+)\s*=\s*("(?:\\.|[^"\\])*"(?:\s*"(?:\\.|[^"\\])*")*|[^,}]+)', body):
        k,v=m.group(1),m.group(2).strip()
        assert k not in out,(k,body)
        out[k]=v
    return out

def num(x):
    assert re.fullmatch(r"[0-9a-fxA-F()*+ ]+",x),x
    return eval(x)
def cstr(v):
    """C string literals (adjacent ones are joined), None if absent"""
    if v is None: return None
    parts=re.findall(r'"((?:\\.|[^"\\])*)"',v)
    t="".join(parts)
    assert re.fullmatch(r'[ -~]*',t) and not re.search(r'\\[^"\\n]',t),t
    return t.replace('\\"','"').replace('\\n','\n').replace('\\\\','\\')
helps={}  # fieldtable -> help texts
tables={} # fieldtable -> (file,l0,l1,[fields])
hdrs={}   # HDR_X -> dict
inits={}  # HDR_X -> list of calls
order=[]
tmpl={}
for fn in FILES:
    raw=open(os.path.join(SRC,fn),encoding='utf-8-sig').read()
    s=strip_comments(raw)
    line=lambda i: s.count('\n',0,i)+1
    for m in re.finditer(r'(?:static\s+)?field_t\s+(\w+)\[\]\s*=\s*\{', s):
        i=m.end()-1; e=braces(s,i)
        body=s[i+1:e-1]
        fs=[]; p=0
        while True:
            q=body.find('{',p)
            if q<0: break
            r=braces(body,q)
            d=designators(body[q:r])
            assert set(d)<= {"name","help","bit_width","bit_offset","parser","parser_multi"},d
            fs.append((d["name"].strip('"'), num(d.get("bit_width","0")), num(d.get("bit_offset","0")), d.get("parser"), d.get("parser_multi"), line(i+1+q)))
            helps.setdefault((fn,m.group(1)),[]).append(cstr(d.get("help")))
            p=r
        # designated array initialisers [X] = must be in enum order: check against enum
        idx=re.findall(r'\[(\w+)\]\s*=',body)
        if idx:
            assert len(idx)==len(fs)
            en=[x for x in re.findall(r'enum\s*\{(.*?)\}',s,flags=re.S) if idx[0] in x][0]
            names=[x.strip() for x in en.split(',') if x.strip()]
            assert names[:len(idx)]==idx,(names,idx)
        tables[(fn,m.group(1))]=(line(m.start()),line(e),fs)
    for m in re.finditer(r'(?:static\s+)?hdr_t\s+(HDR_\w+)\s*=\s*\{', s):
        i=m.end()-1; e=braces(s,i)
        d=designators(s[i:e])
        assert set(d)<= {"name","help","type","fields","fields_size","parser","frame_fill_defaults"},d
        hdrs[m.group(1)]=dict(file=fn,l0=line(m.start()),l1=line(e),**d)
        inits[m.group(1)]=[]; order.append(m.group(1))
    for m in re.finditer(r'def_offset\(&(HDR_\w+)\);|def_val\(&(HDR_\w+),\s*"([^"]*)",\s*"([^"]*)"\);|hdr_tmpls\[(HDR_TMPL_\w+)\]\s*=\s*&(HDR_\w+);',s):
        if m.group(1): inits[m.group(1)].append(("off",line(m.start())))
        elif m.group(2): inits[m.group(2)].append(("val",m.group(3),m.group(4),line(m.start())))
        else:
            assert m.group(5) not in tmpl
            tmpl[m.group(5)]=m.group(6)
eh=strip_comments(open(os.path.join(SRC,"ef.h")).read())
en=re.search(r'typedef enum \{\s*(HDR_TMPL_SP_OC1.*?)\} hdr_tmpl_t;',eh,flags=re.S).group(1)
enum=[x.strip() for x in en.split(',') if x.strip()]
assert enum[-1]=="HDR_TMPL_SIZE"
enum=enum[:-1]
missing=[x for x in enum if x not in tmpl]
print("templates",len(enum),"missing",missing,file=sys.stderr)
o=[]
o.append('''import Verif.Model.Frame

/-!
# Header tables

GENERATED by `tools/gen_tables.py` from the static tables and `*_init` functions in `/repo/src`; do not edit.
Each header is the value of the `hdr_t` object after start-up (`init()`, ef.c:602-622).
-/

namespace Ef

''')
def fld(f):
    n,w,off,p,mp,l=f
    x='  { name := c!"%s", width := %d'%(n,w)
    if off: x+=', offset := %d'%off
    if p: x+=', parser := %s'%PARSER[p]
    if mp: x+=', multi := %s'%MULTI[mp]
    return x+' }'
for h in order:
    d=hdrs[h]; fn=d["file"]
    fields="[]"; cite="%s:%d-%d"%(fn,d["l0"],d["l1"])
    if "fields" in d:
        t=tables[(fn,d["fields"])]
        assert d["fields_size"].replace(" ","").replace("\n","")=="sizeof(%s)/sizeof(%s[0])"%(d["fields"],d["fields"]),d["fields_size"]
        cite="%s:%d-%d (%s), %s:%d-%d"%(fn,t[0],t[1],d["fields"],fn,d["l0"],d["l1"])
        o.append("/-- Fields of `%s` as written in the source: %s:%d-%d. -/\ndef %s_fields : List Field := [\n%s]\n\n"%(h,fn,t[0],t[1],h,",\n".join(fld(f) for f in t[2])))
        fields=h+"_fields"
    init=inits[h]
    lines=[c[-1] for c in init]
    if lines: cite+=", init %s:%s"%(fn,"%d-%d"%(min(lines),max(lines)) if min(lines)!=max(lines) else str(lines[0]))
    assert all(c[0]=="val" for c in init[1:]) and (not init or init[0][0]=="off"),(h,init)
    fill=d.get("frame_fill_defaults")
    fl=".none" if fill is None or fill in NOP else FILL[fill]
    ps=HPARSER[d["parser"]] if "parser" in d else ".fields"
    ty=str(int(d.get("type","0"),0))
    base='{ name := c!"%s", type := %s, fields := %s, fill := %s, parser := %s }'%(d["name"].strip('"'),ty,fields,fl,ps)
    o.append("/-- The source form of `%s` before start-up: %s. -/\ndef %s_raw : Hdr :=\n  %s\n\n"%(h,cite,h,base))
    e="%s_raw"%h
    if init: e="defOffset "+e
    vals=[c for c in init if c[0]=="val"]
    if vals: e="defVals (%s) [\n    %s]"%(e,",\n    ".join('(c!"%s", c!"%s")'%(c[1],c[2]) for c in vals))
    o.append("/-- %s. -/\ndef %s : Hdr :=\n  %s\n\n"%(cite,h,e))
o.append("/-- `hdr_tmpls` in the order of `hdr_tmpl_t` (ef.h:199-257)%s. -/\ndef hdrTmpls : List Hdr := [\n  %s]\n\n"%(
   "; no header is registered for %s"%", ".join(missing) if missing else "", ",\n  ".join(tmpl[x] for x in enum if x in tmpl)))
o.append("/-- The headers of `hdr_tmpls` before start-up. -/\ndef hdrTmplsRaw : List Hdr := [\n  %s]\n\n"%(",\n  ".join(tmpl[x]+"_raw" for x in enum if x in tmpl)))
o.append("end Ef\n")
open("/verif/lean/Verif/Model/Tables.lean","w").write("".join(o))

def lit(t):
    if t is None: return "none"
    return 'some c!"%s"'%t.replace('\\','\\\\').replace('"','\\"').replace('\n','\\n')
o=['''import Verif.Model.Tables

/-!
# Help texts

GENERATED by `tools/gen_tables.py` from the static tables in `/repo/src`; do not edit.
-/

namespace Ef

/-- The help texts of a header and of its fields, in the order of its fields; `none` where there is none. -/
structure HelpText where
  hdr : Option CStr
  fields : List (Option CStr)
  deriving Repr

''']
for h in order:
    d=hdrs[h]; fn=d["file"]
    hs=helps[(fn,d["fields"])] if "fields" in d else []
    cite="%s:%d-%d"%(fn,d["l0"],d["l1"])
    if "fields" in d: cite+=", %s:%d-%d"%(fn,tables[(fn,d["fields"])][0],tables[(fn,d["fields"])][1])
    o.append("/-- %s. -/\ndef %s_help : HelpText := ⟨%s, [\n  %s]⟩\n\n"%(cite,h,lit(cstr(d.get("help"))),",\n  ".join(lit(x) for x in hs)))
o.append("/-- The help texts of the headers in `hdrTmpls`, in the same order. -/\ndef hdrHelps : List HelpText := [\n  %s]\n\n"%(",\n  ".join(tmpl[x]+"_help" for x in enum if x in tmpl)))
src=open("/repo/src/ef-args.c").read()
a=src.index("void print_help()"); e=src.index("\n}",a)
us=[cstr(x) for x in re.findall(r'po\(("(?:\\.|[^"\\])*")\);',src[a:e])]
assert len(us)==src[a:e].count("po(") and all(u.endswith("\n") and u.count("\n")==1 for u in us)
o.append("/-- `print_help` (ef-args.c:%d-%d), the lines without the newlines. -/\ndef usageLines : List CStr := [\n  %s]\n\n"%(src[:a].count("\n")+1,src[:e].count("\n")+2,",\n  ".join(lit(u[:-1])[5:] for u in us)))
o.append("end Ef\n")
open("/verif/lean/Verif/Model/HelpTables.lean","w").write("".join(o))

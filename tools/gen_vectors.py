#!/usr/bin/env python3
"""Generate lean/Verif/Tests/Vectors.lean from the upstream test vectors in /repo/test/parser-tests.rb."""
import re, shlex, sys
src = open('/repo/test/parser-tests.rb').read()
src = src[src.index('%x{rm -f'):]
src = '\n'.join(l for l in src.split('\n') if not l.lstrip().startswith('#'))
STR = r'"((?:[^"\\]|\\.)*)"'
def tostr(m):
    # a sequence of ruby string literals joined by "+" or "\"
    parts = re.findall(STR, m)
    return ''.join(p.replace('\\"', '"') for p in parts)
SEQ = r'((?:' + STR.replace('(', '(?:', 1) + r')(?:\s*[\\+]?\s*"(?:[^"\\]|\\.)*")*)'
SEQ = r'("(?:[^"\\]|\\.)*"(?:\s*[\\+]?\s*"(?:[^"\\]|\\.)*")*)'
out = []
n = len(re.findall(r'^\s*ok(?:_mask)?[ (]', src, re.M))
for m in re.finditer(r'^\s*(ok|ok_mask)\s*\(?\s*' + SEQ + r'\s*,\s*' + SEQ + r'(?:\s*,\s*' + SEQ + r')?', src, re.M):
    kind, cmd, exp, mask = m.groups()
    cmd, exp = tostr(cmd), tostr(exp)
    mask = tostr(mask) if mask else None
    assert (kind == 'ok_mask') == (mask is not None), m.group(0)
    out.append((shlex.split(cmd), exp, mask))
assert len(out) == n, (len(out), n)
def lit(s):
    assert all(32 <= ord(c) < 127 for c in s)
    return 'c!"' + s.replace('\\', '\\\\').replace('"', '\\"') + '"'
w = []
w.append('''import Verif.Model.Main

/-!
# Replay of the upstream test vectors

GENERATED by tools/gen_vectors.py from /repo/test/parser-tests.rb. These are tests of the model against the
results the authors expect from the C program (`ef hex ...`); they are evaluated, not proved.
-/

namespace Ef.Tests

/-- Output of `ef hex WORDS`: frame and mask as printed. -/
def hexOf (ws : List CStr) : Option (CStr × Option CStr) :=
  match parseCmds true (c!"hex" :: ws) with
  | .ok (some [c]) =>
    match c.buf with
    | some b => some (printHexStr b, c.mask.map printHexStr)
    | none => none
  | _ => none
''')
for i, (ws, e, m) in enumerate(out):
    w.append('#guard hexOf [' + ', '.join(lit(x) for x in ws) + ']\n    = some (' + lit(e) + ', ' +
             ('none' if m is None else 'some ' + lit(m)) + ')\n')

w.append('''/-- `hexstr(parse_bytes(s, n))`. -/
def pb (s : CStr) (n : Nat) : Option CStr :=
  match parseBytes s n with
  | .ok (some b) => some (printHexStr b)
  | _ => none

/-- `hexstr` of a field written into a zero buffer. -/
def wf (bytes : Nat) (v : CStr) (width offset size : Nat) : Option CStr :=
  match parseBytes v bytes with
  | .ok (some b) =>
    match writeField (balloc size) 0 { name := [], width := width, offset := offset } b with
    | .ok r => some (printHexStr r)
    | _ => none
  | _ => none

/-- `hexstr` of `parse_var_bytes`. -/
def pv (ws : List CStr) : Option CStr :=
  match parseVarBytes ws with
  | .ok (some (_, some b)) => some (printHexStr b)
  | _ => none
''')
cx = open('/repo/test/test-ef-parse-bytes.cxx').read()
cx = '\n'.join(l for l in cx.split('\n') if not l.lstrip().startswith('//') and not l.rstrip().endswith('\\'))
k = 0
for m in re.finditer(r'CHECK\(hexstr\(parse_bytes\("([^"]*)", (\d+)\)\) ==\s*"([^"]*)"\)|CHECK\(!parse_bytes\("([^"]*)", (\d+)\)\)', cx):
    a, n, e, a2, n2 = m.groups()
    if a is not None:
        w.append(f'#guard pb {lit(a)} {n} = some {lit(e)}')
    else:
        w.append(f'#guard pb {lit(a2)} {n2} = none')
    k += 1
for m in re.finditer(r'X\((\d+), "([^"]*)", *(\d+), *(\d+), *(\d+), "([^"]*)"\)', cx):
    b, v, wd, of, sz, e = m.groups()
    w.append(f'#guard wf {b} {lit(v)} {wd} {of} {sz} = some {lit(e)}')
    k += 1
for m in re.finditer(r'X\("([0-9a-f]*)",\s*((?:"[^"]*",?\s*)+)\)', cx):
    e, ws = m.groups()
    w.append('#guard pv [' + ', '.join(lit(x) for x in re.findall(r'"([^"]*)"', ws)) + f'] = some {lit(e)}')
    k += 1
print(k)
w.append('end Ef.Tests')
open('/verif/lean/Verif/Tests/Vectors.lean', 'w').write('\n'.join(w) + '\n')
print(len(out))

#!/usr/bin/env python3
"""Writes DESIGN.md from tools/design_head.md, tools/design_props.md, MANIFEST.json, tools/design_tail.md and the axiom
listing of a build (first argument: file with the output of `lake build`, or DESIGN.md's old table is kept)."""
import json, os, re, sys
R = os.path.join(os.path.dirname(os.path.abspath(__file__)), "..")
rd = lambda p: open(os.path.join(R, p)).read()
M = {x["property"]: x for x in json.load(open(os.path.join(R, "MANIFEST.json")))["claims"]}
T = {}
for l in rd("properties.jsonl").splitlines():
    d = json.loads(l); T[d["id"]] = d["title"]
notes = {}
for l in rd("tools/design_props.md").splitlines():
    m = re.match(r"(C\d+): (.*)", l)
    if m: notes[m.group(1)] = m.group(2)
out = rd("tools/design_head.md")
out += "For each property: status, where the model is, how it is proved, and (for partial ones) what fails.\n\n"
missing = []
for i in sorted(M):
    x = M[i]
    if i not in notes: missing.append(i)
    out += "* **%s** (%s) %s. %s%s\n" % (i, x["status"], T[i], notes.get(i, ""), (" " + x["note"]) if x["note"] else "")
out += rd("tools/design_tail.md")
ax = []
if len(sys.argv) > 1:
    for l in open(sys.argv[1]):
        m = re.match(r"Ef\.Props\.(C\w+): \[(.*)\]", l)
        if m:
            s = "".join(c for c, n in (("P", "propext"), ("Q", "Quot.sound"), ("C", "Classical.choice")) if n in m.group(2))
            assert all(a in ("propext", "Quot.sound", "Classical.choice", "") for a in m.group(2).split(", ")), l
            ax.append((m.group(1), s or "none"))
    g = {}
    for n, s in sorted(ax): g.setdefault(s, []).append(n)
    table = "".join("* %s: %s\n" % (s, ", ".join("`%s`" % n for n in g[s])) for s in sorted(g))
else:
    table = rd("DESIGN.md").split("C = `Classical.choice`.\n\n")[-1]
out += table
open(os.path.join(R, "DESIGN.md"), "w").write(out)
print("missing notes:", missing, "axioms:", len(ax))

#!/usr/bin/env python3
"""Writes MANIFEST.json from the table below; checks that the theorem names exist in the Lean sources."""
import json, re, pathlib, sys
root = pathlib.Path(__file__).resolve().parent.parent
props = [json.loads(l)["id"] for l in open(root / "properties.jsonl")]
claims = json.load(open(root / "tools" / "claims.json"))
names = set()
for f in (root / "lean" / "Verif").rglob("*.lean"):
    ns = []
    for line in open(f):
        m = re.match(r"namespace\s+(\S+)", line)
        if m: ns.append(m.group(1))
        m = re.match(r"end\s+(\S+)", line)
        if m and ns and ns[-1] == m.group(1): ns.pop()
        m = re.match(r"(?:private\s+|protected\s+)?theorem\s+(\S+)", line)
        if m: names.add(".".join(ns + [m.group(1)]))
out, bad = [], []
for p in props:
    c = claims.get(p)
    if c is None:
        continue
    for t in c["theorems"]:
        if t not in names: bad.append((p, t))
    out.append({"property": p, "status": c["status"], "theorems": c["theorems"], "note": c.get("note", "")})
json.dump({"claims": out}, open(root / "MANIFEST.json", "w"), indent=1)
print("claims:", len(out), "of", len(props))
if bad:
    print("unknown theorems:", bad); sys.exit(1)

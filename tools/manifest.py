#!/usr/bin/env python3
"""Rebuild MANIFEST.json from tools/claims.json and check every theorem name.

tools/claims.json maps a property to [status, note]; the theorems of a
property are the theorems of lean/Verif/Props whose name starts with its id.
"""
import json
import pathlib
import re

root = pathlib.Path(__file__).resolve().parent.parent
names = {}
for f in sorted((root / "lean/Verif/Props").glob("*.lean")):
    ns = []
    for line in f.read_text().splitlines():
        m = re.match(r"namespace (\S+)", line)
        if m:
            ns.append(m.group(1))
        m = re.match(r"end (\S+)", line)
        if m and ns and ns[-1] == m.group(1):
            ns.pop()
        m = re.match(r"theorem (C\d\d\w*)", line)
        if m:
            names.setdefault(re.match(r"C\d+", m.group(1)).group(0), []).append(".".join(ns + [m.group(1)]))
claims = json.loads((root / "tools/claims.json").read_text())
props = [json.loads(l)["id"] for l in (root / "properties.jsonl").read_text().splitlines() if l]
out = []
for p in props:
    if p not in claims:
        print("no claim for", p)
        continue
    status, note = claims[p]
    if p not in names and status != "not_applicable":
        print("no theorem for", p)
    out.append({"property": p, "status": status, "theorems": names.get(p, []), "note": note})
(root / "MANIFEST.json").write_text(
    '{"claims": [\n' + ",\n".join(json.dumps(c) for c in out) + "\n]}\n")
print(len(out), "claims,", sum(len(c["theorems"]) for c in out), "theorems")

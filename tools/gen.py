#!/usr/bin/env python3
"""Regenerates lean/Verif.lean and checks that every theorem named in MANIFEST.json exists in the sources."""
import json, pathlib, re
root = pathlib.Path(__file__).resolve().parent.parent
lean = root / "lean"
mods = sorted(str(p.relative_to(lean))[:-5].replace("/", ".") for p in (lean / "Verif").rglob("*.lean"))
(lean / "Verif.lean").write_text("".join(f"import {m}\n" for m in mods))
names = set()
for p in (lean / "Verif").rglob("*.lean"):
    ns = []
    for line in p.read_text().splitlines():
        m = re.match(r"namespace (\S+)", line)
        if m: ns.append(m.group(1)); continue
        m = re.match(r"end (\S+)", line)
        if m and ns and ns[-1] == m.group(1): ns.pop(); continue
        m = re.match(r"(?:private |protected )?theorem (\S+)", line)
        if m: names.add(".".join(ns + [m.group(1)]))
man = json.loads((root / "MANIFEST.json").read_text())
props = [json.loads(l)["id"] for l in (root / "properties.jsonl").read_text().splitlines() if l.strip()]
claimed = [c["property"] for c in man["claims"]]
for c in man["claims"]:
    for t in c["theorems"]:
        if t not in names: print("MISSING", c["property"], t)
print("no claim:", [p for p in props if p not in claimed], "unknown:", [c for c in claimed if c not in props])

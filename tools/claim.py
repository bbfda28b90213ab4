#!/usr/bin/env python3
"""claim.py ID STATUS "thm thm ..." "note": adds or replaces one claim in MANIFEST.json (names are in LvArray.Props)."""
import json, pathlib, sys
root = pathlib.Path(__file__).resolve().parent.parent
f = root / "MANIFEST.json"
m = json.loads(f.read_text())
pid, status, thms, note = sys.argv[1:5]
t = [x if x.startswith("LvArray.") else "LvArray.Props." + x for x in thms.split()]
m["claims"] = [c for c in m["claims"] if c["property"] != pid] + [{"property": pid, "status": status, "theorems": t, "note": note}]
m["claims"].sort(key=lambda c: c["property"])
f.write_text('{"claims": [\n' + ",\n".join(" " + json.dumps(c) for c in m["claims"]) + "\n]}\n")

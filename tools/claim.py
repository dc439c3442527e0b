#!/usr/bin/env python3
"""claim.py PROPERTY STATUS "note" THEOREM... : set the MANIFEST.json entry of a property.
claim.py PROPERTY + THEOREM... : add theorems to an existing entry."""
import json, sys, pathlib
p = pathlib.Path(__file__).resolve().parent.parent / "MANIFEST.json"
m = json.loads(p.read_text())
by = {c["property"]: c for c in m["claims"]}
prop, status = sys.argv[1], sys.argv[2]
if status == "+":
    c = by[prop]
    for t in sys.argv[3:]:
        if t not in c["theorems"]:
            c["theorems"].append(t)
else:
    assert status in ("proved", "partial", "not_applicable")
    by[prop] = {"property": prop, "status": status, "theorems": sys.argv[4:], "note": sys.argv[3]}
m["claims"] = [by[k] for k in sorted(by)]
p.write_text(json.dumps(m, indent=1) + "\n")

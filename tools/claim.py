#!/usr/bin/env python3
"""claim.py C01 proved thm1,thm2 note -- update MANIFEST.json"""
import json, os, sys
p = os.path.join(os.path.dirname(__file__), "..", "MANIFEST.json")
m = json.load(open(p)) if os.path.exists(p) else {"claims": []}
pid, status, thms, note = sys.argv[1:5]
e = {"property": pid, "status": status, "theorems": [t for t in thms.split(",") if t], "note": note}
m["claims"] = sorted([c for c in m["claims"] if c["property"] != pid] + [e], key=lambda c: c["property"])
json.dump(m, open(p, "w"), indent=1)

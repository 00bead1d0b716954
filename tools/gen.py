#!/usr/bin/env python3
"""Write properties.jsonl and MANIFEST.json from tools/props.py and tools/claims.py."""
import json, os, sys
here = os.path.dirname(os.path.abspath(__file__)); sys.path.insert(0, here)
from props import PROPS
root = os.path.dirname(here)
with open(os.path.join(root, "properties.jsonl"), "w") as f:
    for p in PROPS:
        f.write(json.dumps({k: v for k, v in p.items() if k != "plan"}, ensure_ascii=False) + "\n")
try:
    from claims import CLAIMS
except ImportError:
    CLAIMS = {}
claims = []
for p in PROPS:
    c = CLAIMS.get(p["id"])
    if c:
        claims.append({"property": p["id"], "status": c[0], "theorems": c[1], "note": c[2]})
json.dump({"claims": claims}, open(os.path.join(root, "MANIFEST.json"), "w"), indent=1, ensure_ascii=False)
print(len(PROPS), "properties;", len(claims), "claims;", "missing:", [p["id"] for p in PROPS if p["id"] not in CLAIMS])
# per-property section of DESIGN.md
d = os.path.join(root, "DESIGN.md"); t = open(d).read()
a, rest = t.split("<!-- PLAN-BEGIN -->"); _, b = rest.split("<!-- PLAN-END -->")
body = "\n"
for p in PROPS:
    c = CLAIMS.get(p["id"])
    body += f"* **{p['id']} {p['title']}.** {p['plan']}"
    if c:
        body += f" *Status: {c[0]}.* {c[2]}"
    body += "\n"
open(d, "w").write(a + "<!-- PLAN-BEGIN -->" + body + "<!-- PLAN-END -->" + b)

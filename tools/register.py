"""Adds one property: appends it to properties.jsonl, the plan and findings of DESIGN.md and lean/Verif.lean.

usage: register.py FILE.json with the keys property, plan, and optionally findings (list), modelled (list of table
rows), imports (list of modules)."""
import json
import sys

r = json.load(open(sys.argv[1]))
p = r["property"]
text = open("properties.jsonl").read().rstrip("\n")
if '"id": "%s"' % p["id"] not in text:
    open("properties.jsonl", "w").write(text + "\n" + json.dumps(p) + "\n")
d = open("DESIGN.md").read()
for row in r.get("modelled", []):
    if row not in d:
        d = d.replace("\n\n### Not modelled", "\n" + row + "\n\n### Not modelled", 1)
for f in r.get("findings", []):
    if f not in d:
        d = d.replace("\n\n## Plan per property", "\n" + f + "\n\n## Plan per property", 1)
line = "* **%s %s.** %s" % (p["id"], p["title"].rstrip("."), r["plan"])
if line not in d:
    d = d.rstrip("\n") + "\n" + line + "\n"
open("DESIGN.md", "w").write(d)
v = open("lean/Verif.lean").read()
for m in r.get("imports", []):
    if "import " + m + "\n" not in v:
        v = v.rstrip("\n") + "\nimport " + m + "\n"
open("lean/Verif.lean", "w").write(v)

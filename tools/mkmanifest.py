"""Regenerate MANIFEST.json from the theorem names in lean/Verif/Props and tools/status.json."""
import glob, json, re, os
root = os.path.dirname(os.path.dirname(os.path.abspath(__file__)))
thms = {}
for f in sorted(glob.glob(root + "/lean/Verif/Props/*.lean")):
    ns = "Convst.Props"
    for line in open(f):
        m = re.match(r"\s*(?:private )?theorem (C(\d\d+)_\S*)", line)
        if m:
            thms.setdefault("C" + m.group(2), []).append(ns + "." + m.group(1))
status = json.load(open(root + "/tools/status.json"))
claims = []
for line in open(root + "/properties.jsonl"):
    p = json.loads(line)
    i = p["id"]
    s = status.get(i, {})
    ts = thms.get(i, [])
    st = s.get("status") or ("proved" if ts else "partial")
    claims.append({"property": i, "status": st, "theorems": ts,
                   "note": s.get("note", "" if ts else "not yet proved")})
json.dump({"claims": claims}, open(root + "/MANIFEST.json", "w"), indent=1)
print(sum(bool(c["theorems"]) for c in claims), "claims with theorems of", len(claims))

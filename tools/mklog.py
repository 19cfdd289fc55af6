#!/usr/bin/env python3
"""usage: mklog.py MUTANTS.json OUT.jsonl LOG.jsonl : append one line per mutation attempt not yet logged."""
import json, os, sys
muts = {m["id"]: m for m in json.load(open(sys.argv[1]))}
log = sys.argv[3]
old = [json.loads(l) for l in open(log)] if os.path.exists(log) else []
done = {r.get("id") for r in old}
with open(log, "a") as f:
    for l in open(sys.argv[2]):
        r = json.loads(l)
        m = muts[r["id"]]
        if r["id"] in done or "error" in r:
            continue
        f.write(json.dumps({"id": r["id"], "definition": m["def"], "file": m["file"], "edit": m["edit"],
                            "claim": m["claim"], "proofs_broken": r["direct"], "theorems_failed": r["failed"],
                            "theorems_tightened": m.get("tightened", [])}) + "\n")

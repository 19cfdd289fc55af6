#!/usr/bin/env python3
"""Test the theorems against wrong programs, in a scratch copy.

usage: mutate.py MUTANTS.json OUT.jsonl

Each mutant is {"id", "file", "old", "new", "def", "edit", "claim"}.  The edit is applied to the model,
every declaration whose proof breaks is replaced by `sorry` until the project builds, and the theorems
named Cxx_.. that then depend on `sorry` are reported as failed.
"""
import json, os, re, subprocess, sys

BASE, WORK = "/tmp/mut_base", "/tmp/mut_work"
DECL = re.compile(r"^(?:@\[[^\]]*\]\s*)?(?:private |protected |noncomputable )*(theorem|lemma|example|def|instance|abbrev|structure|inductive|class|end|section|namespace|variable|open|set_option|/--|/-!|#)")

def sh(cmd, cwd=None, timeout=3000):
    p = subprocess.run(cmd, shell=True, cwd=cwd, capture_output=True, text=True, timeout=timeout)
    return p.returncode, p.stdout + p.stderr

def sorry_decl(path, line):
    L = open(path).read().split("\n")
    i = min(line - 1, len(L) - 1)
    while i >= 0 and not re.match(r"^(?:@\[[^\]]*\]\s*)?(?:private |protected |noncomputable )*(theorem|lemma|example|def|instance|abbrev|structure|inductive|class)\b", L[i]):
        i -= 1
    if i < 0:
        return None
    m = re.match(r"^(?:@\[[^\]]*\]\s*)?(?:private |protected |noncomputable )*(\w+)\s*(\S*)", L[i])
    kind, name = m.group(1), m.group(2)
    j = i + 1
    while j < len(L) and not DECL.match(L[j]):
        j += 1
    if kind not in ("theorem", "lemma", "example", "instance"):
        return (kind, name, None)
    k, pos, depth = None, None, 0
    for a in range(i, j):  # the first `:=` outside brackets
        b = 0
        while b < len(L[a]):
            ch = L[a][b]
            if ch in "([{⟨":
                depth += 1
            elif ch in ")]}⟩":
                depth -= 1
            elif depth == 0 and L[a].startswith(":=", b):
                k, pos = a, b
                break
            b += 1
        if k is not None:
            break
    if k is None:
        return (kind, name, None)
    L[k] = L[k][:pos] + ":= by sorry"
    L[k + 1:j] = [""] * (j - k - 1)  # keep line numbers
    open(path, "w").write("\n".join(L))
    return (kind, name if kind != "example" else "example@" + os.path.basename(path), True)

CHECK = '''import Verif
import Lean
open Lean Elab Command
run_cmd do
  let env ← getEnv
  let mut bad : Array Name := #[]
  let mut n : Nat := 0
  for (c, _) in env.constants.map₁.toList do
    if c.isInternal then continue
    let s := c.getString!
    if (`Convst.Props).isPrefixOf c && s.length > 4 && s.front == 'C' && (s.toList.getD 1 'x').isDigit then
      n := n + 1
      let ax ← liftCoreM (collectAxioms c)
      if ax.contains ``sorryAx then bad := bad.push c
  logInfo m!"TOTAL {n}"
  for b in bad do logInfo m!"BAD {b}"
'''

def run(m):
    sh(f"rm -rf {WORK}; cp -a {BASE} {WORK}")
    lean = WORK + "/lean"
    p = f"{lean}/Verif/{m['file']}"
    s = open(p).read()
    if s.count(m["old"]) != m.get("count", 1):
        return {"id": m["id"], "error": f"pattern occurs {s.count(m['old'])} times"}
    open(p, "w").write(s.replace(m["old"], m["new"]))
    direct, seen = [], set()
    for it in range(40):
        rc, out = sh("lake build 2>&1", cwd=lean)
        if rc == 0:
            break
        errs = sorted({(f, int(l)) for f, l in re.findall(r"error: (Verif/\S+?\.lean):(\d+):\d+", out)}, reverse=True)
        if not errs:
            return {"id": m["id"], "error": out[-1500:]}
        done = set()
        for f, l in errs:
            if f.startswith("Verif/Model") or f.startswith("Verif/Spec"):
                return {"id": m["id"], "error": "model: " + out[-1500:]}
            r = sorry_decl(f"{lean}/{f}", l)
            if r is None or r[2] is None:
                return {"id": m["id"], "error": f"cannot patch {f}:{l} {r} " + out[-800:]}
            key = (f, r[1])
            if key in done:
                continue
            done.add(key)
            if not r[1].startswith("example") and key in seen:
                return {"id": m["id"], "error": f"statement of {r[1]} broken " + out[-800:]}
            seen.add(key)
            direct.append(r[1])
    else:
        return {"id": m["id"], "error": "too many iterations"}
    open(lean + "/Check.lean", "w").write(CHECK)
    rc, out = sh("lake env lean Check.lean", cwd=lean)
    bad = sorted(x.replace("Convst.Props.", "") for x in re.findall(r"BAD (\S+)", out))
    tot = re.findall(r"TOTAL (\d+)", out)
    return {"id": m["id"], "direct": direct, "failed": bad, "total": tot[0] if tot else out[-500:]}

def main():
    muts = json.load(open(sys.argv[1]))
    out = sys.argv[2]
    done = set()
    if os.path.exists(out):
        done = {json.loads(l)["id"] for l in open(out)}
    for m in muts:
        if m["id"] in done:
            continue
        try:
            r = run(m)
        except subprocess.TimeoutExpired:
            r = {"id": m["id"], "error": "timeout"}
        with open(out, "a") as f:
            f.write(json.dumps(r) + "\n")
        print(r["id"], "ERR " + r["error"][:300] if "error" in r else f"{len(r['direct'])} direct, {len(r['failed'])} failed", flush=True)

main()

#!/usr/bin/env python3
"""Test the theorems against wrong programs, in a scratch copy, stopping at the first failures.

usage: mutate_fast.py MUTANTS.json OUT.jsonl

As mutate.py, but the build is stopped shortly after the first declaration whose proof breaks, and the theorems
reported as failed are the ones that depend on a broken declaration in the unedited project (deps.txt, written by
Deps.lean: one line per constant with the constants it uses).  A mutant no proof notices builds to the end.
"""
import json, os, re, signal, subprocess, sys, time

BASE, WORK = "/tmp/mut_base", "/tmp/mut_work"
HEAD = re.compile(r"^(?:@\[[^\]]*\]\s*)?(?:private |protected |noncomputable )*(theorem|lemma|example|def|instance|abbrev|structure|inductive|class)\b\s*(\S*)")
GRACE = 45

def users():
    up = {}
    for l in open(BASE + "/deps.txt"):
        w = l.split()
        for d in w[1:]:
            up.setdefault(d, set()).add(w[0])
    return up

UP = users()
ALL = set(UP) | {x for s in UP.values() for x in s}
BYLAST = {}
for c in ALL:
    BYLAST.setdefault(c.split(".")[-1], []).append(c)

def claims(names):
    out, todo = set(), []
    for n in names:
        todo += [c for c in BYLAST.get(n.split(".")[-1], []) if c.endswith(n)]
    seen = set(todo)
    while todo:
        c = todo.pop()
        if re.match(r"Convst\.Props\.C\d+_", c):
            out.add(c[len("Convst.Props."):])
        for d in UP.get(c, ()):
            if d not in seen:
                seen.add(d)
                todo.append(d)
    return sorted(out)

def decl(path, line):
    L = open(path).read().split("\n")
    for i in range(min(line - 1, len(L) - 1), -1, -1):
        m = HEAD.match(L[i])
        if m:
            return m.group(1), m.group(2)
    return None

def build(lean):
    p = subprocess.Popen("lake build 2>&1", shell=True, cwd=lean, stdout=subprocess.PIPE, text=True,
                         preexec_fn=os.setsid)
    os.set_blocking(p.stdout.fileno(), False)
    buf, stop, t0 = "", None, time.time()
    while True:
        try:
            s = p.stdout.read()
        except (BlockingIOError, TypeError):
            s = None
        if s:
            buf += s
        if stop is None:
            errs = re.findall(r"error: (Verif/\S+?\.lean):(\d+):\d+", buf)
            if any((decl(f"{lean}/{f}", int(l)) or ("", ""))[0] != "example" for f, l in errs):
                stop = time.time() + GRACE
        if p.poll() is not None:
            try:
                buf += p.stdout.read() or ""
            except (BlockingIOError, TypeError):
                pass
            return p.returncode, buf, False
        if (stop and time.time() > stop) or time.time() - t0 > 3000:
            os.killpg(p.pid, signal.SIGKILL)
            p.wait()
            return 1, buf, True
        time.sleep(0.5)

def run(m):
    subprocess.run(f"rm -rf {WORK}; cp -a {BASE} {WORK}", shell=True)
    lean = WORK + "/lean"
    p = f"{lean}/Verif/{m['file']}"
    s = open(p).read()
    if s.count(m["old"]) != m.get("count", 1):
        return {"id": m["id"], "error": f"pattern occurs {s.count(m['old'])} times"}
    open(p, "w").write(s.replace(m["old"], m["new"]))
    rc, out, cut = build(lean)
    if rc == 0:
        return {"id": m["id"], "direct": [], "failed": [], "total": "all"}
    direct = []
    for f, l in sorted(set(re.findall(r"error: (Verif/\S+?\.lean):(\d+):\d+", out))):
        if f.startswith("Verif/Model") or f.startswith("Verif/Spec"):
            return {"id": m["id"], "error": "model: " + out[-1500:]}
        d = decl(f"{lean}/{f}", int(l))
        n = "example@" + os.path.basename(f) if d is None or d[0] == "example" else d[1]
        if n not in direct:
            direct.append(n)
    if not direct:
        return {"id": m["id"], "error": out[-1500:]}
    return {"id": m["id"], "direct": direct, "failed": claims([d for d in direct if not d.startswith("example")]),
            "total": "first failures" if cut else "all reached"}

def main():
    muts = json.load(open(sys.argv[1]))
    out = sys.argv[2]
    done = set()
    if os.path.exists(out):
        done = {json.loads(l)["id"] for l in open(out)}
    for m in muts:
        if m["id"] in done:
            continue
        r = run(m)
        with open(out, "a") as f:
            f.write(json.dumps(r) + "\n")
        print(r["id"], "ERR " + r["error"][:300] if "error" in r else f"{len(r['direct'])} direct, {len(r['failed'])} failed", flush=True)

main()

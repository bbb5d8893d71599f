#!/usr/bin/env python3
"""Seeded bugs: edit one definition of the model in a scratch copy, rebuild, and see which theorems break.

usage: seed.py [id ...]      (run from /verif; without arguments all bugs of seeded/bugs.py not yet in the log)

For every bug of seeded/bugs.py the model is copied to /tmp/seed, the edit is made, and the modules holding the
theorems of the listed properties are built.  A declaration with an error is wrapped in `#guard_msgs (drop all)`,
which keeps it in the environment as an admitted theorem, and the build is repeated, so that one run shows all
broken theorems.  A theorem counts as failed if it has an error itself or depends on one that has."""
import json, os, re, shutil, subprocess, sys, time

ROOT = "/verif"
WORK = "/tmp/seed"
BASE = "/tmp/seedbase"
sys.path.insert(0, ROOT + "/seeded")
from bugs import BUGS

manifest = json.load(open(ROOT + "/MANIFEST.json"))["claims"]

def theorems_of(pid):
    for c in manifest:
        if c["property"] == pid:
            return c["theorems"]
    raise KeyError(pid)

def find_modules():
    """declaration short name -> module"""
    where = {}
    for d, _, fs in os.walk(BASE + "/Verif"):
        for f in fs:
            if f.endswith(".lean"):
                p = os.path.join(d, f)
                mod = os.path.relpath(p, BASE)[:-5].replace("/", ".")
                for m in re.finditer(r"^(?:@\[[^\]]*\]\s*)?(?:private\s+|protected\s+)?theorem\s+(\S+)", open(p).read(), re.M):
                    where.setdefault(m.group(1).split(".")[-1], mod)
    return where

def sync_base():
    os.makedirs(BASE, exist_ok=True)
    subprocess.run(["rsync", "-a", "--delete", ROOT + "/lean/", BASE + "/"], check=True) if shutil.which("rsync") else (
        shutil.rmtree(BASE), shutil.copytree(ROOT + "/lean", BASE, symlinks=True))

def fresh():
    shutil.rmtree(WORK, ignore_errors=True)
    shutil.copytree(BASE, WORK, symlinks=True)

def block(text, defn):
    m = re.search(r"^(?:def|abbrev|instance|structure|inductive)\s+" + re.escape(defn) + r"(?=[\s:({])", text, re.M)
    if not m:
        raise ValueError("no definition " + defn)
    e = re.search(r"\n\n|\n(?=/--)|\n(?=def )", text[m.start():])
    return m.start(), m.start() + (e.start() if e else len(text))

def apply(edits):
    for path, defn, old, new in edits:
        p = f"{WORK}/Verif/{path}.lean"
        t = open(p).read()
        s, e = block(t, defn)
        b = t[s:e]
        if b.count(old) != 1:
            raise ValueError(f"{defn}: {b.count(old)} occurrences of {old!r}")
        t = t[:s] + b.replace(old, new) + t[e:]
        open(p, "w").write(t)

DECL = re.compile(r"^(?:@\[[^\]]*\]\s*)?(?:private |protected |noncomputable )*(theorem|example|def|instance|abbrev|structure|inductive|lemma)\b\s*(\S*)")

def wrap(path, lines_with_errors):
    """Wrap the declarations around these lines; returns their names."""
    lines = open(path).read().split("\n")
    starts = [i for i, l in enumerate(lines) if DECL.match(l)]
    names, at = [], set()
    for n in lines_with_errors:
        c = [i for i in starts if i <= n - 1]
        if not c:
            continue
        i = c[-1]
        kind, name = DECL.match(lines[i]).groups()
        names.append((kind, name if kind != "example" else "example", i + 1))
        j = i
        # step over attributes and doc comment
        while j > 0 and (lines[j - 1].startswith("@[") and not DECL.match(lines[j - 1]) or lines[j - 1].startswith("open ") and lines[j - 1].endswith(" in")
                         or lines[j - 1].startswith("set_option") and lines[j - 1].endswith(" in")):
            j -= 1
        if j > 0 and lines[j - 1].rstrip().endswith("-/"):
            while j > 0 and "/-" not in lines[j - 1]:
                j -= 1
            j -= 1
        while j > 0 and lines[j - 1].startswith("set_option") and lines[j - 1].endswith(" in"):
            j -= 1
        # a declaration of a mutual block is wrapped with the block
        for i2 in range(j - 1, -1, -1):
            if lines[i2] == "end":
                break
            if lines[i2] == "mutual":
                j = i2
                break
        at.add(j)
    for j in sorted(at, reverse=True):
        if not (j > 0 and lines[j - 1].startswith("#guard_msgs")):
            lines.insert(j, "#guard_msgs (drop all) in")
    open(path, "w").write("\n".join(lines))
    return names

def drop_examples(out):
    """A false example can take all memory when it is evaluated: leave out those of the module that was killed."""
    n = 0
    for m in re.finditer(r"^- (Verif\S+)", out, re.M):
        p = f"{WORK}/{m.group(1).replace('.', '/')}.lean"
        t = open(p).read()
        parts = re.split(r"(?m)^(?=example\b)", t)
        new = parts[0]
        for q in parts[1:]:
            k = re.search(r"\n\n", q)
            k = k.start() if k else len(q)
            n += q[:k].count("decide +kernel")
            new += q[:k].replace("decide +kernel", "sorry") + q[k:]
        if n == 0 and "decide +kernel" in new:
            # No example is left: leave out what is evaluated in proofs, which then does not count as broken.
            n += new.count("decide +kernel")
            new = new.replace("decide +kernel", "sorry")
        open(p, "w").write(new)
    return n > 0

def build(targets, timeout):
    try:
        r = subprocess.run(["nice", "-n", "10", "taskset", "-c", "0,1", "lake", "build"] + targets, cwd=WORK,
                           stdout=subprocess.PIPE, stderr=subprocess.STDOUT, text=True, timeout=timeout)
        return r.returncode, r.stdout
    except subprocess.TimeoutExpired as ex:
        return None, (ex.stdout or b"").decode() if isinstance(ex.stdout, bytes) else (ex.stdout or "")

def run(bug, where):
    fresh()
    apply(bug["edits"])
    thms = [t for pid in bug["claims"] for t in theorems_of(pid)]
    shorts = [t.split(".")[-1] for t in thms]
    mods = sorted({where[s] for s in shorts})
    mods = [m for m in mods]
    broken, seen = [], set()
    t0 = time.time()
    for _ in range(25):
        rc, out = build(mods, 2400)
        if rc is None:
            return {"status": "timeout", "broken": broken}
        if rc == 0:
            break
        errs = {}
        for m in re.finditer(r"error: (Verif/\S+?\.lean):(\d+):\d+", out):
            errs.setdefault(m.group(1), set()).add(int(m.group(2)))
        if not errs and "exited with code 137" in out and drop_examples(out):
            continue
        if not errs:
            return {"status": "no error lines", "out": out[-2000:], "broken": broken}
        progress = False
        for f, ls in errs.items():
            for kind, name, line in wrap(f"{WORK}/{f}", sorted(ls)):
                key = (f, kind, name) if kind != "example" else (f, kind, len(broken))
                if key not in seen:
                    seen.add(key); progress = True
                    if kind in ("def", "instance", "abbrev", "structure", "inductive"):
                        if "/Model/" in f:
                            return {"status": "edit does not compile", "out": out[-3000:], "broken": broken}
                    broken.append(f"{f[6:-5]}: {name}")
        if not progress:
            return {"status": "stuck", "out": out[-3000:], "broken": broken}
    # which manifest theorems rest on broken ones
    chk = "\n".join(f"import {m}" for m in mods) + "\n" + "\n".join(f"#print axioms {t}" for t in thms)
    open(WORK + "/Chk.lean", "w").write(chk)
    r = subprocess.run(["lake", "env", "lean", "Chk.lean"], cwd=WORK, stdout=subprocess.PIPE, stderr=subprocess.STDOUT, text=True)
    txt = r.stdout.replace("\n ", " ")
    failed = []
    for t in thms:
        m = re.search(r"'" + re.escape(t) + r"' (depends on axioms: \[[^\]]*\]|does not depend)", txt)
        if not m or "sorryAx" in m.group(1):
            failed.append(t.split(".")[-1])
    return {"status": "ok", "failed": failed, "broken": broken, "secs": int(time.time() - t0)}

def main():
    ids = sys.argv[1:]
    sync_base()
    where = find_modules()
    res_path = "/tmp/seedwork/results.jsonl"
    done = set()
    if os.path.exists(res_path) and not ids:
        done = {json.loads(l)["id"] for l in open(res_path)}
    for bug in BUGS:
        if (ids and bug["id"] not in ids) or bug["id"] in done:
            continue
        try:
            r = run(bug, where)
        except Exception as ex:
            r = {"status": "exception " + repr(ex)}
        r["id"] = bug["id"]
        with open(res_path, "a") as f:
            f.write(json.dumps(r) + "\n")
        print(bug["id"], r["status"], len(r.get("failed", [])), r.get("secs"), flush=True)

main()

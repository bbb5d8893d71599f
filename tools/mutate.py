#!/usr/bin/env python3
"""Mechanical mutations of the model: change one token of one definition in a scratch copy, rebuild until the first
theorem breaks.  Examples are taken out of the copy first, so that only theorems count.

usage: mutate.py count | mutate.py run N [Module ...]     (N: mutations per definition, chosen by a fixed hash)
       mutate.py again      (the mutations that have survived, against the present theorems)
Results go to /tmp/mutwork/results.jsonl, mutations already there are skipped; those of `again` to again.jsonl."""
import hashlib, json, os, re, shutil, signal, subprocess, sys, time

ROOT, BASE, WORK, OUT = "/verif/lean", "/tmp/mutbase", "/tmp/mut", "/tmp/mutwork/results.jsonl"
START = re.compile(r"^(?:@\[|/--|/-|theorem|example|def|instance|abbrev|structure|inductive|lemma|end|namespace|open|section|set_option|variable|private|protected|noncomputable|mutual|deriving|#|local)")

def strip_examples(path):
    L = open(path).read().split("\n")
    out, i = [], 0
    while i < len(L):
        if re.match(r"example\b", L[i]):
            while out and out[-1].strip() == "":
                out.pop()
            # the comment right before it
            if out and out[-1].rstrip().endswith("-/"):
                j = len(out) - 1
                while not out[j].startswith("/-"):
                    j -= 1
                if out[j].startswith("/--"):
                    del out[j:]
            while out and re.match(r"set_option .* in$", out[-1]):
                out.pop()
            i += 1
            while i < len(L) and not START.match(L[i]):
                i += 1
            out.append("")
        else:
            out.append(L[i])
            i += 1
    open(path, "w").write("\n".join(out))

def defs(text):
    """(name, start, end) of the bodies of definitions"""
    res = []
    for m in re.finditer(r"^(?:def|abbrev)\s+(\S+)", text, re.M):
        e = re.search(r"\n(?=\n*(?:@\[|/--|/-!|theorem|example|def|instance|abbrev|structure|inductive|end|namespace|open|section|mutual|termination_by|decreasing_by|deriving))", text[m.start() + 1:])
        end = m.start() + 1 + (e.start() if e else len(text))
        # the signature ends at the first := or newline-bar
        body = re.search(r":=|\n\s*\|", text[m.start():end])
        if body:
            res.append((m.group(1), m.start() + body.start() + (2 if text[m.start() + body.start()] == ":" else 0), end))
    return res

RULES = [
    (r"(?<![\w.#])0x([0-9A-Fa-f]+)(?![\w])", lambda m: "0x%X" % (int(m.group(1), 16) ^ 1)),
    (r"(?<![\w.#])(\d+)(?![\w.])", lambda m: str(int(m.group(1)) + 1)),
    (r"(?<![\w.#])([1-9]\d*)(?![\w.])", lambda m: str(int(m.group(1)) - 1)),
    (r" < ", lambda m: " ≤ "), (r" ≤ ", lambda m: " < "), (r" > ", lambda m: " ≥ "), (r" ≥ ", lambda m: " > "),
    (r" = ", lambda m: " ≠ "), (r" ≠ ", lambda m: " = "), (r" == ", lambda m: " != "), (r" != ", lambda m: " == "),
    (r" ∨ ", lambda m: " ∧ "), (r" ∧ ", lambda m: " ∨ "), (r" \|\| ", lambda m: " && "), (r" && ", lambda m: " || "),
    (r"\btrue\b", lambda m: "false"), (r"\bfalse\b", lambda m: "true"),
    (r" \+ ", lambda m: " - "), (r" - ", lambda m: " + "), (r" <<< ", lambda m: " >>> "), (r" &&& ", lambda m: " ||| "),
    (r" \|\|\| ", lambda m: " &&& "),
    (r"\.drop ", lambda m: ".take "), (r"\.take ", lambda m: ".drop "),
    (r"\.ok \(\)", lambda m: ".err .fail"), (r"\.err \.fail\b", lambda m: ".panic"), (r"\.panic\b", lambda m: ".err .fail"),
    (r"\.err e\b", lambda m: ".err .fail"),
    (r" \+\+ (\w[\w.]*|\[[^\[\]]*\]|\([^()]*\)|\w+ \w+)(?=$|[\s)\]},])", lambda m: ""),
    (r"(\w[\w.]*|\[[^\[\]]*\]|\([^()]*\)) \+\+ ", lambda m: ""),
    (r"\((\w+), (\w+)\)", lambda m: f"({m.group(2)}, {m.group(1)})"),
    (r"\.1\b(?!\.)", lambda m: ".2"), (r"\.2\b(?!\.)", lambda m: ".1"),
    (r"\bsome (\w+|\([^()]*\))", lambda m: "none"), (r"\.reverse\b", lambda m: ""), (r"\bputBV (\w[\w.]*)", lambda m: f"(putBV {m.group(1)}).reverse"),
    (r"\.filter\b", lambda m: ".filter (fun _ => true) |>.filter"),
    (r":: (\w+)", lambda m: ":: []"), (r"\.tail\b", lambda m: ""), (r"!(?=\w)", lambda m: ""),
]

def strip_comments_spans(text):
    return [(m.start(), m.end()) for m in re.finditer(r"--[^\n]*|/-.*?-/", text, re.S)]

def mutants(mod):
    text = open(f"{BASE}/Verif/Model/{mod}.lean").read()
    com = strip_comments_spans(text)
    res = []
    for name, s, e in defs(text):
        seen = set()
        for k, (pat, f) in enumerate(RULES):
            for m in re.finditer(pat, text[s:e]):
                a, b = s + m.start(), s + m.end()
                if any(c <= a < d for c, d in com):
                    continue
                line_start = text.rfind("\n", 0, a) + 1
                # patterns of a match are left alone
                lhs = text[line_start:a]
                if re.match(r"\s*\|", lhs) and "=>" not in lhs:
                    continue
                if re.match(r"\s*let \(?[\w, ]*$", lhs):
                    continue
                new = text[:a] + f(m) + text[b:]
                if new in seen:
                    continue
                seen.add(new)
                res.append({"mod": mod, "def": name, "rule": k, "at": a, "line": text.count("\n", 0, a) + 1,
                            "old": text[line_start:text.find("\n", a)].strip(), "new": new[line_start:new.find("\n", a)].strip(), "text": new})
    return res

def key(m):
    return hashlib.sha1((m["mod"] + m["def"] + m["old"] + "=>" + m["new"] + str(m["rule"])).encode()).hexdigest()

def sync():
    shutil.rmtree(BASE, ignore_errors=True)
    shutil.copytree(ROOT, BASE, symlinks=True)
    for d in ("Props", "Lemmas", "Spec", "Model", "Base"):
        for f in os.listdir(f"{BASE}/Verif/{d}"):
            strip_examples(f"{BASE}/Verif/{d}/{f}")
    r = subprocess.run(["lake", "build"], cwd=BASE, capture_output=True, text=True)
    if r.returncode:
        print("\n".join(l for l in r.stdout.split("\n") if "error" in l)[:3000])
        sys.exit("base does not build")

def decl_at(path, line):
    L = open(path).read().split("\n")
    for i in range(min(line, len(L)) - 1, -1, -1):
        m = re.match(r"(?:@\[[^\]]*\]\s*)?(?:private |protected |noncomputable )*(theorem|lemma|def|instance|abbrev|structure|inductive)\b\s*(\S*)", L[i])
        if m:
            return m.groups()
    return ("?", "?")

def run(m):
    t0 = time.time()
    subprocess.run(["rsync", "-a", "--delete", BASE + "/", WORK + "/"], check=True) if shutil.which("rsync") else (
        shutil.rmtree(WORK, ignore_errors=True), shutil.copytree(BASE, WORK, symlinks=True))
    path = f"{WORK}/Verif/Model/{m['mod']}.lean"
    open(path, "w").write(m["text"])
    p = subprocess.Popen(["lake", "build"], cwd=WORK, stdout=subprocess.PIPE, stderr=subprocess.STDOUT, text=True, preexec_fn=os.setsid)
    res = {"status": "survived"}
    def alarm(*a):
        raise TimeoutError
    signal.signal(signal.SIGALRM, alarm)
    signal.alarm(900)
    try:
        for l in p.stdout:
            g = re.match(r"error: (?:\./)?(Verif/\S+\.lean):(\d+):", l)
            if g:
                kind, name = decl_at(f"{WORK}/{g.group(1)}", int(g.group(2)))
                if g.group(1).startswith("Verif/Model") and kind != "theorem":
                    res = {"status": "invalid", "where": g.group(1) + ": " + l.strip()[-100:]}
                else:
                    res = {"status": "killed", "where": f"{g.group(1)}: {kind} {name}"}
                break
            if "error: build failed" in l and res["status"] == "survived":
                res = {"status": "odd"}
    except TimeoutError:
        res = {"status": "timeout"}
    signal.alarm(0)
    try:
        os.killpg(p.pid, signal.SIGKILL)
    except ProcessLookupError:
        pass
    p.wait()
    res["secs"] = int(time.time() - t0)
    return res

def main():
    mods = sorted(f[:-5] for f in os.listdir(ROOT + "/Verif/Model"))
    if sys.argv[1] == "count":
        global BASE
        BASE = ROOT
        n = 0
        for mod in mods:
            k = mutants(mod)
            n += len(k)
            print(mod, len(k), len({x["def"] for x in k}))
        print(n)
        return
    again = sys.argv[1] == "again"
    per = 10 ** 9 if again else int(sys.argv[2])
    os.makedirs("/tmp/mutwork", exist_ok=True)
    sync()
    done = set()
    if os.path.exists(OUT):
        last = {r["key"]: r["status"] for r in map(json.loads, open(OUT))}
        done = set(last)
    todo = []
    for mod in (sys.argv[3:] or mods):
        by = {}
        for x in mutants(mod):
            x["key"] = key(x)
            by.setdefault(x["def"], []).append(x)
        for d, xs in by.items():
            xs.sort(key=lambda x: x["key"])
            todo += [(i, x) for i, x in enumerate(xs[:per])]
    todo.sort(key=lambda p: p[0])
    if again:
        seen = set()
        if os.path.exists("/tmp/mutwork/again.jsonl"):
            seen = {json.loads(l)["key"] for l in open("/tmp/mutwork/again.jsonl")}
        todo = [x for _, x in todo if last.get(x["key"]) == "survived" and x["key"] not in seen]
    else:
        todo = [x for _, x in todo if x["key"] not in done]
    print(len(todo), "mutations", flush=True)
    for x in todo:
        if os.path.exists("/tmp/mutwork/stop"):
            break
        r = run(x)
        del x["text"]
        x.update(r)
        with open("/tmp/mutwork/again.jsonl" if again else OUT, "a") as f:
            f.write(json.dumps(x) + "\n")
        print(x["status"], x["secs"], x["mod"], x["def"], "|", x["old"][:80], "=>", x["new"][:80], "|", x.get("where", "")[:80], flush=True)

main()

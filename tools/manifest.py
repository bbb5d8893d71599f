#!/usr/bin/env python3
"""Write MANIFEST.json from the claims listed here; checks that every theorem name exists."""
import json, re, pathlib, sys
root = pathlib.Path(__file__).resolve().parent.parent
claims = []
def claim(pid, status, theorems, note=""):
    claims.append({"property": pid, "status": status, "theorems": theorems, "note": note})
exec((root / "tools" / "claims.py").read_text())
names = set()
for f in (root / "lean" / "Verif").rglob("*.lean"):
    ns = []
    for line in f.read_text().splitlines():
        m = re.match(r"namespace\s+(\S+)", line)
        if m: ns.append(m.group(1))
        m = re.match(r"end\s+(\S+)", line)
        if m and ns and ns[-1] == m.group(1): ns.pop()
        m = re.match(r"(?:@\[[^\]]*\]\s*)?theorem\s+(\S+)", line)
        if m: names.add(".".join(ns + [m.group(1)]))
full = {}
for n in names: full.setdefault(n.split(".")[-1], []).append(n)
bad = [t for c in claims for t in c["theorems"] if len(full.get(t, [])) != 1]
if bad:
    print("unknown or ambiguous theorems:", bad); sys.exit(1)
for c in claims: c["theorems"] = [full[t][0] for t in c["theorems"]]
ids = [json.loads(l)["id"] for l in (root / "properties.jsonl").read_text().splitlines() if l.strip()]
have = [c["property"] for c in claims]
print("missing:", [i for i in ids if i not in have], "unknown:", [i for i in have if i not in ids])
(root / "MANIFEST.json").write_text(json.dumps({"claims": claims}, indent=1) + "\n")

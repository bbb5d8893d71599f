#!/usr/bin/env python3
"""Write seeded/LOG.jsonl from seeded/bugs.py and the results of tools/seed.py.

usage: seedlog.py      (run from /verif)

/tmp/seedwork/first.jsonl holds the attempts which no theorem noticed (a line with `mutation`
is the same edit seen surviving by tools/mutate.py), /tmp/seedwork/results.jsonl the others and the
attempts repeated after tightening.  Lines already in the log are kept."""
import json, os, sys
sys.dont_write_bytecode = True
sys.path.insert(0, "/verif/seeded")
from bugs import BUGS, TIGHTENED

LOG = "/verif/seeded/LOG.jsonl"
bugs = {b["id"]: b for b in BUGS}

def edit(b):
    return "; ".join(f"{p}: {old!r} -> {new!r}" for p, _, old, new in b["edits"])

def line(r, tightened):
    b = bugs[r["id"]]
    return {"definition": ", ".join(dict.fromkeys(d for _, d, _, _ in b["edits"])), "edit": edit(b), "bug": b["why"],
            "claim": " ".join(b["claims"]), "failed": r["failed"], "tightened": tightened, "id": r["id"]}

def load(p):
    return [json.loads(l) for l in open(p)] if os.path.exists(p) else []

old = load(LOG)
seen = {(l["id"], bool(l["failed"])) for l in old}
new = list(old)
for r in load("/tmp/seedwork/first.jsonl"):
    if (r["id"], False) not in seen and r["id"] in bugs:
        new.append(line(r, TIGHTENED.get(r["id"], [])))
        seen.add((r["id"], False))
for r in load("/tmp/seedwork/results.jsonl"):
    if r["status"] == "ok" and r["failed"] and (r["id"], True) not in seen:
        new.append(line(r, []))
        seen.add((r["id"], True))
with open(LOG, "w") as f:
    for l in new:
        f.write(json.dumps(l, ensure_ascii=False) + "\n")
print(len(new), "attempts,", len({l["id"] for l in new}), "bugs; never caught:",
      sorted({l["id"] for l in new} - {l["id"] for l in new if l["failed"]}))

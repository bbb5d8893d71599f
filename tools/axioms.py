#!/usr/bin/env python3
"""Write AXIOMS.md: the axioms of every theorem of MANIFEST.json, as `#print axioms` gives them."""
import json, pathlib, re, subprocess, tempfile
root = pathlib.Path(__file__).resolve().parent.parent
m = json.loads((root / "MANIFEST.json").read_text())
ths = sorted({t for c in m["claims"] for t in c["theorems"]})
with tempfile.NamedTemporaryFile("w", suffix=".lean", delete=False) as f:
    f.write("import Verif\n" + "".join(f"#print axioms {t}\n" for t in ths))
out = subprocess.run(["lake", "env", "lean", f.name], cwd=root / "lean", capture_output=True, text=True).stdout
groups = {}
for t in ths:
    g = re.search(r"'" + re.escape(t) + r"' depends on axioms: \[([^\]]*)\]", out)
    if not g and f"'{t}' does not depend on any axioms" not in out: raise SystemExit(f"no output for {t}")
    key = " ".join(g.group(1).split()) if g else "none"
    groups.setdefault(key, []).append(t)
lines = ["# Axioms", "", "Output of `#print axioms` for the theorems of MANIFEST.json, written by `tools/axioms.py`.", ""]
for k in sorted(groups, key=lambda k: (len(k), k)):
    lines += [f"## {k} ({len(groups[k])} theorems)", ""] + [f"* `{t}`" for t in groups[k]] + [""]
(root / "AXIOMS.md").write_text("\n".join(lines))
print({k: len(v) for k, v in groups.items()})

"""Write AXIOMS.md: the axioms of every theorem named in MANIFEST.json, as printed by Lean."""
import json, pathlib, re, subprocess
root = pathlib.Path(__file__).resolve().parent.parent
names = [t for c in json.load(open(root / "MANIFEST.json"))["claims"] for t in c["theorems"]]
tmp = pathlib.Path("/tmp/axioms_check.lean")
tmp.write_text("import Verif\n" + "\n".join(f"#print axioms {n}" for n in names) + "\n")
out = subprocess.run(["lake", "env", "lean", str(tmp)], cwd=root / "lean", capture_output=True, text=True).stdout
out = re.sub(r"\n\s+", " ", out)
ax = {}
for m in re.finditer(r"'([^']+(?:'+)?)' (depends on axioms: \[([^\]]*)\]|does not depend on any axioms)", out):
    ax[m.group(1)] = m.group(3) or "none"
groups = {}
for n in names:
    groups.setdefault(ax.get(n, "?"), []).append(n)
lines = ["# Axioms", "", "Generated by `tools/axioms.py` from `#print axioms`.", ""]
for a, ns in sorted(groups.items(), key=lambda x: -len(x[1])):
    lines += [f"## {a} ({len(ns)} theorems)", ""] + [f"* `{n}`" for n in ns] + [""]
(root / "AXIOMS.md").write_text("\n".join(lines))
print({a: len(ns) for a, ns in groups.items()})

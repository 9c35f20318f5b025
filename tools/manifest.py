"""Regenerate MANIFEST.json from the theorem names in lean/Verif/Props.

A theorem called `Cnn_...` belongs to property Cnn.  STATUS/NOTES come from tools/status.json.
"""
import json, re, pathlib

root = pathlib.Path(__file__).resolve().parent.parent
thms = {}
for f in sorted((root / "lean/Verif").rglob("*.lean")):
    ns = []
    for line in f.read_text().splitlines():
        if m := re.match(r"namespace (\S+)", line):
            ns.append(m.group(1))
        elif m := re.match(r"end (\S+)", line):
            if ns and ns[-1] == m.group(1):
                ns.pop()
        elif m := re.match(r"theorem ((C\d+)_\S+)", line):
            thms.setdefault(m.group(2), []).append(".".join(ns + [m.group(1)]))
status = json.loads((root / "tools/status.json").read_text())
claims = []
for l in (root / "properties.jsonl").read_text().splitlines():
    pid = json.loads(l)["id"]
    s = status.get(pid)
    if s is None and pid not in thms:
        continue
    if s is None:
        raise SystemExit(f"no status for {pid}")
    if not thms.get(pid):
        raise SystemExit(f"no theorems for {pid}")
    claims.append(dict(property=pid, status=s[0], theorems=thms.get(pid, []), note=s[1]))
(root / "MANIFEST.json").write_text(json.dumps({"claims": claims}, indent=1) + "\n")
print(len(claims), "claims", sum(len(c["theorems"]) for c in claims), "theorems")

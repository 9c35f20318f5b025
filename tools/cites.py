"""Print every citation in the Lean model with the first cited source line, for review."""
import re, sys, pathlib
root = pathlib.Path(__file__).resolve().parent.parent / "lean/Verif/Model"
for f in sorted(root.glob("*.lean")):
    if len(sys.argv) > 1 and f.stem not in sys.argv[1:]:
        continue
    text = f.read_text().splitlines()
    for n, line in enumerate(text, 1):
        for m in re.finditer(r"(/repo/[\w/\.]+\.py):((?:\d+(?:-\d+)?(?:, )?)+)", line):
            src = pathlib.Path(m.group(1)).read_text().splitlines()
            for r in m.group(2).split(", "):
                if not r: continue
                a = int(r.split("-")[0]); b = int(r.split("-")[-1])
                print(f"{f.stem}:{n} {pathlib.Path(m.group(1)).name}:{r} | {src[a-1].strip()[:60]} ... {src[b-1].strip()[:40]}")

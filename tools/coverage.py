"""Write COVERAGE.md: for every function of /repo/src, the model definitions whose comment cites its lines."""
import ast, pathlib, re
root = pathlib.Path(__file__).resolve().parent.parent
src = pathlib.Path("/repo/src/ring")
cites = {}
DEF = re.compile(r"^(?:@\[[^\]]*\]\s*)?(?:noncomputable |private |protected )*(?:def|structure|abbrev|inductive|instance|class)\s+(\S+)")
for f in sorted((root / "lean/Verif/Model").glob("*.lean")):
    lines = f.read_text().splitlines()
    n = 0
    while n < len(lines):
        if lines[n].lstrip().startswith("/--"):
            block = []
            while True:
                block.append(lines[n])
                if "-/" in lines[n]:
                    break
                n += 1
            text = " ".join(b.strip() for b in block)
            name = None
            for m in range(n + 1, min(n + 6, len(lines))):
                d = DEF.match(lines[m].strip())
                if d:
                    name = d.group(1)
                    break
                if lines[m].startswith("/--"):
                    break
            if name is None:
                name = "(field)"
            for m in re.finditer(r"/repo/([\w/\.]+\.py):((?:\d+(?:-\d+)?(?:, (?=\d))?)+)", text):
                for r in m.group(2).split(", "):
                    if r:
                        a, b = int(r.split("-")[0]), int(r.split("-")[-1])
                        cites.setdefault(m.group(1), []).append((a, b, f.stem, name))
        n += 1
out = ["# Which code is modelled", "",
       "Generated by `tools/coverage.py` from the line citations in `lean/Verif/Model`. For every function of the",
       "package: the model definitions that cite lines of it. A dash means that the function is not modelled.", ""]
tot = done = 0
for f in sorted(src.rglob("*.py")):
    if f.name.startswith("test_"):
        continue
    rel = "src/ring/" + str(f.relative_to(src))
    tree = ast.parse(f.read_text())
    rows = []
    def visit(node, prefix):
        global tot, done
        for c in ast.iter_child_nodes(node):
            if isinstance(c, (ast.FunctionDef, ast.AsyncFunctionDef)):
                a = min([c.lineno] + [d.lineno for d in c.decorator_list]); b = c.end_lineno
                hit = []
                for (x, y, mod, name) in cites.get(rel, []):
                    if x <= b and y >= c.lineno:
                        w = f"{mod}.{name}"
                        if w not in hit:
                            hit.append(w)
                tot += 1
                done += bool(hit)
                shown = ", ".join(f"`{h}`" for h in hit[:6]) + (f" and {len(hit)-6} more" if len(hit) > 6 else "")
                rows.append(f"| `{prefix}{c.name}` | {c.lineno}-{b} | {shown or '–'} |")
            elif isinstance(c, ast.ClassDef):
                visit(c, prefix + c.name + ".")
    visit(tree, "")
    if rows:
        out += [f"## {rel}", "", "| function | lines | model |", "|---|---|---|"] + rows + [""]
out.insert(5, f"{done} of {tot} functions and methods are cited.\n")
(root / "COVERAGE.md").write_text("\n".join(out))
print(done, tot)

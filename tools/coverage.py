"""List the functions of /repo/src/cmomy and the model definitions whose comments cite their lines.

Citations are read as written: `file.py:10-20`, `:30`, several per comment. A function counts as cited when
some cited line range meets its body.
"""
import ast, collections, pathlib, re, sys

SRC = pathlib.Path("/repo/src/cmomy")
MODEL = pathlib.Path(__file__).resolve().parent.parent / "lean" / "Verif" / "Model"

files = {str(p.relative_to(SRC)): p for p in sorted(SRC.rglob("*.py"))}
cited = collections.defaultdict(list)


def resolve(name):
    c = [f for f in files if f == name or f.endswith("/" + name)]
    return c


for f in sorted(MODEL.glob("*.lean")):
    text = f.read_text()
    for com in re.findall(r"/-[-!](.*?)-/", text, re.S):
        last = None
        for m in re.finditer(r"(?:(?P<file>[\w/]+\.py)(?::(?P<l>[\d,\- ]+))?)|`:(?P<m>[\d,\-]+)", com):
            if m["file"]:
                last = resolve(m["file"])
            spec = m["l"] or m["m"]
            if last and spec:
                for part in spec.split(","):
                    part = part.strip().strip("-")
                    if not part:
                        continue
                    a, _, b = part.partition("-")
                    try:
                        for q in last:
                            cited[q].append((int(a), int(b or a), f.stem))
                    except ValueError:
                        pass

tot = hit = 0
for name, p in files.items():
    tree = ast.parse(p.read_text())
    rows = []

    def walk(node, prefix=""):
        for ch in ast.iter_child_nodes(node):
            if isinstance(ch, (ast.FunctionDef, ast.AsyncFunctionDef)):
                if any("overload" in ast.unparse(d) for d in ch.decorator_list):
                    continue
                body = ch.body
                if len(body) == 1 and isinstance(body[0], ast.Expr):
                    continue
                s = {c[2] for c in cited[name] if c[0] <= ch.end_lineno and c[1] >= ch.lineno}
                rows.append((ch.lineno, ch.end_lineno, prefix + ch.name, sorted(s)))
            elif isinstance(ch, ast.ClassDef):
                walk(ch, prefix + ch.name + ".")
            elif isinstance(ch, (ast.If, ast.Try)):
                walk(ch, prefix)

    walk(tree)
    if not rows:
        continue
    n = sum(1 for r in rows if r[3])
    tot += len(rows)
    hit += n
    print(f"\n## {name}: {n}/{len(rows)}")
    for a, b, fn, s in rows:
        if s or "-v" in sys.argv:
            print(f"  {a}-{b} {fn}: {', '.join(s) or '-'}")
print(f"\n{hit}/{tot}")

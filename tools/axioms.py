"""Write AXIOMS.md: the axioms used by every theorem named in MANIFEST.json. Needs a finished `lake build`."""
import collections, json, pathlib, re, subprocess

ROOT = pathlib.Path(__file__).resolve().parent.parent
names = [t for c in json.loads((ROOT / "MANIFEST.json").read_text())["claims"] for t in c["theorems"]]
src = "import Verif\n" + "".join(f"#print axioms {n}\n" for n in names)
tmp = pathlib.Path("/tmp/print_axioms.lean")
tmp.write_text(src)
out = subprocess.run(["lake", "env", "lean", str(tmp)], cwd=ROOT / "lean", capture_output=True, text=True)
text = re.sub(r"\s+", " ", out.stdout)
groups = collections.defaultdict(list)
found = 0
for m in re.finditer(r"'([^']+)' (?:depends on axioms: \[([^\]]*)\]|does not depend on any axioms)", text):
    groups[m[2] or "none"].append(m[1])
    found += 1
if found != len(names) or out.returncode:
    raise SystemExit(f"{found} of {len(names)}\n{out.stdout[:2000]}{out.stderr[:2000]}")
lines = ["# Axioms per theorem", "", "Written by `tools/axioms.py` from `#print axioms`.", ""]
for g, ts in sorted(groups.items(), key=lambda kv: -len(kv[1])):
    lines += [f"## {g} ({len(ts)} theorems)", ""] + [f"* `{t}`" for t in sorted(ts)] + [""]
(ROOT / "AXIOMS.md").write_text("\n".join(lines))
print({g: len(t) for g, t in groups.items()})

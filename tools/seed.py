#!/usr/bin/env python3
"""Run the theorems against wrong programs.

usage: seed.py seeds.json [name ...]

seeds.json is a list of {"name", "file", "definition", "old", "new", "claim", "breaks"}.
For every seed a scratch copy of lean/ (outside /verif) is edited, then rebuilt. A declaration
that no longer compiles has its proof replaced by `sorry` in the scratch copy, and the build
is repeated until it passes; the theorems that failed are the ones whose proof then depends on
`sorry`. One JSON line per seed goes to seeded/LOG.jsonl.
"""
import json, pathlib, re, shutil, subprocess, sys

ROOT = pathlib.Path(__file__).resolve().parent.parent
WORK = pathlib.Path("/tmp/seed/lean")
DECL = re.compile(r"^(?:@\[[^\]]*\]\s*)?(?:private |protected |noncomputable )*"
                  r"(theorem|lemma|def|example|instance|abbrev|structure|inductive)\b\s*(\S*)")
TOP = re.compile(r"^(@\[|private |protected |noncomputable |theorem|lemma|def |example|instance|abbrev|"
                 r"structure|inductive|/--|/-!|section|end\b|namespace|open |variable|omit|include|set_option|--)")


BASE = pathlib.Path("/tmp/seed/base")


def refresh():
    """Snapshot of the last commit, built."""
    shutil.rmtree(BASE, ignore_errors=True)
    BASE.mkdir(parents=True)
    subprocess.run(f"git -C {ROOT} archive HEAD | tar x -C {BASE}", shell=True, check=True)
    if (ROOT / "lean" / ".lake").exists():
        shutil.copytree(ROOT / "lean" / ".lake", BASE / "lean" / ".lake", symlinks=True)
    subprocess.run(["lake", "build"], cwd=BASE / "lean", check=True, capture_output=True)


def sync():
    shutil.rmtree(WORK, ignore_errors=True)
    shutil.copytree(BASE / "lean", WORK, symlinks=True)


def build():
    p = subprocess.run(["lake", "build"], cwd=WORK, capture_output=True, text=True)
    out = p.stdout + p.stderr
    errs = re.findall(r"^error: (\S+?\.lean):(\d+):(\d+):? (.*)$", out, re.M)
    return p.returncode, [(f, int(l), m) for f, l, _, m in errs], out


def split_decl(lines, line):
    """Index range of the declaration around 0-based `line`."""
    a = line
    while a >= 0 and not DECL.match(lines[a]):
        a -= 1
    b = a + 1
    while b < len(lines) and not TOP.match(lines[b]):
        b += 1
    return a, b


def assign_pos(text):
    depth, i = 0, 0
    while i < len(text):
        c = text[i]
        if c in "([{⟨":
            depth += 1
        elif c in ")]}⟩":
            depth -= 1
        elif depth == 0 and text.startswith(":=", i):
            ls = text.rfind("\n", 0, i) + 1
            if not re.search(r"\b(let|have)\b", text[ls:i]):
                return i
        elif depth == 0 and re.match(r"\swhere\s*\n", text[i:]):
            return -1
        elif depth == 0 and re.match(r"\n\s*\|", text[i:]):
            return -2
        i += 1
    return -3


def cut(path, line):
    """Replace the proof around 1-based `line` by sorry; return the declaration name."""
    lines = path.read_text().split("\n")
    a, b = split_decl(lines, line - 1)
    if a < 0:
        return None
    m = DECL.match(lines[a])
    name = m[2] if m[1] != "example" else f"example@{a + 1}"
    text = "\n".join(lines[a:b])
    if m[1] in ("def", "abbrev", "structure", "inductive") and assign_pos(text) != -1:
        return None
    pos = assign_pos(text)
    if pos >= 0:
        new = text[:pos] + ":= by sorry\n"
    elif pos == -1:
        # structure instance: replace the field around the line
        f = line - 1
        while f > a and not re.match(r"^  \S", lines[f]):
            f -= 1
        g = f + 1
        while g < b and (not lines[g].strip() or lines[g].startswith("   ")):
            g += 1
        ft = "\n".join(lines[f:g])
        p = assign_pos(ft)
        if p < 0:
            return None
        fname = ft.split()[0]
        name = f"{name}.{fname}"
        new = "\n".join(lines[a:f]) + "\n" + ft[:p] + ":= by sorry\n" + "\n".join(lines[g:b])
    else:
        return None
    if m[1] == "example":
        new = "example : True := trivial\n"
    before = "\n".join(lines[:a])
    after = "\n".join(lines[b:])
    path.write_text(before + "\n" + new + "\n" + after)
    return name


def run(seed):
    sync()
    path = WORK / seed["file"]
    src = path.read_text()
    if src.count(seed["old"]) != 1:
        return {"error": f"old text occurs {src.count(seed['old'])} times"}
    path.write_text(src.replace(seed["old"], seed["new"]))
    broken = []
    for _ in range(60):
        rc, errs, out = build()
        if rc == 0:
            break
        errs = [e for e in errs]
        if not errs:
            return {"error": "build failed without located errors", "out": out[-2000:]}
        if any(f == seed["file"] for f, _, _ in errs):
            return {"error": "edited model does not compile", "out": str(errs[:3])}
        byfile = {}
        for f, l, m in errs:
            byfile.setdefault(f, set()).add(l)
        progress = False
        for f, ls in byfile.items():
            # one cut per declaration (per field of a structure instance), bottom up, with the
            # positions taken from the text the errors refer to
            text = (WORK / f).read_text().split("\n")
            targets = {}
            for l in ls:
                l = min(l, len(text))
                d, e = split_decl(text, l - 1)
                g = d
                if d >= 0 and assign_pos("\n".join(text[d:e])) == -1:
                    g = l - 1
                    while g > d and not re.match(r"^  \S", text[g]):
                        g -= 1
                targets.setdefault((d, g), l)
            for key in sorted(targets, reverse=True):
                n = cut(WORK / f, targets[key])
                if n:
                    progress = True
                    broken.append(f"{n} ({f})")
        if not progress or any(broken.count(b) > 3 for b in broken):
            return {"error": "cannot isolate", "out": str(errs[:5]), "broken": broken}
    else:
        return {"error": "too many rounds", "broken": broken}
    man = json.loads((BASE / "MANIFEST.json").read_text())
    thms = [t for c in man["claims"] for t in c["theorems"]]
    chk = "import Verif\n" + "\n".join(f"#print axioms {t}" for t in thms) + "\n"
    (WORK / "Chk.lean").write_text(chk)
    p = subprocess.run(["lake", "env", "lean", "Chk.lean"], cwd=WORK, capture_output=True, text=True)
    out = p.stdout.replace("\n ", " ")
    failed = [m[1] for m in re.finditer(r"'(\S+)' depends on axioms: \[([^\]]*)\]", out) if "sorryAx" in m[2]]
    (WORK / "Chk.lean").unlink()
    if re.search(r"\d: error", out):
        return {"error": "axiom check failed", "out": out[-1500:]}
    return {"failed": failed, "broken": broken}


def main():
    refresh()
    seeds = json.loads(pathlib.Path(sys.argv[1]).read_text())
    only = set(sys.argv[2:])
    log = ROOT / "seeded" / "LOG.jsonl"
    done = set()
    if log.exists():
        done = {json.loads(l).get("name") for l in log.read_text().splitlines() if l.strip()}
    man = json.loads((BASE / "MANIFEST.json").read_text())
    by = {c["property"]: c["theorems"] for c in man["claims"]}
    for s in seeds:
        if only and s["name"] not in only or (not only and s["name"] in done):
            continue
        r = run(s)
        if "error" in r:
            print("ERROR", s["name"], r, flush=True)
            continue
        short = [t.replace("Cmomy.", "") for t in r["failed"]]
        claims = s["claim"] if isinstance(s["claim"], list) else [s["claim"]]
        surv = [t.replace("Cmomy.", "") for c in claims for t in by[c] if t not in r["failed"]]
        entry = {"name": s["name"], "definition": s["definition"], "file": s["file"],
                 "edit": {"old": s["old"], "new": s["new"]}, "claim": claims, "breaks": s["breaks"],
                 "failed": short, "lemmas_failed": [b for b in r["broken"]],
                 "claim_theorems_still_proved": surv, "tightened": s.get("tightened", []),
                 "remark": s.get("remark", "")}
        caught = {c: [t for t in short if t.startswith(c + "_")] for c in claims}
        ok = all(caught.values())
        entry["caught"] = ok
        with log.open("a") as fh:
            fh.write(json.dumps(entry, ensure_ascii=False) + "\n")
        print("OK " if ok else "SURVIVED ", s["name"], {c: len(v) for c, v in caught.items()},
              "of", {c: len(by[c]) for c in claims}, "total failed", len(short), flush=True)


main()

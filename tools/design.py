#!/usr/bin/env python3
"""Regenerate the generated sections of DESIGN.md from the Lean sources and MANIFEST.json.

Usage: tools/design.py [--axioms]   (--axioms runs `#print axioms` for all claimed theorems; needs a build)
"""
import json, os, re, subprocess, sys, tempfile
ROOT = os.path.dirname(os.path.dirname(os.path.abspath(__file__)))
REPO = "/repo"
LEAN = os.path.join(ROOT, "lean")
manifest = json.load(open(os.path.join(ROOT, "MANIFEST.json")))["claims"]
props = {q["id"]: q for q in map(json.loads, open(os.path.join(ROOT, "properties.jsonl")))}
design = open(os.path.join(ROOT, "DESIGN.md")).read()

def section(name, body):
    global design
    a, b = f"<!-- begin {name} -->", f"<!-- end {name} -->"
    i, j = design.index(a) + len(a), design.index(b)
    design = design[:i] + "\n" + body.rstrip() + "\n" + design[j:]

# --- violations
rows = []
for c in manifest:
    if c["status"] == "partial":
        neg = [t.rsplit(".", 1)[1] for t in c["theorems"] if "_fails" in t or "_counterexample" in t or "_leak" in t or "_diverges" in t]
        rows.append(f"* **{c['property']}** {props[c['property']]['title']}. {c['note']}" + (f" Negations: {', '.join('`%s`' % n for n in neg)}." if neg else ""))
section("violations", "\n".join(rows))

# --- modelled code
allpy = []
for d, _, fs in os.walk(os.path.join(REPO, "hermespy")):
    for f in fs:
        if f.endswith(".py") and f != "__init__.py":
            allpy.append(os.path.relpath(os.path.join(d, f), REPO))
def resolve(name, context):
    """A cited path may be relative; prefer the candidate closest to the full paths of the module's header."""
    cand = [p for p in allpy if p == name or p.endswith("/" + name)]
    if not cand: return None
    score = lambda p: max([len(os.path.commonprefix([p, c])) for c in context] or [0])
    return max(cand, key=lambda p: (score(p), -len(p)))
cited = {}
pat = re.compile(r"`((?:[\w{},.]+/)*[\w{},]+\.py)`?((?:[ :,]*(?:and |lines? )?\d+(?:-\d+)?\b)*)")
for d, _, fs in os.walk(os.path.join(LEAN, "Verif")):
    for f in sorted(fs):
        if not f.endswith(".lean"): continue
        src = open(os.path.join(d, f)).read()
        mod = os.path.relpath(os.path.join(d, f), LEAN)[:-5].replace("/", ".")
        context = re.findall(r"hermespy/[\w/]+", src)
        text = re.sub(r"\s*\n\s*", " ", src)
        for m in pat.finditer(text):
            name = m.group(1)
            names = [name]
            br = re.match(r"(.*)\{(.*)\}(.*)", name)
            if br: names = [br.group(1) + x + br.group(3) for x in br.group(2).split(",")]
            for n in names:
                p = resolve(n, context)
                if p is None:
                    print("unresolved", mod, n)
                    continue
                cited.setdefault(p, {}).setdefault(mod, set()).update(re.findall(r"\d+(?:-\d+)?", m.group(2) or ""))
def key(r): return [int(x) for x in r.split("-")]
out = ["| file | modelled lines (module) |", "|---|---|"]
for p in sorted(cited):
    cell = "; ".join(", ".join(sorted(v, key=key)) + f" (`{m[6:]}`)" for m, v in sorted(cited[p].items()) if v) or "; ".join(f"`{m[6:]}`" for m in sorted(cited[p]))
    out.append(f"| `{p[9:]}` | {cell} |")
section("modelled", "\n".join(out))
rest = sorted(set(allpy) - set(cited))
section("unmodelled", ", ".join(f"`{p[9:]}`" for p in rest) + ".")

# --- axioms
if "--axioms" in sys.argv:
    names = [t for c in manifest for t in c["theorems"]]
    with tempfile.NamedTemporaryFile("w", suffix=".lean", delete=False) as f:
        f.write("import Verif\n" + "".join(f"#print axioms {n}\n" for n in names))
    o = subprocess.run(["lake", "env", "lean", f.name], cwd=LEAN, capture_output=True, text=True).stdout
    groups = {}
    for m in re.finditer(r"'([^']+)' (?:depends on axioms: \[([^\]]*)\]|does not depend on any axioms)", o):
        ax = ", ".join(sorted(x.strip() for x in (m.group(2) or "").split(",") if x.strip())) or "none"
        groups.setdefault(ax, []).append(m.group(1))
    body = []
    for ax in sorted(groups, key=len):
        body.append(f"* axioms: **{ax}** ({len(groups[ax])} theorems): " + ", ".join(f"`{n[6:]}`" for n in groups[ax]))
    assert sum(map(len, groups.values())) == len(names), (sum(map(len, groups.values())), len(names))
    section("axioms", "\n".join(body))
open(os.path.join(ROOT, "DESIGN.md"), "w").write(design)

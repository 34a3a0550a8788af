#!/usr/bin/env python3
"""Write AXIOMS.md: the axioms every theorem named in MANIFEST.json depends on, as Lean reports them.

usage: axioms.py      (after `lake build` in lean/)
"""
import collections, json, pathlib, re, subprocess
root = pathlib.Path(__file__).resolve().parent.parent
claims = json.load(open(root / "MANIFEST.json"))["claims"]
names = [t for c in claims for t in c["theorems"]]
mods = sorted(re.findall(r"^import (\S+)", (root / "lean/Verif.lean").read_text(), re.M))
src = pathlib.Path("/tmp/axioms.lean")
src.write_text("\n".join("import " + m for m in mods) + "\n" + "\n".join("#print axioms " + n for n in names) + "\n")
out = subprocess.run(["lake", "env", "lean", str(src)], cwd=root / "lean", capture_output=True, text=True).stdout
flat = re.sub(r"\n\s+", " ", out)
dep = {}
for m in re.finditer(r"'([^']+(?:'[^' ]*)*)' (?:depends on axioms: \[([^\]]*)\]|does not depend on any axioms)", flat):
    dep[m.group(1)] = tuple(sorted(x.strip() for x in (m.group(2) or "").split(",") if x.strip()))
missing = [n for n in names if n not in dep]
groups = collections.defaultdict(list)
for c in claims:
    for t in c["theorems"]:
        groups[dep.get(t)].append((c["property"], t))
text = ["# Axioms of the theorems in MANIFEST.json", "",
        "Output of `#print axioms`, collected by `tools/axioms.py`; %d theorems." % len(names), ""]
for k in sorted((k for k in groups if k is not None), key=lambda k: (len(k), k)):
    text += ["## " + (", ".join("`%s`" % a for a in k) if k else "no axioms") + " (%d theorems)" % len(groups[k]), ""]
    by = collections.defaultdict(list)
    for p, t in groups[k]:
        by[p].append("`%s`" % t.removeprefix("Verif."))
    text += ["* %s: %s" % (p, ", ".join(ts)) for p, ts in by.items()] + [""]
(root / "AXIOMS.md").write_text("\n".join(text))
print(len(dep), "theorems;", {k: len(v) for k, v in groups.items()}, "missing:", missing[:5])

#!/usr/bin/env python3
"""Mutation test of the Lean model, building the directory of the edited module first.

usage: mutfast.py muts.json [seconds]     (format as for mutate.py)

The scratch copy is /tmp/mut.  After each mutation only the modules in the directory of the edited
file are built; if none of them fails, the modules of the whole project are (unless NOFULL is set).
"""
import json, os, shutil, subprocess, sys, re, time
import importlib.util
spec = importlib.util.spec_from_file_location("m", os.path.join(os.path.dirname(os.path.abspath(__file__)), "mutate.py"))
src = open(spec.origin).read().replace("\nmain()\n", "\n")
ns = {"__name__": "m"}
exec(compile(src, spec.origin, "exec"), ns)
copy, decl_at, ORIG, DST, LOG = ns["copy"], ns["decl_at"], ns["ORIG"], ns["DST"], ns["LOG"]

def errors(out):
    failed = []
    for f, l in re.findall(r"error: (Verif/[\w/]+\.lean):(\d+):", out):
        d = decl_at(os.path.join(DST, f), int(l))
        if d not in failed:
            failed.append(d)
    return failed

def only_definitions(out):
    """errors only in definitions: the edit does not even type-check and says nothing about the theorems"""
    for f, l in re.findall(r"error: (Verif/[\w/]+\.lean):(\d+):", out):
        lines = open(os.path.join(DST, f)).read().split("\n")
        for i in range(min(int(l), len(lines)) - 1, -1, -1):
            m = re.match(r"\s*(?:@\[[^\]]*\]\s*)?(?:private |protected |noncomputable )*(theorem|lemma|def|example|instance|structure|inductive|abbrev)\b", lines[i])
            if m:
                if m.group(1) in ("theorem", "lemma", "example"):
                    return False
                break
    return True

def main():
    muts = json.load(open(sys.argv[1]))
    end = time.time() + float(sys.argv[2]) if len(sys.argv) > 2 else None
    copy(ORIG, DST)
    sub = [".lake/build/lib/lean/Verif", ".lake/build/ir/Verif"]
    for m in muts:
        if end and time.time() > end:
            print("time is up"); break
        area = os.path.basename(os.path.dirname(m["file"]))
        p = os.path.join(DST, m["file"])
        s = open(p).read()
        k, n = m.get("nth", 0), s.count(m["old"])
        if n < 1 or (n > 1 and "nth" not in m):
            print("NOT FOUND or AMBIGUOUS", m["def"], n); continue
        keep = "/tmp/mutkeep"
        shutil.rmtree(keep, ignore_errors=True)
        for i, d in enumerate(sub):
            if os.path.isdir(os.path.join(DST, d, area)):
                shutil.copytree(os.path.join(DST, d, area), os.path.join(keep, str(i)))
        parts = s.split(m["old"])
        open(p, "w").write(m["old"].join(parts[:k+1]) + m["new"] + m["old"].join(parts[k+1:]))
        mods = ["Verif.%s.%s" % (area, f[:-5]) for f in sorted(os.listdir(os.path.dirname(p))) if f.endswith(".lean")]
        r = subprocess.run(["lake", "build"] + mods, cwd=DST, capture_output=True, text=True)
        failed, full = errors(r.stdout + r.stderr), False
        if not failed and not os.environ.get("NOFULL"):
            full = True
            r = subprocess.run(["lake", "build"], cwd=DST, capture_output=True, text=True)
            failed = errors(r.stdout + r.stderr)
        if failed and only_definitions(r.stdout + r.stderr):
            print("INVALID", m["def"], m["edit"], failed, flush=True)
            failed = []
        rec = {"definition": m["def"], "file": m["file"], "edit": m["edit"], "claim_broken": m["claim"],
               "failed": failed, "tightened": m.get("tightened", [])}
        print(json.dumps(rec), "" if failed else "   <<<<<<<< SURVIVED" + (r.stdout + r.stderr)[-300:], flush=True)
        if failed or m.get("force"):
            open(LOG, "a").write(json.dumps(rec) + "\n")
        open(p, "w").write(s)
        if full:
            copy(ORIG, DST)
        else:
            for i, d in enumerate(sub):
                t = os.path.join(DST, d, area)
                if os.path.isdir(os.path.join(keep, str(i))):
                    shutil.rmtree(t, ignore_errors=True)
                    shutil.copytree(os.path.join(keep, str(i)), t)

main()

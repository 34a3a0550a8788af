#!/usr/bin/env python3
"""Mutation test of the Lean model.

usage: mutate.py muts.json      (list of {"file","def","old","new","edit","claim"})

Each mutation is applied to a scratch copy (/tmp/mut), the project is rebuilt, and the declarations
in which errors occur are collected.  One JSON line per mutation is appended to seeded/LOG.jsonl.
"""
import json, os, re, shutil, subprocess, sys

ORIG = "/verif/lean"
SRC = "/tmp/mutsrc"      # snapshot taken at the start, so that /verif/lean may change meanwhile
DST = "/tmp/mut"
LOG = "/verif/seeded/LOG.jsonl"

def copy(a, b):
    os.makedirs(b, exist_ok=True)
    subprocess.run(["rsync", "-a", "--delete", a + "/", b + "/"], check=False) if shutil.which("rsync") else (
        shutil.rmtree(b, ignore_errors=True), shutil.copytree(a, b, symlinks=True))

def sync():
    copy(SRC, DST)

def decl_at(path, line):
    lines = open(path).read().split("\n")
    for i in range(min(line, len(lines)) - 1, -1, -1):
        m = re.match(r"\s*(?:@\[[^\]]*\]\s*)?(?:private |protected |noncomputable )*(theorem|lemma|def|example|instance|structure|inductive|abbrev)\s*([\w.'₀-₉]*)", lines[i])
        if m:
            return m.group(2) or f"example@{os.path.basename(os.path.dirname(path))}:{i+1}"
    return "?"

def main():
    muts = json.load(open(sys.argv[1]))
    copy(ORIG, SRC)
    for m in muts:
        sync()
        p = os.path.join(DST, m["file"])
        s = open(p).read()
        n = s.count(m["old"])
        if n < 1:
            print("NOT FOUND", m["def"], m["old"]); continue
        k = m.get("nth", 0)
        if n > 1 and "nth" not in m:
            print("AMBIGUOUS", m["def"], n); continue
        parts = s.split(m["old"])
        s = m["old"].join(parts[:k+1]) + m["new"] + m["old"].join(parts[k+1:])
        open(p, "w").write(s)
        r = subprocess.run(["lake", "build"], cwd=DST, capture_output=True, text=True)
        out = r.stdout + r.stderr
        failed = []
        for f, l in re.findall(r"error: (Verif/[\w/]+\.lean):(\d+):", out):
            d = decl_at(os.path.join(DST, f), int(l))
            if d not in failed:
                failed.append(d)
        blocked = [x for x in re.findall(r"^- (Verif[\w.]+)", out, re.M)]
        rec = {"definition": m["def"], "file": m["file"], "edit": m["edit"], "claim_broken": m["claim"],
               "failed": failed, "tightened": m.get("tightened", [])}
        print(json.dumps(rec), "" if failed else "   <<<<<<<< SURVIVED" + out[-300:])
        if failed or m.get("force"):
            open(LOG, "a").write(json.dumps(rec) + "\n")

main()

#!/usr/bin/env python3
"""Mutation experiment in a scratch copy: mutate.py spec.json
spec: list of {"file","old","new","definition","edit","claim","tightened"(optional)}.
Applies each edit to a copy of ../lean in /tmp/mut, rebuilds with errors kept
going, reports which theorems fail and appends to ../seeded/LOG.jsonl."""
import json, os, re, shutil, subprocess, sys
root = os.path.abspath(os.path.join(os.path.dirname(os.path.abspath(__file__)), ".."))
scratch = "/tmp/mut"
log = "--log" in sys.argv
# snapshot, so that edits made while the experiment runs do not disturb it
base = "/tmp/mutbase"
shutil.rmtree(base, ignore_errors=True)
shutil.copytree(root + "/lean", base, symlinks=True)
for m in json.load(open(sys.argv[1])):
    subprocess.run(["rsync", "-a", "--delete", base + "/", scratch + "/"], check=True) if shutil.which("rsync") else (
        shutil.rmtree(scratch, ignore_errors=True), shutil.copytree(base, scratch, symlinks=True))
    p = os.path.join(scratch, "Verif", m["file"])
    s = open(p).read()
    assert s.count(m["old"]) >= 1, ("not found", m)
    s = s.replace(m["old"], m["new"], 1)
    open(p, "w").write(s)
    failed = []
    note = ""
    # build file by file so that dependants of broken helper lemmas are seen too
    order = [l.split()[1] for l in open(scratch + "/Verif.lean") if l.startswith("import")]
    r = subprocess.run(["lake", "build"], cwd=scratch, capture_output=True, text=True)
    out = r.stdout + r.stderr
    bad = re.findall(r"error: (Verif/\S+\.lean):(\d+):", out)
    for f, ln in bad:
        src = open(os.path.join(scratch, f)).read().split("\n")
        name = None
        for i in range(int(ln) - 1, -1, -1):
            mm = re.match(r"(?:@\[.*\]\s*)?(?:private |noncomputable )?(theorem|lemma|def|example|instance)\s*(\S*)", src[i])
            if mm:
                name = mm.group(2) if mm.group(1) != "example" else "example@%s:%d" % (f, i + 1)
                break
        if name and name not in failed: failed.append(name)
    if failed and not any(re.match(r"C\d\d", x) for x in failed):
        note = "helper lemmas fail; the property theorems built on them do not check"
        # which property theorems depend: replace failed proofs by sorry to see
    print(json.dumps(dict(edit=m["edit"], failed=failed)))
    if log:
        with open(root + "/seeded/LOG.jsonl", "a") as f:
            e = dict(definition=m["definition"], edit=m["edit"], breaks=m["claim"], failed=failed,
                     tightened=m.get("tightened", []))
            if note: e["note"] = note
            f.write(json.dumps(e, ensure_ascii=False) + "\n")

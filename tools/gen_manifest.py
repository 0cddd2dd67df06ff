#!/usr/bin/env python3
"""Writes ../MANIFEST.json and ../lean/Verif/Audit.lean from the theorem names
in ../lean/Verif/Props and the notes in notes.json."""
import json, os, re, glob
here = os.path.dirname(os.path.abspath(__file__))
root = os.path.join(here, "..")
notes = json.load(open(os.path.join(here, "notes.json")))
props = [json.loads(l)["id"] for l in open(os.path.join(root, "properties.jsonl"))]
thms = {}
mods = []
for f in sorted(glob.glob(os.path.join(root, "lean/Verif/Props/*.lean"))):
    mods.append("Verif.Props." + os.path.basename(f)[:-5])
    for m in re.finditer(r"^theorem (C\d\d\d?)_(\w+)'?", open(f).read(), re.M):
        thms.setdefault(m.group(1), []).append("PC." + m.group(0)[len("theorem "):])
claims = []
for c in props:
    ts = thms.get(c, [])
    n = notes.get(c, {})
    if not ts:
        status = n.get("status", "not_applicable")
        note = n.get("note", "not yet modelled")
    else:
        status = n.get("status")
        if status is None:
            status = "partial" if any(t.endswith("_partial") or t.endswith("_false") for t in ts) else "proved"
        note = n.get("note", "")
    claims.append(dict(property=c, status=status, theorems=ts, note=note))
json.dump({"claims": claims}, open(os.path.join(root, "MANIFEST.json"), "w"), indent=1, ensure_ascii=False)
with open(os.path.join(root, "lean/Verif/Audit.lean"), "w") as f:
    f.write("import Lean.Util.CollectAxioms\nimport Lean.Elab.Command\n")
    for m in mods:
        f.write("import %s\n" % m)
    f.write('''
/-!
# Axiom audit

Generated by `tools/gen_manifest.py`.  Fails to compile if a property theorem
depends on an axiom other than `propext`, `Classical.choice`, `Quot.sound`.
-/

open Lean Elab Command in
run_cmd do
  for n in [
''')
    allt = [t for c in props for t in thms.get(c, [])]
    f.write(",\n".join("    `" + t for t in allt))
    f.write('''] do
    unless (← getEnv).contains n do
      throwError "missing theorem {n}"
    let ax ← Lean.collectAxioms n
    for a in ax do
      unless a ∈ [``propext, ``Classical.choice, ``Quot.sound] do
        throwError "{n} depends on {a}"
    logInfo m!"{n}: {ax.toList}"
''')
miss = [c for c in props if c not in thms]
print(len(allt), "theorems; without theorem:", miss)
extra = [c for c in thms if c not in props]
if extra: print("UNKNOWN IDS", extra)

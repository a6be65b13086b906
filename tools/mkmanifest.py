#!/usr/bin/env python3
"""Write MANIFEST.json: theorems are collected from lean/Verif/Props by their Cxx_ prefix; status and notes are below."""
import json, re, glob, os
root = os.path.dirname(os.path.dirname(os.path.abspath(__file__)))
ids = [json.loads(l)["id"] for l in open(f"{root}/properties.jsonl")]
thms = {}
for f in sorted(glob.glob(f"{root}/lean/Verif/Props/**/*.lean", recursive=True)):
    ns = []
    for line in open(f):
        m = re.match(r"namespace (\S+)", line)
        if m: ns.append(m.group(1))
        m = re.match(r"end (\S+)", line)
        if m and ns and ns[-1] == m.group(1): ns.pop()
        m = re.match(r"(?:private )?theorem ((C\d{2,3})_\w+)", line)
        if m: thms.setdefault(m.group(2), []).append(".".join(ns + [m.group(1)]))
EXTRA = {"C13": ["Unc.Props.C01_program"]}
info = json.load(open(f"{root}/tools/status.json"))
claims = []
for i in ids:
    t = thms.get(i, []) + [x for x in EXTRA.get(i, []) if thms.get(i)]
    st, note = info.get(i, ["partial", "not proved yet"])
    if not t and st == "proved": raise SystemExit(f"{i}: proved without theorems")
    claims.append({"property": i, "status": st, "theorems": t, "note": note})
json.dump({"claims": claims}, open(f"{root}/MANIFEST.json", "w"), indent=1)
with open(f"{root}/lean/Verif/Audit.lean", "w") as o:
    mods = sorted("Verif.Props." + os.path.relpath(f, f"{root}/lean/Verif/Props")[:-5].replace("/", ".")
                  for f in glob.glob(f"{root}/lean/Verif/Props/**/*.lean", recursive=True))
    for m in mods: o.write(f"import {m}\n")
    o.write("\n/-! Axioms of every theorem listed in MANIFEST.json (generated by tools/mkmanifest.py). -/\n\n")
    for c in claims:
        for t in c["theorems"]: o.write(f"#print axioms {t}\n")
with open(f"{root}/lean/Verif.lean", "w") as o:
    for m in mods: o.write(f"import {m}\n")
    o.write("import Verif.Conform\nimport Verif.Audit\n")

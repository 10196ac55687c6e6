#!/usr/bin/env python3
"""Builds ../MANIFEST.json from claims.txt (property | status | theorems | note) and checks that each named theorem exists."""
import json, os, re, glob
here = os.path.dirname(os.path.abspath(__file__))
root = os.path.dirname(here)
src = {}
for f in glob.glob(root + "/lean/Verif/Props/*.lean"):
    t = open(f).read()
    ns = re.findall(r"^namespace (\S+)", t, re.M)[0]
    src.setdefault(ns, "")
    src[ns] += t
claims = []
for line in open(here + "/claims.txt"):
    if not line.strip(): continue
    p, status, thms, note = [x.strip() for x in line.split("|", 3)]
    names = []
    for t in thms.split():
        full = t if t.startswith("Verif.") else f"Verif.Props.{p}.{t}"
        ns, base = full.rsplit(".", 1)
        assert re.search(r"^theorem %s\b" % re.escape(base), src.get(ns, ""), re.M), full
        names.append(full)
    claims.append({"property": p, "status": status, "theorems": names, "note": note})
ids = [json.loads(l)["id"] for l in open(root + "/properties.jsonl") if l.strip()]
missing = [i for i in ids if i not in {c["property"] for c in claims}]
json.dump({"claims": claims}, open(root + "/MANIFEST.json", "w"), indent=1)
print(len(claims), "claims; missing:", " ".join(missing))

#!/usr/bin/env python3
"""Regenerate MANIFEST.json from the theorems of lean/Verif/Props and the notes below."""
import glob
import json
import os
import re

ROOT = os.path.dirname(os.path.dirname(os.path.abspath(__file__)))

# property -> (status, note)
NOTES = json.load(open(os.path.join(ROOT, "tools", "notes.json")))

names = {}
for path in sorted(glob.glob(os.path.join(ROOT, "lean/Verif/Props/*.lean"))):
    for m in re.finditer(r"^theorem ((C\d\d)_\w+)", open(path).read(), re.M):
        names.setdefault(m.group(2), []).append("Wot." + m.group(1))

claims = []
for line in open(os.path.join(ROOT, "properties.jsonl")):
    pid = json.loads(line)["id"]
    if pid not in names:
        continue
    status, note = NOTES.get(pid, ["proved", ""])
    claims.append({"property": pid, "status": status, "theorems": names[pid], "note": note})
json.dump({"claims": claims}, open(os.path.join(ROOT, "MANIFEST.json"), "w"), indent=1)
print(len(claims), "claims", sum(len(c["theorems"]) for c in claims), "theorems")

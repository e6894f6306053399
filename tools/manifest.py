#!/usr/bin/env python3
"""Write MANIFEST.json from the theorem names in lean/Verif/Props and the notes below."""
import json, re, glob, os
root = os.path.dirname(os.path.dirname(os.path.abspath(__file__)))
STATUS = json.load(open(os.path.join(root, "tools", "status.json")))
names = {}
for f in sorted(glob.glob(os.path.join(root, "lean/Verif/Props/*.lean"))):
    for m in re.finditer(r"^theorem ((C\d+)_\w*)", open(f).read(), re.M):
        names.setdefault(m.group(2), []).append("Osmio." + m.group(1))
claims = []
for line in open(os.path.join(root, "properties.jsonl")):
    p = json.loads(line)["id"]
    if p not in names:
        continue
    st = STATUS.get(p, {"status": "proved", "note": ""})
    claims.append({"property": p, "status": st["status"], "theorems": names[p], "note": st["note"]})
json.dump({"claims": claims}, open(os.path.join(root, "MANIFEST.json"), "w"), indent=1, ensure_ascii=False)
print(len(claims), "claims", sum(len(c["theorems"]) for c in claims), "theorems")

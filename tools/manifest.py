"""Writes MANIFEST.json from the theorem names in lean/Verif/Props and tools/notes.json."""
import glob, json, os, re
root = os.path.dirname(os.path.dirname(os.path.abspath(__file__)))
notes = json.load(open(os.path.join(root, "tools", "notes.json")))
props = [json.loads(l)["id"] for l in open(os.path.join(root, "properties.jsonl")) if l.strip()]
theorems = {}
for f in sorted(glob.glob(os.path.join(root, "lean", "Verif", "Props", "*.lean"))):
    for m in re.finditer(r"^theorem (C\d\d\w*)", open(f).read(), re.M):
        theorems.setdefault(m.group(1).split("_")[0], []).append("OpenControls." + m.group(1))
claims = []
for p in props:
    if p not in theorems:
        continue
    status, note = notes.get(p, ["proved", ""])
    claims.append({"property": p, "status": status, "theorems": theorems[p], "note": note})
json.dump({"claims": claims}, open(os.path.join(root, "MANIFEST.json"), "w"), indent=1)
print(len(claims), "claims;", "missing:", [p for p in props if p not in theorems],
      "unlisted:", [p for p in theorems if p not in props])

"""Write MANIFEST.json: the theorems of each property are those whose doc comment begins with its id."""
import glob
import json
import re
import os

ROOT = os.path.dirname(os.path.dirname(os.path.abspath(__file__)))
theorems = {}
for path in sorted(glob.glob(ROOT + "/lean/Verif/Props/*.lean")):
    text = open(path).read()
    for m in re.finditer(r"/-- ((?:C\d\d(?:, )?)+)\.(.*?)-/\s*theorem (\S+)", text, re.S):
        for prop in m.group(1).split(", "):
            theorems.setdefault(prop, []).append("Verif.Props." + m.group(3))
notes = json.load(open(ROOT + "/tools/notes.json"))
claims = []
for prop in sorted(theorems):
    note = notes.get(prop, {})
    claims.append({"property": prop, "status": note.get("status", "proved"), "theorems": theorems[prop],
                   "note": note.get("note", "")})
for prop, note in sorted(notes.items()):
    if prop not in theorems:
        claims.append({"property": prop, "status": note["status"], "theorems": [], "note": note.get("note", "")})
with open(ROOT + "/MANIFEST.json", "w") as f:
    f.write('{"claims": [\n' + ",\n".join(" " + json.dumps(c, ensure_ascii=False) for c in claims) + "\n]}\n")
props = [json.loads(l)["id"] for l in open(ROOT + "/properties.jsonl")]
print("without theorems:", [p for p in props if p not in theorems])

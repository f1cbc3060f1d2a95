"""Regenerates MANIFEST.json: every theorem named Cxx_* in lean/Verif/Props, grouped by property."""
import glob, json, os, re

root = os.path.dirname(os.path.dirname(os.path.abspath(__file__)))
NOTES = json.load(open(os.path.join(root, "tools", "notes.json")))
by = {}
for f in sorted(glob.glob(os.path.join(root, "lean/Verif/Props/*.lean"))):
    ns = []
    for line in open(f):
        m = re.match(r"namespace (\S+)", line)
        if m:
            ns.append(m.group(1))
        m = re.match(r"end (\S+)", line)
        if m and ns and ns[-1] == m.group(1):
            ns.pop()
        m = re.match(r"(?:protected )?theorem (C(\d\d+)_\S+)", line)
        if m:
            by.setdefault("C" + m.group(2), []).append(".".join(ns + [m.group(1)]))
claims = []
for line in open(os.path.join(root, "properties.jsonl")):
    pid = json.loads(line)["id"]
    thms = by.get(pid, [])
    note = NOTES.get(pid, {})
    status = note.get("status")
    if status is None:
        status = "partial" if (not thms or any(t.endswith("_partial") for t in thms)) else "proved"
    text = note.get("note", "")
    if not thms and not text:
        text = "not proved yet"
    claims.append({"property": pid, "status": status, "theorems": thms, "note": text})
json.dump({"claims": claims}, open(os.path.join(root, "MANIFEST.json"), "w"), indent=1, ensure_ascii=False)
for c in claims:
    print(c["property"], c["status"], len(c["theorems"]), c["note"][:60])

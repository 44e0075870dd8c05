"""Write MANIFEST.json, lean/Verif.lean and lean/Verif/Audit.lean from the sources.

Property theorems are the theorems of lean/Verif/Props whose name starts with the
property id.  Status and notes are in tools/notes.json.
"""
import json
import pathlib
import re

root = pathlib.Path(__file__).resolve().parent.parent
lean = root / "lean"
props = [json.loads(l) for l in (root / "properties.jsonl").read_text().splitlines() if l.strip()]
notes = json.loads((root / "tools" / "notes.json").read_text())

mods = sorted(
    ".".join(p.relative_to(lean).with_suffix("").parts)
    for d in ("Model", "Spec", "Lemmas", "Props")
    for p in (lean / "Verif" / d).glob("**/*.lean")
)
(lean / "Verif.lean").write_text("\n".join(f"import {m}" for m in mods + ["Verif.Audit"]) + "\n")

names = {}
for p in sorted((lean / "Verif" / "Props").glob("**/*.lean")):
    for m in re.finditer(r"^theorem (C\d\d)(_\w+)", p.read_text(), re.M):
        names.setdefault(m.group(1), []).append(m.group(1) + m.group(2))

allnames = [n for c in sorted(names) for n in names[c]]
dup = {n for n in allnames if allnames.count(n) > 1}
assert not dup, dup
pm = [m for m in mods if m.startswith("Verif.Props")]
(lean / "Verif" / "Audit.lean").write_text(
    "\n".join(f"import {m}" for m in pm)
    + "\n\n/-! Axioms of every property theorem (only propext, Classical.choice, Quot.sound). -/\n\n"
    + "\n".join(f"#print axioms RT1.{n}" for n in allnames) + "\n")

claims = []
for p in props:
    i = p["id"]
    n = notes.get(i, {})
    th = [f"RT1.{x}" for x in names.get(i, [])]
    if not th:
        continue
    status = n.get("status", "partial" if all(x.endswith("_partial") for x in th) else "proved")
    claims.append({"property": i, "status": status, "theorems": th, "note": n.get("note", p["title"])})
(root / "MANIFEST.json").write_text(json.dumps({"claims": claims}, indent=1) + "\n")
missing = [p["id"] for p in props if p["id"] not in names]
print(len(claims), "claims,", len(allnames), "theorems; without theorem:", " ".join(missing))

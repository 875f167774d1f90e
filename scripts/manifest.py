"""Regenerate MANIFEST.json from the theorem names in lean/Verif/Props and the notes in
scripts/notes.json ({"C01": {"status": ..., "note": ...}}); also regenerate lean/Verif.lean."""
import json, re, pathlib, collections
root = pathlib.Path(__file__).resolve().parent.parent
notes = json.loads((root / "scripts/notes.json").read_text())
thms = collections.defaultdict(list)
for f in sorted((root / "lean/Verif/Props").glob("*.lean")):
    for m in re.finditer(r"^theorem ((C\d\d+)_\w+)", f.read_text(), re.M):
        thms[m.group(2)].append("Verif." + m.group(1))
props = [json.loads(l)["id"] for l in (root / "properties.jsonl").read_text().splitlines() if l.strip()]
claims = []
for p in props:
    n = notes.get(p)
    ts = thms.get(p, [])
    if n is None:
        if ts:
            print("no note for", p)
        continue
    if n["status"] != "not_applicable" and not ts:
        print("no theorem for", p); continue
    claims.append({"property": p, "status": n["status"], "theorems": ts, "note": n["note"]})
(root / "MANIFEST.json").write_text(json.dumps({"claims": claims}, indent=1, ensure_ascii=False) + "\n")
mods = sorted(str(f.relative_to(root / "lean").with_suffix("")).replace("/", ".")
              for f in (root / "lean/Verif").rglob("*.lean"))
(root / "lean/Verif.lean").write_text("".join(f"import {m}\n" for m in mods))
print(len(claims), "claims,", sum(map(len, thms.values())), "theorems,", len(mods), "modules; uncovered:",
      [p for p in props if p not in notes])

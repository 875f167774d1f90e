"""python3 scripts/note.py ID STATUS NOTE : add or replace one entry of scripts/notes.json"""
import json, sys, pathlib
p = pathlib.Path(__file__).resolve().parent / "notes.json"
d = json.loads(p.read_text())
d[sys.argv[1]] = {"note": sys.argv[3], "status": sys.argv[2]}
p.write_text(json.dumps(d, indent=1, ensure_ascii=False, sort_keys=True) + "\n")

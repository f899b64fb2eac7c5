#!/usr/bin/env python3
"""Writes MANIFEST.json. A property theorem is named C<nn>_...; notes and statuses are listed here."""
import json
import pathlib
import re

ROOT = pathlib.Path(__file__).resolve().parent.parent

# id -> (status, note)
STATUS = json.loads((ROOT / "tools" / "status.json").read_text())

theorems = {}
for path in sorted((ROOT / "lean" / "Verif" / "Properties").glob("*.lean")):
    text = re.sub(r"/-.*?-/", "", path.read_text(), flags=re.S)
    for name in re.findall(r"^theorem (C\d\d+_[A-Za-z0-9_']+)", text, flags=re.M):
        theorems.setdefault(name.split("_")[0], []).append("OAuth." + name)

claims = []
for line in (ROOT / "properties.jsonl").read_text().splitlines():
    pid = json.loads(line)["id"]
    if pid not in STATUS:
        continue
    status, note = STATUS[pid]
    claims.append({"property": pid, "status": status, "theorems": theorems.get(pid, []), "note": note})

for pid in sorted(set(theorems) - set(STATUS)):
    print("theorems without a status:", pid, theorems[pid])
(ROOT / "MANIFEST.json").write_text(json.dumps({"claims": claims}, indent=1) + "\n")

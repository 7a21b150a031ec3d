#!/usr/bin/env python3
"""Collect the theorems named Cnn_* from lean/Verif/Props and write MANIFEST.json.

The status and note of each property are in tools/status.json."""
import collections
import json
import pathlib
import re

root = pathlib.Path(__file__).resolve().parent.parent
status = json.loads((root / "tools" / "status.json").read_text())
found = collections.defaultdict(list)
for f in sorted((root / "lean" / "Verif" / "Props").glob("*.lean")):
    for m in re.finditer(r"^theorem (C(\d\d)_\w+)", f.read_text(), re.M):
        found["C" + m.group(2)].append("Manul." + m.group(1))
claims = []
for line in (root / "properties.jsonl").read_text().splitlines():
    pid = json.loads(line)["id"]
    st = status.get(pid)
    if st is None or not found[pid]:
        continue
    claims.append({"property": pid, "status": st[0], "theorems": found[pid], "note": st[1]})
(root / "MANIFEST.json").write_text(json.dumps({"claims": claims}, indent=1) + "\n")
print(len(claims), "claims", sum(len(c["theorems"]) for c in claims), "theorems")

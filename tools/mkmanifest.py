#!/usr/bin/env python3
"""Regenerate MANIFEST.json from the list below and check that every theorem named exists."""
import json, pathlib, re, sys
sys.path.insert(0, str(pathlib.Path(__file__).parent))
from manifest_claims import CLAIMS
root = pathlib.Path(__file__).parent.parent
names = set()
for f in (root / "lean/Verif").rglob("*.lean"):
    ns = []
    for line in f.read_text().splitlines():
        m = re.match(r"namespace (\S+)", line)
        if m: ns.append(m.group(1))
        m = re.match(r"end (\S+)", line)
        if m and ns and ns[-1] == m.group(1): ns.pop()
        m = re.match(r"(?:@\[[^\]]*\] *)?(?:private |protected )?theorem (\S+)", line)
        if m: names.add(".".join(ns + [m.group(1)]))
bad = False
for pid, status, thms, note in CLAIMS:
    for t in thms:
        if t not in names:
            print("unknown theorem", pid, t); bad = True
props = [json.loads(l)["id"] for l in (root / "properties.jsonl").read_text().splitlines() if l.strip()]
have = [c[0] for c in CLAIMS]
print("no claim yet:", [p for p in props if p not in have])
(root / "MANIFEST.json").write_text(json.dumps({"claims": [
    dict(property=p, status=s, theorems=t, note=n) for p, s, t, n in CLAIMS]}, indent=1) + "\n")
sys.exit(bad)

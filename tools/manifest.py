#!/usr/bin/env python3
"""Regenerate MANIFEST.json: theorem names are collected from lean/Verif/Props/*.lean,
status and note per property come from tools/claims.json."""
import json, re, pathlib
root = pathlib.Path(__file__).resolve().parent.parent
claims = json.loads((root / "tools/claims.json").read_text())
names = {}
for f in sorted((root / "lean/Verif/Props").glob("*.lean")):
    ns = []
    for line in f.read_text().splitlines():
        m = re.match(r"namespace (\S+)", line)
        if m: ns.append(m.group(1)); continue
        m = re.match(r"end (\S+)", line)
        if m and ns and ns[-1] == m.group(1): ns.pop(); continue
        m = re.match(r"(?:@\[[^\]]*\] )?theorem (C(\d\d)_\S+)", line)
        if m: names.setdefault("C" + m.group(2), []).append(".".join(ns + [m.group(1)]))
out = []
for pid in sorted(set(names) | set(claims)):
    c = claims.get(pid)
    if c is None:
        print("no claim entry for", pid); continue
    out.append({"property": pid, "status": c["status"], "theorems": names.get(pid, []), "note": c["note"]})
    if c["status"] != "not_applicable" and not names.get(pid): print("no theorems for", pid)
(root / "MANIFEST.json").write_text('{"claims": [\n' + ",\n".join(" " + json.dumps(o) for o in out) + "\n]}\n")
print(len(out), "claims", {s: sum(o["status"] == s for o in out) for s in ("proved", "partial", "not_applicable")})

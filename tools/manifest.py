#!/usr/bin/env python3
"""Regenerate MANIFEST.json and lean/Verif.lean from the theorem names in lean/Verif/Props and tools/claims.json.

claims.json maps a property id to {"status": ..., "note": ...}; the theorem list is collected from the sources.
"""
import json, re, pathlib
root = pathlib.Path(__file__).resolve().parent.parent
lean = root / "lean"
thms = {}
for f in sorted((lean / "Verif" / "Props").glob("*.lean")):
    ns = []
    for line in f.read_text().splitlines():
        m = re.match(r"namespace (\S+)", line)
        if m: ns.append(m.group(1)); continue
        m = re.match(r"end (\S+)", line)
        if m and ns and ns[-1] == m.group(1): ns.pop(); continue
        m = re.match(r"(?:private |protected )?theorem (C(\d+)_\w+)", line)
        if m: thms.setdefault("C" + m.group(2), []).append(".".join(ns + [m.group(1)]))
notes = json.loads((root / "tools" / "claims.json").read_text())
ids = [json.loads(l)["id"] for l in (root / "properties.jsonl").read_text().splitlines() if l.strip()]
claims = []
for i in ids:
    if i in notes:
        claims.append({"property": i, "status": notes[i]["status"], "theorems": thms.get(i, []), "note": notes[i]["note"]})
        if notes[i]["status"] != "not_applicable" and not thms.get(i): print("no theorem for", i)
    elif i in thms: print("no claim for", i)
(root / "MANIFEST.json").write_text(json.dumps({"claims": claims}, indent=1, ensure_ascii=False) + "\n")
mods = sorted(".".join(p.relative_to(lean).with_suffix("").parts) for p in (lean / "Verif").rglob("*.lean"))
(lean / "Verif.lean").write_text("".join(f"import {m}\n" for m in mods))
print(len(claims), "claims;", sum(len(c["theorems"]) for c in claims), "theorems;", "missing:", [i for i in ids if i not in notes])

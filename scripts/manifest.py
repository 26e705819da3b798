#!/usr/bin/env python3
"""Rebuild MANIFEST.json from the theorem names in lean/Verif/Props and NOTES below.

A property is "partial" when it has a theorem named *_partial or *_refuted, or when
listed in FORCE; otherwise "proved" as soon as it has a theorem."""
import json, re, pathlib
root = pathlib.Path(__file__).resolve().parent.parent
notes = json.loads((root / "scripts/notes.json").read_text())
props = [json.loads(l)["id"] for l in (root / "properties.jsonl").read_text().splitlines() if l.strip()]
th = {p: [] for p in props}
for f in sorted((root / "lean/Verif/Props").rglob("*.lean")):
    ns = []
    for line in f.read_text().splitlines():
        m = re.match(r"namespace\s+(\S+)", line)
        if m: ns.append(m.group(1))
        m = re.match(r"end\s+(\S+)", line)
        if m and ns and ns[-1] == m.group(1): ns.pop()
        m = re.match(r"(?:private\s+)?theorem\s+(C\d\d+)(_\S*)", line)
        if m:
            th.setdefault(m.group(1), []).append(".".join(ns + [m.group(1) + m.group(2)]))
claims = []
for p in props:
    t = th[p]
    n = notes.get(p, {})
    if not t:
        st = "partial"; n.setdefault("note", "not yet proved")
    elif any(x.endswith("_partial") or "_refuted" in x for x in t): st = "partial"
    else: st = "proved"
    st = n.get("status", st)
    claims.append({"property": p, "status": st, "theorems": t, "note": n.get("note", "")})
(root / "MANIFEST.json").write_text(json.dumps({"claims": claims}, indent=1) + "\n")
print({s: sum(c["status"] == s for c in claims) for s in ("proved", "partial", "not_applicable")},
      "without theorem:", [c["property"] for c in claims if not c["theorems"]])

#!/usr/bin/env python3
"""Write MANIFEST.json from the property tags in the docstrings of the theorems.

A theorem whose docstring starts with `**C04**` (or `**C04/C06**`) is listed under those properties.  Status and notes
come from tools/status.json: {"C04": {"status": "partial", "note": "..."}}; the default is "proved" when a tagged theorem exists.
"""
import json, re, pathlib
root = pathlib.Path(__file__).resolve().parent.parent
props = [json.loads(l) for l in (root / "properties.jsonl").read_text().splitlines() if l.strip()]
status = json.loads((root / "tools/status.json").read_text())
found = {}
for f in sorted((root / "lean/Verif").rglob("*.lean")):
    text = f.read_text()
    ns = []
    pos = 0
    token = re.compile(r"^namespace (\S+)|^end (\S+)|/-- \*\*(C[\d/C]+)\*\*.*?-/\s*(?:@\[[^\]]*\]\s*)*(?:noncomputable )?(theorem|def|example)\s+(\S+)?", re.S | re.M)
    for m in token.finditer(text):
        if m.group(1):
            ns.append(m.group(1))
        elif m.group(2):
            if ns and ns[-1] == m.group(2):
                ns.pop()
        elif m.group(4) == "theorem":
            name = ".".join(ns + [m.group(5)])
            for pid in m.group(3).split("/"):
                found.setdefault(pid, []).append(name)
claims = []
for p in props:
    pid = p["id"]
    st = status.get(pid, {})
    th = found.get(pid, [])
    if not th and "status" not in st:
        continue
    claims.append({"property": pid, "status": st.get("status", "proved"), "theorems": th, "note": st.get("note", "")})
(root / "MANIFEST.json").write_text(json.dumps({"claims": claims}, indent=1) + "\n")
missing = [p["id"] for p in props if p["id"] not in {c["property"] for c in claims}]
print(len(claims), "claims;", "missing:", missing)
bad = sorted(set(found) - {p["id"] for p in props})
print("unknown tags:", bad)

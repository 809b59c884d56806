#!/usr/bin/env python3
"""Regenerates MANIFEST.json from the theorem names in lean/Verif/Props and notes.json."""
import json, re, glob, os
root = os.path.dirname(os.path.dirname(os.path.abspath(__file__)))
ids = [json.loads(l)["id"] for l in open(f"{root}/properties.jsonl")]
notes = json.load(open(f"{root}/tools/notes.json"))
thms = {i: [] for i in ids}
for f in sorted(glob.glob(f"{root}/lean/Verif/Props/*.lean")):
    ns = []
    text = re.sub(r"/-.*?-/", "", open(f).read(), flags=re.S)
    for line in text.split("\n"):
        m = re.match(r"namespace (\S+)", line)
        if m: ns.append(m.group(1))
        m = re.match(r"end (\S+)", line)
        if m and ns: ns.pop()
        m = re.match(r"theorem (C\d+)(\S*)", line)
        if m: thms[m.group(1)].append(".".join(ns + [m.group(1) + m.group(2)]))
claims = []
for i in ids:
    n = notes.get(i, {})
    status = n.get("status")
    if thms[i]:
        auto = "partial" if any("_partial" in t or "_violated" in t for t in thms[i]) else "proved"
        status = status or auto
    elif not status:
        continue
    claims.append({"property": i, "status": status, "theorems": thms[i], "note": n.get("note", "")})
json.dump({"claims": claims}, open(f"{root}/MANIFEST.json", "w"), indent=1, ensure_ascii=False)
print({s: sum(c["status"] == s for c in claims) for s in ("proved", "partial", "not_applicable")},
      "missing:", [i for i in ids if i not in [c["property"] for c in claims]])

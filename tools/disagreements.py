#!/usr/bin/env python3
"""Rewrites the last section of DESIGN.md from the comments of the `_violated` theorems."""
import glob, json, os, re

root = os.path.dirname(os.path.dirname(os.path.abspath(__file__)))
anchors = {}
for line in open(f"{root}/properties.jsonl"):
    p = json.loads(line)
    anchors[p["id"]] = ", ".join(f"`{a}`" for a in p["anchors"])
found = []
for f in glob.glob(f"{root}/lean/Verif/Props/*.lean"):
    for doc, name in re.findall(r"/--((?:(?!-/).)*)-/\s*(?:@\[[^\]]*\]\s*)?theorem (C\d+_violated\S*)", open(f).read(), re.S):
        doc = " ".join(doc.split())
        doc = re.sub(r"^C\d+ is violated(:|,)? ?", "", doc)
        found.append((name, doc[0].upper() + doc[1:]))
found.sort(key=lambda x: (int(x[0].split("_")[0][1:]), x[0]))
out = ["## Disagreements found", "",
       "Each is proved: the theorem named exhibits inputs (or all inputs of a kind) on which the",
       "model of the code does not do what the property says. The section is written by",
       "`tools/disagreements.py` from the comments of the theorems.", ""]
last = None
for name, doc in found:
    cid = name.split("_")[0]
    if cid != last:
        out += ([""] if last else []) + [f"**{cid}** ({anchors[cid]})", ""]
        last = cid
    out.append(f"* `{name}`: {doc}")
path = f"{root}/DESIGN.md"
s = open(path).read()
s = s[: s.index("## Disagreements found")] + "\n".join(out) + "\n"
open(path, "w").write(s)
print(len(found), "disagreements")

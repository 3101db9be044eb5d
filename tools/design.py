"""Writes the table of results in DESIGN.md from MANIFEST.json and properties.jsonl."""
import json, os
here = os.path.dirname(os.path.abspath(__file__))
P = {}
for l in open(os.path.join(here, "..", "properties.jsonl")):
    x = json.loads(l); P[x["id"]] = x["title"]
C = json.load(open(os.path.join(here, "..", "MANIFEST.json")))["claims"]
C.sort(key=lambda x: int(x["property"][1:]))
t = "| id | title | status | remarks |\n|---|---|---|---|\n"
for x in C:
    t += f"| {x['property']} | {P[x['property']]} | {x['status']} | {x['note']} |\n"
f = os.path.join(here, "..", "DESIGN.md")
s = open(f).read()
a, b = "<!-- results -->\n", "<!-- end results -->"
i, j = s.index(a) + len(a), s.index(b)
open(f, "w").write(s[:i] + t + s[j:])

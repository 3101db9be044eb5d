"""Prints the axioms of every theorem of MANIFEST.json and writes AXIOMS.md (run after `lake build`)."""
import json, os, re, subprocess, tempfile
here = os.path.dirname(os.path.abspath(__file__))
lean = os.path.join(here, "..", "lean")
claims = json.load(open(os.path.join(here, "..", "MANIFEST.json")))["claims"]
names = []
for x in claims:
    for t in x["theorems"]:
        if t not in names: names.append(t)
src = "import Verif\n" + "".join(f"#print axioms {t}\n" for t in names)
with tempfile.NamedTemporaryFile("w", suffix=".lean", delete=False) as f: f.write(src)
out = subprocess.run(["lake", "env", "lean", f.name], cwd=lean, capture_output=True, text=True).stdout
os.unlink(f.name)
ax = {}
for m in re.finditer(r"'([^']+(?:'*))' (does not depend on any axioms|depends on axioms: \[([^\]]*)\])", out):
    ax[m.group(1)] = ", ".join(sorted(re.sub(r"\s+", " ", m.group(3) or "").split(", "))) if m.group(3) else "none"
missing = [t for t in names if t not in ax]
print("theorems", len(names), "missing", missing)
groups = {}
for t in names:
    groups.setdefault(ax.get(t, "?"), []).append(t)
with open(os.path.join(here, "..", "AXIOMS.md"), "w") as f:
    f.write("# Axioms of the property theorems\n\nWritten by `tools/axioms.py` from `#print axioms`.\n")
    for g in sorted(groups):
        f.write(f"\n## {g} ({len(groups[g])})\n\n")
        for t in groups[g]: f.write(f"* `{t}`\n")
for g in groups: print(g, len(groups[g]))

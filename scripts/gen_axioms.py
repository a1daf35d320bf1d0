"""Print, for every theorem named in MANIFEST.json, the axioms it depends on (writes AXIOMS.md)."""
import json, os, re, subprocess, collections
root = os.path.join(os.path.dirname(os.path.abspath(__file__)), "..")
claims = json.load(open(os.path.join(root, "MANIFEST.json")))["claims"]
names = list(dict.fromkeys(t for c in claims for t in c["theorems"]))
src = "/tmp/PrintAxioms.lean"
with open(src, "w") as f:
    f.write("import Verif\n" + "".join(f"#print axioms {n}\n" for n in names))
out = subprocess.run(["lake", "env", "lean", src], cwd=os.path.join(root, "lean"), capture_output=True, text=True).stdout
ax = {}
for g in re.finditer(r"'([^']+)' (does not depend on any axioms|depends on axioms: \[([^\]]*)\])", out):
    ax[g.group(1)] = tuple(sorted(x.strip() for x in (g.group(3) or "").split(",") if x.strip()))
assert set(ax) == set(names), set(names) - set(ax)
groups = collections.OrderedDict()
for n in names:
    groups.setdefault(ax[n], []).append(n)
with open(os.path.join(root, "AXIOMS.md"), "w") as f:
    f.write("# Axioms each property theorem depends on\n\nGenerated by scripts/gen_axioms.py with `#print axioms`.\n")
    for a, ns in groups.items():
        f.write("\n## " + (", ".join(f"`{x}`" for x in a) or "none") + "\n\n" + "".join(f"* `{n}`\n" for n in ns))
print(collections.Counter(ax.values()))

"""Write AXIOMS.md: the axioms of every theorem named in MANIFEST.json, as printed by Lean."""
import json, os, re, subprocess, tempfile
root = os.path.join(os.path.dirname(os.path.abspath(__file__)), "..")
T = []
for c in json.load(open(os.path.join(root, "MANIFEST.json")))["claims"]:
    for t in c["theorems"]:
        if t not in T: T.append(t)
with tempfile.NamedTemporaryFile("w", suffix=".lean", delete=False) as f:
    f.write("import Verif\n" + "\n".join("#print axioms " + t for t in T) + "\n")
out = subprocess.run(["lake", "env", "lean", f.name], cwd=os.path.join(root, "lean"), capture_output=True, text=True).stdout
out = re.sub(r",\n\s*", ", ", out)
res = {}
for l in out.splitlines():
    m = re.match(r"'(.*)' depends on axioms: \[(.*)\]", l)
    if m: res[m.group(1)] = m.group(2)
    m = re.match(r"'(.*)' does not depend on any axioms", l)
    if m: res[m.group(1)] = "none"
assert set(res) == set(T), set(T) - set(res)
with open(os.path.join(root, "AXIOMS.md"), "w") as g:
    g.write("# Axioms of the theorems in MANIFEST.json (`#print axioms`)\n\n")
    for k in sorted(set(res.values())):
        g.write("## %s\n\n" % k)
        for t in sorted(t for t in T if res[t] == k): g.write("- `%s`\n" % t)
        g.write("\n")
print(len(T))

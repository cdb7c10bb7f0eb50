"""Writes MANIFEST.json and lean/Verif.lean; checks that every theorem named exists and prints
which properties have no claim yet."""
import json, re, glob, os
root = os.path.dirname(os.path.dirname(os.path.abspath(__file__)))
claims = []
def c(prop, status, thms, note=""):
    claims.append({"property": prop, "status": status, "theorems": thms.split(), "note": note})

C = "Mass.Cut."
def q(ns, names): return " ".join(ns + n for n in names.split())

exec(open(os.path.join(root, "tools", "claims.py")).read())

names = set()
mods = []
for f in sorted(glob.glob(root + "/lean/Verif/**/*.lean", recursive=True)):
    mods.append(os.path.relpath(f, root + "/lean")[:-5].replace("/", "."))
    ns = []
    for line in open(f):
        m = re.match(r"namespace (\S+)", line)
        if m: ns.append(m.group(1))
        m = re.match(r"end (\S+)", line)
        if m and ns and ns[-1] == m.group(1): ns.pop()
        m = re.match(r"(?:@\[[^\]]*\] )?(?:private )?theorem (\S+)", line)
        if m: names.add(".".join(ns + [m.group(1)]))
bad = [t for cl in claims for t in cl["theorems"] if t not in names]
if bad: print("UNKNOWN THEOREMS", bad)
with open(root + "/lean/Verif.lean", "w") as f:
    for m in mods: f.write(f"import {m}\n")
claims.sort(key=lambda x: x["property"])
with open(root + "/MANIFEST.json", "w") as f:
    json.dump({"claims": claims}, f, indent=1, ensure_ascii=False)
    f.write("\n")
props = [json.loads(l)["id"] for l in open(root + "/properties.jsonl")]
done = {cl["property"] for cl in claims}
print("no claim:", [p for p in props if p not in done])
with open("/tmp/axioms.lean", "w") as f:
    f.write("import Verif\n")
    for cl in claims:
        for t in cl["theorems"]: f.write(f"#print axioms {t}\n")

"""Writes DESIGN.md. Run tools/gen_manifest.py and `lake env lean /tmp/axioms.lean > /tmp/axioms.out` (in lean/) first."""
import json, re, glob, os, collections
root = os.path.dirname(os.path.dirname(os.path.abspath(__file__)))
exec(open(root + "/tools/how.py").read())
props = [json.loads(l) for l in open(root + "/properties.jsonl")]
claims = {c["property"]: c for c in json.load(open(root + "/MANIFEST.json"))["claims"]}
out = [open(root + "/tools/design_head.md").read().rstrip(), ""]
where, fails, cited = {}, [], collections.defaultdict(set)
files = sorted(glob.glob(root + "/lean/Verif/**/*.lean", recursive=True))
src = {os.path.basename(p): os.path.relpath(p, "/repo") for p in
       glob.glob("/repo/mass/**/*.py", recursive=True) + glob.glob("/repo/mass/**/*.pyx", recursive=True)}
amb = {"utilities.py"}
for f in files:
    rel = os.path.relpath(f, root + "/lean/Verif")
    ns = []
    t = open(f).read()
    for line in t.split("\n"):
        m = re.match(r"namespace (\S+)", line)
        if m: ns.append(m.group(1))
        m = re.match(r"end (\S+)", line)
        if m and ns and ns[-1] == m.group(1): ns.pop()
        m = re.match(r"(?:@\[[^\]]*\] )?(?:private )?theorem (\S+)", line)
        if m: where[".".join(ns + [m.group(1)])] = rel
    for m in re.finditer(r"(?:/--((?:(?!-/).)*)-/\s*)?(?:@\[[^\]]*\]\s*)?theorem (\S*_fails)\b", t, re.S):
        fails.append((rel, m.group(2), re.sub(r"\s+", " ", m.group(1) or "").strip()))
    for d in re.findall(r"/--((?:(?!-/).)*)-/", t, re.S):
        for m in re.finditer(r"((?:mass/)?[\w/]*\w+\.pyx?)((?:(?!\.pyx?\b).)*)", d, re.S):
            for a, b in re.findall(r"\bL(\d+)(?:-L?(\d+))?", m.group(2)):
                name = m.group(1)
                base = os.path.basename(name)
                if base in amb and "/" not in name: continue
                full = name if name.startswith("mass/") else ("mass/" + name if "/" in name and os.path.exists("/repo/mass/" + name) else src.get(base))
                if full: cited[full].add((int(a), int(b or a)))
out += ["## Properties", "",
        "| id | title | status | modelled | proved by | where | theorems | note |", "|---|---|---|---|---|---|---|---|"]
for p in props:
    c = claims[p["id"]]
    h = how[p["id"]]
    mods = sorted({where[t] for t in c["theorems"]})
    th = ", ".join("`" + t.replace("Mass.", "", 1) + "`" for t in c["theorems"])
    out.append(f"| {p['id']} | {p['title']} | {c['status']} | {h[0]} | {h[1]} | {', '.join(mods)} | {th} | {c['note']} |".replace("\n", " "))
out += ["", "## Disagreements", "",
        "Statements one would expect, refuted for the unchanged code by a concrete witness that the kernel checks. Each line gives the",
        "theorem and its comment.", ""]
for rel, n, d in fails: out.append(f"* `{n}` ({rel}): {d}")
out += ["", "## Trusted base", "",
        "* Lean 4.33.0's kernel and the Mathlib modules imported (checked by the same kernel). No axioms are added; no `sorry`,",
        "  `native_decide` or `bv_decide`. Literal examples and `_fails` witnesses use `decide +kernel`, which only trusts the kernel.",
        "* The faithfulness of the hand-written model to the lines cited below, and python/numpy/h5py/scipy semantics as described in",
        "  the comments. The code was read, not run.", "", "Axioms each claimed theorem depends on:", ""]
ax = collections.defaultdict(list)
s = open("/tmp/axioms.out").read()
for m in re.finditer(r"'(\S+)' (?:depends on axioms: \[([^\]]*)\]|does not depend on any axioms)", s):
    ax[re.sub(r"\s+", " ", m.group(2) or "none")].append(m.group(1).replace("Mass.", "", 1))
big = max(ax, key=lambda k: len(ax[k]))
for k in sorted(ax, key=lambda k: len(ax[k])):
    if k == big: out.append(f"* {k}: all {len(set(ax[k]))} others")
    else: out.append(f"* {k}: " + ", ".join(f"`{x}`" for x in sorted(set(ax[k]))))
out += ["", "## Modelled code", "", "Lines cited by definitions of the model (merged ranges):", ""]
for f in sorted(cited):
    rs = sorted(cited[f]); mg = []
    for a, b in rs:
        if mg and a <= mg[-1][1] + 1: mg[-1][1] = max(mg[-1][1], b)
        else: mg.append([a, b])
    out.append(f"* `{f}`: " + ", ".join(f"{a}-{b}" if a != b else str(a) for a, b in mg))
out += ["", open(root + "/tools/design_tail.md").read().rstrip(), ""]
open(root + "/DESIGN.md", "w").write("\n".join(out))
print(len(out), "lines;", [p["id"] for p in props if p["id"] not in how], "without how")

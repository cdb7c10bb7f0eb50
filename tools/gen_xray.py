"""Write lean/Verif/Line/XrayData.lean: the two data files of mass/calibration/nist_xray_database.py, line by line, and the table of what is read from them."""
BASE = '/repo/mass/calibration/'
OUT = '/verif/lean/Verif/Line/XrayData.lean'


def is_head(t):
    return "Theory" in t and "Blend" in t and "Ref." in t


def chars(s):
    return "[" + ",".join("'%s'" % c for c in s) + "]"


def row(t):
    el, mass, tr, theory = t[:5].rstrip(), t[5:9].rstrip(), t[9:16].rstrip(), t[16:44]
    if len(t) <= 44:
        assert el.ljust(5) + mass.ljust(4) + tr.ljust(7) + theory == t, t
        return f".short {chars(el)} {chars(mass)} {chars(tr)} {chars(theory)}", None
    theory = theory.rstrip()
    pk = t[44:60].rstrip()
    un = t[60:72].rstrip()
    tail = t[60 + len(un):]
    more = tail.lstrip(" ")
    gap = len(tail) - len(more)
    assert el.ljust(5) + mass.ljust(4) + tr.ljust(7) + theory.ljust(28) + pk.ljust(16) + un + " " * gap + more == t, t
    assert more == "" or len(un) + gap >= 12
    r = f".full {chars(el)} {chars(mass)} {chars(tr)} {chars(theory)} {chars(pk)} {chars(un)} {gap} {chars(more)}"
    return r, (f"⟨{chars(el)}, {chars(tr)}, {pk}, {un}⟩" if pk else None)


out = ["import Verif.Line.XrayDb", "import Mathlib.Data.Rat.Defs",
       "/-! C188: the data files of the x-ray data base, mass/calibration/nist_xray_data.dat and low_z_xray_data.dat. Written by tools/gen_xray.py: every line of the files, and the lines with a measured energy as a table. -/",
       "namespace Mass.Line.XrayData", "open Mass Mass.Names Mass.Line.Xray", "",
       "/-- a line of a data file (layout: nist_xray_data.dat L6-17): with columns up to the measured energy or beyond, or one that ends before (`theory` are columns 17-44, `more` what follows the uncertainty and `gap` blanks) -/",
       "inductive Row", "  | full (el mass tr theory pk un : Str) (gap : Nat) (more : Str)", "  | short (el mass tr theory : Str)", "  deriving DecidableEq", ""]
tabs = []
for fn, short in (("nist_xray_data.dat", "main"), ("low_z_xray_data.dat", "low")):
    txt = open(BASE + fn, encoding="utf-8").read()
    lines = txt.split("\n")
    if lines[-1] == "":
        lines.pop()
    h = [i for i, t in enumerate(lines) if is_head(t)]
    assert len(h) == 1 and '"' not in txt and '\\' not in txt and "'" not in "".join(lines[h[0]:]) and all(31 < ord(c) < 127 for c in txt if c != "\n")
    h = h[0]
    out += [f"/-- {fn} L1-{h}: what comes before the title -/", f"def {short}Before : List String := [" + ", ".join('"%s"' % t for t in lines[:h]) + "]", "",
            f"/-- {fn} L{h+1}: the title -/", f"def {short}Title : String := \"{lines[h]}\"", ""]
    names = []
    for a in range(h + 1, len(lines), 60):
        b = min(a + 60, len(lines))
        n = f"{short}{len(names)}"
        names.append(n)
        rs = [row(t) for t in lines[a:b]]
        out += [f"/-- {fn} L{a+1}-{b} -/", f"def {n} : List Row := [" + ",\n  ".join(r for r, _ in rs) + "]", ""]
        out += [f"/-- the lines of {fn} L{a+1}-{b} with a measured energy -/", f"def {n}T : List (XLine ℚ) := [" + ",\n  ".join(x for _, x in rs if x) + "]", ""]
    tabs += names
    out += [f"/-- {fn} after the title -/", f"def {short}Rows : List Row := " + " ++ ".join(names), ""]
out += ["/-- the parts of both files, with what is read from them (nist_xray_data.dat, low_z_xray_data.dat) -/", "def parts : List (List Row × List (XLine ℚ)) := [" + ", ".join(f"({n}, {n}T)" for n in tabs) + "]", "",
        "/-- all lines with a measured energy (nist_xray_data.dat, low_z_xray_data.dat) -/", "def table : List (XLine ℚ) := " + " ++ ".join(n + "T" for n in tabs), "", "end Mass.Line.XrayData", ""]
open(OUT, "w").write("\n".join(out))

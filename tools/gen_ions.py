"""Write lean/Verif/Line/IonTable.lean: the calls of addline in mass/calibration/_highly_charged_ion_lines.py as a table."""
import ast
from fractions import Fraction as Fr

SRC = '/repo/mass/calibration/_highly_charged_ion_lines.py'
OUT = '/verif/lean/Verif/Line/IonTable.lean'
src = open(SRC).read()
tree = ast.parse(src)


def ev(n):
    if isinstance(n, ast.Constant):
        if isinstance(n.value, (int, float)) and not isinstance(n.value, bool):
            return Fr(ast.get_source_segment(src, n))
        return n.value
    if isinstance(n, (ast.List, ast.Tuple)):
        return [ev(x) for x in n.elts]
    if isinstance(n, ast.Name):
        return n.id
    if isinstance(n, ast.Attribute):
        return n.attr
    if isinstance(n, ast.Call):
        assert ast.unparse(n.func) == 'np.array'
        return ev(n.args[0])
    if isinstance(n, ast.BinOp):
        a, b = ev(n.left), ev(n.right)
        return {ast.Add: lambda x, y: x + y, ast.Mult: lambda x, y: x * y, ast.Div: lambda x, y: x / y}[type(n.op)](a, b)
    raise ValueError(ast.dump(n))


def q(x):
    if x.denominator == 1:
        return str(x.numerator)
    if 10**12 % x.denominator:
        return f"{x.numerator} / {x.denominator}"
    k = 1
    while 10**k % x.denominator:
        k += 1
    t = str(x.numerator * (10**k // x.denominator)).rjust(k + 1, "0")
    return t[:-k] + "." + t[-k:]


def ql(v):
    return "[" + ", ".join(q(x) for x in v) + "]"


calls = [n.value for n in tree.body if isinstance(n, ast.Expr) and isinstance(n.value, ast.Call)]
o = ['''import Verif.Line.Builtin
/-! The lines of highly charged ions that are written down in the package (C189): the calls of `addline` in mass/calibration/_highly_charged_ion_lines.py, written by tools/gen_ions.py. Numbers are the
decimal numbers of the source, exactly; sums and quotients in the source are worked out exactly. Left out: position_uncertainty, fitter_type, reference_measurement_type. -/
namespace Mass.Line.Ions
open Mass.Line.Builtin
''']
names = []
for c in calls:
    assert ast.unparse(c.func) == 'fluorescence_lines.addline'
    d = {k.arg: ev(k.value) for k in c.keywords}
    assert set(d) <= {'element', 'material', 'linetype', 'reference_short', 'nominal_peak_energy', 'energies', 'lorentzian_fwhm', 'reference_amplitude', 'reference_amplitude_type',
                      'ka12_energy_diff', 'reference_plot_instrument_gaussian_fwhm', 'position_uncertainty', 'fitter_type', 'reference_measurement_type'}
    assert d['ka12_energy_diff'] is None and d['reference_amplitude_type'] == 'LORENTZIAN_PEAK_HEIGHT'
    names.append(f"line{c.lineno}")
    o.append(f"/-- _highly_charged_ion_lines.py L{c.lineno}-{c.end_lineno} -/")
    o.append(f'def {names[-1]} : Entry := ⟨"{d["element"]}", "{d["linetype"]}", "{d["material"]}", "{d["reference_short"]}", true, some ({q(d["reference_plot_instrument_gaussian_fwhm"])}), '
             f'{q(d["nominal_peak_energy"])}, {ql(d["energies"])}, {ql(d["lorentzian_fwhm"])}, {ql(d["reference_amplitude"])}, .lorentzianPeakHeight, none⟩\n')
o.append(f"/-- all calls, in order, _highly_charged_ion_lines.py L{calls[0].lineno}-{calls[-1].end_lineno} -/")
o.append("def table : List Entry := [" + ", ".join(names) + "]\n")
o.append("end Mass.Line.Ions")
open(OUT, 'w').write("\n".join(o) + "\n")

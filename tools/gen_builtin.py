"""Write lean/Verif/Line/Builtin.lean: the calls of addline in mass/calibration/fluorescence_lines.py as a table."""
import ast
from fractions import Fraction as Fr

SRC = '/repo/mass/calibration/fluorescence_lines.py'
OUT = '/verif/lean/Verif/Line/Builtin.lean'
# the two entries of the data base that are used (nist_xray_data.dat, lines 61 and 62)
FEATURES = {"FeLAlpha": Fr("704.8"), "FeLBeta": Fr("718.32")}
src = open(SRC).read()
tree = ast.parse(src)


def ev(n):
    if isinstance(n, ast.Constant):
        if isinstance(n.value, (int, float)) and not isinstance(n.value, bool):
            return Fr(ast.get_source_segment(src, n))
        return n.value
    if isinstance(n, (ast.List, ast.Tuple)):
        return [ev(x) for x in n.elts]
    if isinstance(n, ast.Name):
        return n.id
    if isinstance(n, ast.UnaryOp):
        return -ev(n.operand)
    if isinstance(n, ast.Subscript):
        return FEATURES[n.slice.value]
    if isinstance(n, ast.Call):
        f = ast.unparse(n.func)
        if f == 'np.array':
            return ev(n.args[0])
        if f == 'np.abs':
            return abs(ev(n.args[0]))
        raise ValueError(f)
    if isinstance(n, ast.BinOp):
        a, b = ev(n.left), ev(n.right)
        op = {ast.Add: lambda x, y: x + y, ast.Sub: lambda x, y: x - y,
              ast.Mult: lambda x, y: x * y, ast.Div: lambda x, y: x / y}[type(n.op)]
        if isinstance(a, list) and isinstance(b, list):
            return [op(x, y) for x, y in zip(a, b)]
        if isinstance(a, list):
            return [op(x, b) for x in a]
        if isinstance(b, list):
            return [op(a, x) for x in b]
        return op(a, b)
    raise ValueError(ast.dump(n))


def q(x):
    if x.denominator == 1:
        return str(x.numerator)
    k = 1
    while 10**k % x.denominator:
        k += 1
    n = abs(x.numerator) * (10**k // x.denominator)
    t = str(n).rjust(k + 1, "0")
    return ("-" if x < 0 else "") + t[:-k] + "." + t[-k:]


def ql(v):
    return "[" + ", ".join(q(x) for x in v) + "]"


def opt(x):
    return "none" if x is None else f"(some ({q(x)}))"


TY = {'LORENTZIAN_PEAK_HEIGHT': '.lorentzianPeakHeight', 'LORENTZIAN_INTEGRAL_INTENSITY': '.lorentzianIntegralIntensity',
      'VOIGT_PEAK_HEIGHT': '.voigtPeakHeight'}
calls = [n.value for n in tree.body if isinstance(n, ast.Expr) and isinstance(n.value, ast.Call)
         and getattr(n.value.func, 'id', '') == 'addline']
refs = [n for n in tree.body if isinstance(n, ast.Assign) and ast.unparse(n.targets[0]).startswith('lineshape_references[')]
o = []
o.append('''import Verif.Line.Spectral
import Mathlib.Data.Rat.Cast.Order
/-! The lines that come with the package (C186): the calls of `addline` in mass/calibration/fluorescence_lines.py L445-1505, written by tools/gen_builtin.py. Numbers are the decimal
numbers of the source, exactly; sums and products in the source are worked out exactly. -/
namespace Mass.Line.Builtin

/-- the arguments of a call of `addline`, fluorescence_lines.py L365-369; those that no call gives are left out (fitter_type, intrinsic_sigma, reference_measurement_type,
allow_replacement), and so is position_uncertainty -/
structure Entry where
  element : String
  linetype : String
  material : String
  reference : String
  isDefault : Bool
  refFwhm : Option ℚ
  nominal : ℚ
  energies : List ℚ
  fwhm : List ℚ
  amp : List ℚ
  ty : AmpType
  ka12 : Option ℚ
''')
o.append(f"/-- the keys of `lineshape_references`, fluorescence_lines.py L{refs[0].lineno}-{refs[-1].end_lineno} -/")
o.append("def references : List String := [" + ", ".join('"' + r.targets[0].slice.value + '"' for r in refs) + "]\n")
names = []
for i, c in enumerate(calls):
    d = {k.arg: ev(k.value) for k in c.keywords}
    assert set(d) <= {'element', 'material', 'linetype', 'reference_short', 'nominal_peak_energy', 'energies', 'lorentzian_fwhm',
                      'reference_amplitude', 'reference_amplitude_type', 'ka12_energy_diff', 'reference_plot_instrument_gaussian_fwhm',
                      'position_uncertainty', 'is_default_material'}
    nm = d['element'] + d['linetype'] + ('' if d.get('is_default_material', True) else '_' + d['material'].replace(' ', '_'))
    names.append(nm)
    extra = "; the energies are those of the data base, nist_xray_data.dat L61-62" if i == 0 else ""
    o.append(f"/-- fluorescence_lines.py L{c.lineno}-{c.end_lineno}{extra} -/")
    o.append(f'def {nm} : Entry := ⟨"{d["element"]}", "{d["linetype"]}", "{d["material"]}", "{d["reference_short"]}", '
             f'{"true" if d.get("is_default_material", True) else "false"}, {opt(d["reference_plot_instrument_gaussian_fwhm"])}, {q(d["nominal_peak_energy"])},')
    o.append(f"  {ql(d['energies'])},\n  {ql(d['lorentzian_fwhm'])},\n  {ql(d['reference_amplitude'])},")
    o.append(f"  {TY[d['reference_amplitude_type']]}, {opt(d.get('ka12_energy_diff'))}⟩\n")
o.append(f"/-- all calls, in order, fluorescence_lines.py L{calls[0].lineno}-{calls[-1].end_lineno} -/")
o.append("def table : List Entry := [" + ", ".join(names) + "]\n")
o.append("end Mass.Line.Builtin")
open(OUT, 'w').write("\n".join(o) + "\n")

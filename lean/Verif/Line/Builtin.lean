import Verif.Line.Spectral
import Mathlib.Data.Rat.Cast.Order
/-! The lines that come with the package (C186): the calls of `addline` in mass/calibration/fluorescence_lines.py L445-1505, written by tools/gen_builtin.py. Numbers are the decimal
numbers of the source, exactly; sums and products in the source are worked out exactly. -/
namespace Mass.Line.Builtin

/-- the arguments of a call of `addline`, fluorescence_lines.py L365-369; those that no call gives are left out (fitter_type, intrinsic_sigma, reference_measurement_type,
allow_replacement), and so is position_uncertainty -/
structure Entry where
  element : String
  linetype : String
  material : String
  reference : String
  isDefault : Bool
  refFwhm : Option ℚ
  nominal : ℚ
  energies : List ℚ
  fwhm : List ℚ
  amp : List ℚ
  ty : AmpType
  ka12 : Option ℚ

/-- the keys of `lineshape_references`, fluorescence_lines.py L235-355 -/
def references : List String := ["Klauber 1993", "Wollman 2000", "Chantler 2006", "Chantler 2013", "Chantler 2013, Section 5", "Hoelzer 1997, NISTfits.ipf", "Hoelzer 1997", "Zn Hack", "Zschornack", "Steve Smith", "Joe Fowler", "NIST ASD", "Clementson 2010", "Nilsen 1995", "Deslattes Notebook Si", "Schweppe 1992 Al", "Mendenhall 2019", "Deslattes Notebook S, Cl, K", "Ravel 2018", "Ito 2020", "Menesguen 2022", "Dean 2019", "Dean 2020", "Rough Estimate"]

/-- fluorescence_lines.py L445-458; the energies are those of the data base, nist_xray_data.dat L61-62 -/
def FeLAlpha : Entry := ⟨"Fe", "LAlpha", "metal", "Rough Estimate", true, (some (0.2)), 704.8,
  [704.8, 718.32],
  [3, 3],
  [2, 1],
  .lorentzianPeakHeight, (some (13.52))⟩

/-- fluorescence_lines.py L460-476 -/
def MgKAlpha : Entry := ⟨"Mg", "KAlpha", "metal", "Menesguen 2022", true, (some (0.2)), 1253.635,
  [1253.666, 1253.401, 1253.422, 1258.457, 1261.887, 1262.156, 1263.758, 1271.034, 1272.601, 1274.187],
  [0.38, 0.374, 0.859, 1.006, 0.485, 0.585, 0.797, 1.213, 0.88, 0.852],
  [100, 49.75, 19.7, 1.99, 8, 6, 8.32, 1.23, 0.23, 0.71],
  .lorentzianIntegralIntensity, (some (0.266))⟩

/-- fluorescence_lines.py L478-494 -/
def AlKAlpha : Entry := ⟨"Al", "KAlpha", "metal", "Menesguen 2022", true, (some (0.2)), 1486.69,
  [1486.709, 1486.305, 1486.314, 1492.305, 1496.227, 1496.635, 1498.397, 1506.719, 1510.212],
  [0.392, 0.392, 1.12, 1.16, 0.647, 0.685, 0.932, 1.49, 1.07],
  [100, 49.4, 16.1, 1.21, 7.54, 3.7, 5.77, 0.7, 0.51],
  .lorentzianIntegralIntensity, (some (0.404))⟩

/-- fluorescence_lines.py L496-510 -/
def SiKAlpha : Entry := ⟨"Si", "KAlpha", "Si wafer", "Menesguen 2022", true, (some (0.2)), 1739.961,
  [1739.973, 1739.361, 1739.537, 1746.33, 1750.687, 1751.276, 1753.113, 1762.677, 1766.607],
  [0.441, 0.458, 1.12, 1.18, 0.8, 0.74, 0.931, 1.83, 1.07],
  [100, 50.35, 12.41, 0.78, 5.65, 2.03, 4.45, 0.29, 0.18],
  .lorentzianIntegralIntensity, (some (0.612))⟩

/-- fluorescence_lines.py L515-528 -/
def MgKAlpha_metal_v1 : Entry := ⟨"Mg", "KAlpha", "metal_v1", "Klauber 1993", false, none, 1253.687,
  [1253.422, 1253.687, 1258.427, 1261.897, 1262.174, 1263.782, 1271.091, 1274.117],
  [0.541, 0.541, 1.1056, 0.6264, 0.7349, 1.0007, 1.4311, 0.8656],
  [0.5, 1, 0.02099, 0.07868, 0.04712, 0.09071, 0.01129, 0.00538],
  .lorentzianIntegralIntensity, (some (2.2))⟩

/-- fluorescence_lines.py L530-544 -/
def AlKAlpha_metal_v1992 : Entry := ⟨"Al", "KAlpha", "metal_v1992", "Schweppe 1992 Al", false, none, 1486.88931733,
  [1486.706, 1486.293, 1492.3, 1496.4, 1498.4],
  [0.43, 0.43, 1.34, 0.96, 1.255],
  [1, 0.5, 0.02, 0.12, 0.06],
  .lorentzianIntegralIntensity, (some (3))⟩

/-- fluorescence_lines.py L546-559 -/
def AlKAlpha_AlO : Entry := ⟨"Al", "KAlpha", "AlO", "Wollman 2000", false, none, 1486.930456,
  [1486.94, 1486.52, 1492.94, 1496.85, 1498.7, 1507.4, 1510.9],
  [0.43, 0.43, 1.34, 0.96, 1.25, 1.5, 0.9],
  [1, 0.5, 0.033, 0.12, 0.11, 0.07, 0.05],
  .lorentzianPeakHeight, (some (3))⟩

/-- fluorescence_lines.py L561-575 -/
def SiKAlpha_Si_crystal : Entry := ⟨"Si", "KAlpha", "Si crystal", "Deslattes Notebook Si", false, (some (0.245)), 1739.986,
  [1739.39, 1739.986, 1752],
  [0.539, 0.524, 5],
  [313.4, 6121, 800],
  .lorentzianIntegralIntensity, (some (0.6))⟩

/-- fluorescence_lines.py L577-590 -/
def SKAlpha : Entry := ⟨"S", "KAlpha", "MoS2 spray", "Deslattes Notebook S, Cl, K", true, (some (0.2414)), 2307.89,
  [2307.89, 2306.7],
  [0.769, 0.722],
  [11951, 6111.4],
  .lorentzianIntegralIntensity, (some (1.19))⟩

/-- fluorescence_lines.py L592-605 -/
def ClKAlpha : Entry := ⟨"Cl", "KAlpha", "KCl crystal", "Deslattes Notebook S, Cl, K", true, (some (0.266)), 2622.44,
  [2622.44, 2620.85],
  [0.925, 0.945],
  [15153, 8242.9],
  .lorentzianIntegralIntensity, (some (1.6))⟩

/-- fluorescence_lines.py L607-620 -/
def KKAlpha : Entry := ⟨"K", "KAlpha", "KCl crystal", "Deslattes Notebook S, Cl, K", true, (some (0.0896)), 3313.93,
  [3313.93, 3311.17],
  [0.948, 0.939],
  [15153, 8242.9],
  .lorentzianIntegralIntensity, (some (2.75))⟩

/-- fluorescence_lines.py L622-635 -/
def ScKAlpha : Entry := ⟨"Sc", "KAlpha", "metal", "Dean 2019", true, (some (1.9)), 4090.699,
  [4090.709, 4089.418, 4087.752, 4093.508, 4085.918, 4083.926],
  [1.15, 2.89, 1.02, 2.01, 1.4, 3.86],
  [501, 107, 15, 43, 321, 14],
  .lorentzianIntegralIntensity, (some (4.773))⟩

/-- fluorescence_lines.py L639-653 -/
def ScKAlpha_metal_2006 : Entry := ⟨"Sc", "KAlpha", "metal_2006", "Chantler 2006", false, (some (0.52)), 4090.735,
  [4090.745, 4089.452, 4087.782, 4093.547, 4085.941, 4083.976],
  [1.17, 2.65, 1.41, 2.09, 1.53, 3.49],
  [8175, 878, 232, 287, 4290, 119],
  .voigtPeakHeight, (some (5.1))⟩

/-- fluorescence_lines.py L655-667 -/
def ScKBeta : Entry := ⟨"Sc", "KBeta", "metal", "Dean 2020", true, (some (1.97)), 4460.845,
  [4460.972, 4459.841, 4458.467, 4455.979, 4463.544],
  [1.22, 1.58, 2.51, 4.64, 2.1],
  [530, 234, 149, 43, 42],
  .lorentzianIntegralIntensity, none⟩

/-- fluorescence_lines.py L669-683 -/
def TiKAlpha : Entry := ⟨"Ti", "KAlpha", "metal", "Chantler 2006", true, (some (0.11)), 4510.903,
  [4510.918, 4509.954, 4507.763, 4514.002, 4504.91, 4503.088],
  [1.37, 2.22, 3.75, 1.7, 1.88, 4.49],
  [4549, 626, 236, 143, 2034, 54],
  .voigtPeakHeight, (some (6))⟩

/-- fluorescence_lines.py L685-698 -/
def TiKBeta : Entry := ⟨"Ti", "KBeta", "metal", "Chantler 2013", true, (some (2.9293712)), 4931.966,
  [4925.37, 4930.096, 4931.967, 4935.59],
  [16.3, 4.25, 0.42, 0.47],
  [199, 455, 326, 19.2],
  .lorentzianIntegralIntensity, none⟩

/-- fluorescence_lines.py L700-713 -/
def VKAlpha : Entry := ⟨"V", "KAlpha", "metal", "Chantler 2006", true, (some (1.99)), 4952.216,
  [4952.237, 4950.656, 4948.266, 4955.269, 4944.672, 4943.014],
  [1.45, 2, 1.81, 1.76, 2.94, 3.09],
  [25832, 5410, 1536, 956, 12971, 603],
  .voigtPeakHeight, (some (7.5))⟩

/-- fluorescence_lines.py L715-726 -/
def VKBeta : Entry := ⟨"V", "KBeta", "metal", "Chantler 2013, Section 5", true, (some (1.895614)), 5426.956,
  [5418.19, 5424.5, 5426.992],
  [18.86, 5.48, 2.499],
  [258, 236, 507],
  .lorentzianIntegralIntensity, none⟩

/-- fluorescence_lines.py L728-741 -/
def CrKAlpha : Entry := ⟨"Cr", "KAlpha", "metal", "Hoelzer 1997, NISTfits.ipf", true, none, 5414.81,
  [5414.874, 5414.099, 5412.745, 5410.583, 5418.304, 5405.551, 5403.986],
  [1.457, 1.76, 3.138, 5.149, 1.988, 2.224, 4.74],
  [822, 237, 85, 45, 15, 386, 36],
  .lorentzianPeakHeight, (some (9.2))⟩

/-- fluorescence_lines.py L743-755 -/
def CrKBeta : Entry := ⟨"Cr", "KBeta", "metal", "Hoelzer 1997", true, none, 5946.82,
  [5947, 5935.31, 5946.24, 5942.04, 5944.93],
  [1.7, 15.98, 1.9, 6.69, 3.37],
  [670, 55, 337, 82, 151],
  .lorentzianPeakHeight, none⟩

/-- fluorescence_lines.py L757-770 -/
def MnKAlpha : Entry := ⟨"Mn", "KAlpha", "metal", "Hoelzer 1997, NISTfits.ipf", true, none, 5898.802,
  [5898.853, 5897.867, 5894.829, 5896.532, 5899.417, 5902.712, 5887.743, 5886.495],
  [1.715, 2.043, 4.499, 2.663, 0.969, 1.553, 2.361, 4.216],
  [790, 264, 68, 96, 71, 10, 372, 100],
  .lorentzianPeakHeight, (some (11.1))⟩

/-- fluorescence_lines.py L772-784 -/
def MnKBeta : Entry := ⟨"Mn", "KBeta", "metal", "Hoelzer 1997", true, none, 6490.18,
  [6490.89, 6486.31, 6477.73, 6490.06, 6488.83],
  [1.83, 9.4, 13.22, 1.81, 2.81],
  [608, 109, 77, 397, 176],
  .lorentzianPeakHeight, none⟩

/-- fluorescence_lines.py L786-799 -/
def FeKAlpha : Entry := ⟨"Fe", "KAlpha", "metal", "Hoelzer 1997, NISTfits.ipf", true, none, 6404.01,
  [6404.148, 6403.295, 6400.653, 6402.077, 6391.19, 6389.106, 6390.275],
  [1.613, 1.965, 4.833, 2.803, 2.487, 4.339, 2.57],
  [697, 376, 88, 136, 339, 60, 102],
  .lorentzianPeakHeight, (some (13))⟩

/-- fluorescence_lines.py L808-820 -/
def FeKBeta : Entry := ⟨"Fe", "KBeta", "metal", "Hoelzer 1997", true, none, 7058.18,
  [7046.9, 7057.21, 7058.36, 7054.75],
  [14.17, 3.12, 1.97, 6.38],
  [107, 448, 615, 141],
  .lorentzianPeakHeight, none⟩

/-- fluorescence_lines.py L822-835 -/
def CoKAlpha : Entry := ⟨"Co", "KAlpha", "metal", "Hoelzer 1997, NISTfits.ipf", true, none, 6930.38,
  [6930.425, 6929.388, 6927.676, 6930.941, 6915.713, 6914.659, 6913.078],
  [1.795, 2.695, 4.555, 0.808, 2.406, 2.773, 4.463],
  [809, 205, 107, 41, 314, 131, 43],
  .lorentzianPeakHeight, (some (15))⟩

/-- fluorescence_lines.py L840-852 -/
def CoKBeta : Entry := ⟨"Co", "KBeta", "metal", "Hoelzer 1997", true, none, 7649.45,
  [7649.6, 7647.83, 7639.87, 7645.49, 7636.21, 7654.13],
  [3.05, 3.58, 9.78, 4.89, 13.59, 3.79],
  [798, 286, 85, 114, 33, 35],
  .lorentzianPeakHeight, none⟩

/-- fluorescence_lines.py L854-867 -/
def NiKAlpha : Entry := ⟨"Ni", "KAlpha", "metal", "Hoelzer 1997, NISTfits.ipf", true, none, 7478.26,
  [7478.281, 7476.529, 7461.131, 7459.874, 7458.029],
  [2.013, 4.711, 2.674, 3.039, 4.476],
  [909, 136, 351, 79, 24],
  .lorentzianPeakHeight, (some (17.2))⟩

/-- fluorescence_lines.py L869-881 -/
def NiKBeta : Entry := ⟨"Ni", "KBeta", "metal", "Hoelzer 1997", true, none, 8264.78,
  [8265.01, 8263.01, 8256.67, 8268.7],
  [3.76, 4.34, 13.7, 5.18],
  [722, 358, 89, 104],
  .lorentzianPeakHeight, none⟩

/-- fluorescence_lines.py L883-896 -/
def CuKAlpha : Entry := ⟨"Cu", "KAlpha", "metal", "Hoelzer 1997", true, none, 8047.83,
  [8047.8372, 8045.3672, 8027.9935, 8026.5041],
  [2.285, 3.358, 2.667, 3.571],
  [957, 90, 334, 111],
  .lorentzianPeakHeight, (some (20))⟩

/-- fluorescence_lines.py L898-910 -/
def CuKBeta : Entry := ⟨"Cu", "KBeta", "metal", "Hoelzer 1997", true, none, 8905.42,
  [8905.532, 8903.109, 8908.462, 8897.387, 8911.393],
  [3.52, 3.52, 3.55, 8.08, 5.31],
  [757, 388, 171, 68, 55],
  .lorentzianPeakHeight, none⟩

/-- fluorescence_lines.py L912-924 -/
def ZnKAlpha : Entry := ⟨"Zn", "KAlpha", "metal", "Zn Hack", true, none, 8638.91,
  [8638.8872, 8636.4172, 8615.9835, 8614.4941],
  [2.5135, 3.6938, 2.9337, 3.9281],
  [957, 90, 334, 111],
  .lorentzianPeakHeight, (some (23))⟩

/-- fluorescence_lines.py L926-937 -/
def ZnKBeta : Entry := ⟨"Zn", "KBeta", "metal", "Zn Hack", true, none, 9572.03,
  [9573.71392, 9571.14554, 9576.81972, 9565.08022, 9579.92658],
  [3.7312, 3.7312, 3.763, 8.5648, 5.6286],
  [757, 388, 171, 68, 55],
  .lorentzianPeakHeight, none⟩

/-- fluorescence_lines.py L939-951 -/
def SeKAlpha : Entry := ⟨"Se", "KAlpha", "metal", "Ito 2020", true, (some (0.17)), 11222.383,
  [11222.38, 11217.573, 11181.48, 11178.55],
  [3.633, 3.53, 3.579, 3.02],
  [100, 1.68, 50.83, 1.8],
  .lorentzianIntegralIntensity, (some (40.944))⟩

/-- fluorescence_lines.py L954-965 -/
def SeKBeta : Entry := ⟨"Se", "KBeta", "metal", "Ito 2020", true, (some (0.17)), 12495.911,
  [12495.911, 12490.094, 12503.11, 12652.84],
  [4.285, 5.7, 6.25, 4.81],
  [100, 63.3, 8.1, 5.24],
  .lorentzianIntegralIntensity, none⟩

/-- fluorescence_lines.py L968-980 -/
def BrKAlpha : Entry := ⟨"Br", "KAlpha", "metal", "Steve Smith", true, none, 11924.36,
  [11924.2, 11877.6],
  [3.6, 3.73],
  [2, 1],
  .lorentzianPeakHeight, (some (46.6))⟩

/-- fluorescence_lines.py L983-995 -/
def YKAlpha : Entry := ⟨"Y", "KAlpha", "metal", "Ito 2020", true, (some (0.21)), 14958.389,
  [14958.389, 14883.403],
  [5.464, 5.393],
  [100, 52.23],
  .lorentzianIntegralIntensity, (some (74.986))⟩

/-- fluorescence_lines.py L998-1009 -/
def YKBeta : Entry := ⟨"Y", "KBeta", "metal", "Ito 2020", true, (some (0.21)), 16737.89,
  [16737.88, 16726.02, 16746.2, 17010.57],
  [5.6, 5.53, 17, 5.8],
  [100, 52.6, 1.8, 1.68],
  .lorentzianIntegralIntensity, none⟩

/-- fluorescence_lines.py L1012-1024 -/
def ZrKAlpha : Entry := ⟨"Zr", "KAlpha", "metal", "Ito 2020", true, (some (0.22)), 15774.87,
  [15774.87, 15690.77],
  [5.865, 5.845],
  [100, 52.53],
  .lorentzianIntegralIntensity, (some (84.1))⟩

/-- fluorescence_lines.py L1027-1040 -/
def ZrKBeta : Entry := ⟨"Zr", "KBeta", "metal", "Ito 2020", true, (some (0.22)), 17666.578,
  [17667.78, 17654.31, 17680],
  [6.171, 5.89, 10.8],
  [100, 50.49, 5.2],
  .lorentzianIntegralIntensity, none⟩

/-- fluorescence_lines.py L1043-1054 -/
def WLAlpha : Entry := ⟨"W", "LAlpha", "metal", "Joe Fowler", true, none, 8398.24,
  [8335.34, 8398.24],
  [6.97, 7.01],
  [0.102, 0.898],
  .lorentzianPeakHeight, none⟩

/-- fluorescence_lines.py L1057-1068 -/
def WLBeta1 : Entry := ⟨"W", "LBeta1", "metal", "Joe Fowler", true, none, 9672.58,
  [9672.58],
  [7.71],
  [1],
  .lorentzianPeakHeight, none⟩

/-- fluorescence_lines.py L1071-1082 -/
def WLBeta2 : Entry := ⟨"W", "LBeta2", "metal", "Joe Fowler", true, none, 9964.13,
  [9951.82, 9963.93, 9968.53],
  [9.16, 9.82, 9.9],
  [0.0847, 0.7726, 0.1426],
  .lorentzianPeakHeight, none⟩

/-- fluorescence_lines.py L1084-1095 -/
def IrLAlpha : Entry := ⟨"Ir", "LAlpha", "metal", "Zschornack", true, none, 9175.2,
  [9099.6, 9175.2],
  [7.34, 8.1],
  [0.123, 1.079],
  .lorentzianIntegralIntensity, none⟩

/-- fluorescence_lines.py L1098-1109 -/
def IrLBeta1 : Entry := ⟨"Ir", "LBeta1", "metal", "Zschornack", true, none, 10708.35,
  [10708.35],
  [6.8],
  [1],
  .lorentzianIntegralIntensity, none⟩

/-- fluorescence_lines.py L1111-1122 -/
def PtLAlpha : Entry := ⟨"Pt", "LAlpha", "metal", "Zschornack", true, none, 9442.39,
  [9361.96, 9442.39],
  [7.3, 7.4],
  [0.13, 1.145],
  .lorentzianIntegralIntensity, none⟩

/-- fluorescence_lines.py L1125-1136 -/
def PtLBeta1 : Entry := ⟨"Pt", "LBeta1", "metal", "Zschornack", true, none, 11070.84,
  [11070.84],
  [7.43],
  [1],
  .lorentzianIntegralIntensity, none⟩

/-- fluorescence_lines.py L1138-1149 -/
def AuLAlpha : Entry := ⟨"Au", "LAlpha", "metal", "Zschornack", true, none, 9713.44,
  [9628.05, 9713.44],
  [7.61, 8.6],
  [0.1377, 1.214],
  .lorentzianIntegralIntensity, none⟩

/-- fluorescence_lines.py L1152-1163 -/
def AuLBeta1 : Entry := ⟨"Au", "LBeta1", "metal", "Zschornack", true, none, 11442.5,
  [11442.5],
  [8.5],
  [1],
  .lorentzianIntegralIntensity, none⟩

/-- fluorescence_lines.py L1165-1176 -/
def PbLAlpha : Entry := ⟨"Pb", "LAlpha", "metal", "Zschornack", true, none, 10551.7,
  [10449.6, 10551.6],
  [9.35, 9.5],
  [0.1633, 1.438],
  .lorentzianIntegralIntensity, none⟩

/-- fluorescence_lines.py L1179-1190 -/
def PbLBeta1 : Entry := ⟨"Pb", "LBeta1", "metal", "Zschornack", true, none, 12613.8,
  [12613.8],
  [8.4],
  [1],
  .lorentzianIntegralIntensity, none⟩

/-- fluorescence_lines.py L1192-1203 -/
def BiLAlpha : Entry := ⟨"Bi", "LAlpha", "metal", "Zschornack", true, none, 10838.94,
  [10731.06, 10838.94],
  [8.67, 9.8],
  [0.1726, 1.519],
  .lorentzianIntegralIntensity, none⟩

/-- fluorescence_lines.py L1206-1217 -/
def BiLBeta1 : Entry := ⟨"Bi", "LBeta1", "metal", "Zschornack", true, none, 13023.65,
  [13023.65],
  [9.603],
  [1],
  .lorentzianIntegralIntensity, none⟩

/-- fluorescence_lines.py L1219-1230 -/
def NbKBeta : Entry := ⟨"Nb", "KBeta", "Nb2O5", "Ravel 2018", true, (some (1.2)), 18625.4,
  [18625.4, 18609.9],
  [6.7, 6.7],
  [1, 0.5],
  .lorentzianIntegralIntensity, none⟩

/-- fluorescence_lines.py L1233-1244 -/
def NbKBeta24 : Entry := ⟨"Nb", "KBeta24", "Nb2O5", "Ravel 2018", true, (some (1.2)), 18952.79,
  [18952.79, 18968, 18982.7],
  [8.67, 1.9, 5.2],
  [14.07, 0.066, 0.359],
  .lorentzianIntegralIntensity, none⟩

/-- fluorescence_lines.py L1247-1259 -/
def MoKAlpha : Entry := ⟨"Mo", "KAlpha", "metal", "Mendenhall 2019", true, (some (0.02)), 17479.389,
  [17479.389, 17374.577],
  [6.389, 6.3876],
  [3331.119, 1684.988],
  .lorentzianIntegralIntensity, (some (104.812))⟩

/-- fluorescence_lines.py L1262-1273 -/
def MoKBeta : Entry := ⟨"Mo", "KBeta", "metal", "Mendenhall 2019", true, (some (0.02)), 19606.734,
  [19606.733, 19589.251, 19623.217],
  [6.88, 6.88, 6.88],
  [958.08, 488.67, 29.14],
  .lorentzianIntegralIntensity, none⟩

/-- fluorescence_lines.py L1276-1288 -/
def PrKAlpha : Entry := ⟨"Pr", "KAlpha", "metal", "Zschornack", true, none, 36026.71,
  [35550.59, 36026.71],
  [19.08, 1887],
  [4.15, 7.57],
  .lorentzianIntegralIntensity, (some (476.12))⟩

/-- fluorescence_lines.py L1291-1302 -/
def PrKBeta : Entry := ⟨"Pr", "KBeta", "metal", "Zschornack", true, none, 40748.67,
  [40653.27, 40748.67],
  [21.79, 22.73],
  [0.742, 1.436],
  .lorentzianIntegralIntensity, none⟩

/-- fluorescence_lines.py L1305-1317 -/
def NdKAlpha : Entry := ⟨"Nd", "KAlpha", "metal", "Zschornack", true, none, 37360.74,
  [36847.5, 37360.74],
  [20.25, 20.05],
  [4.51, 8.21],
  .lorentzianIntegralIntensity, (some (513.24))⟩

/-- fluorescence_lines.py L1320-1331 -/
def NdKBeta : Entry := ⟨"Nd", "KBeta", "metal", "Zschornack", true, none, 42271.2,
  [42166.24, 42271.17],
  [23.22, 24.16],
  [0.845, 1.636],
  .lorentzianIntegralIntensity, none⟩

/-- fluorescence_lines.py L1334-1346 -/
def SmKAlpha : Entry := ⟨"Sm", "KAlpha", "metal", "Zschornack", true, none, 40118.48,
  [39523.39, 40118.48],
  [22.8, 22.6],
  [5.12, 9.27],
  .lorentzianIntegralIntensity, (some (595.09))⟩

/-- fluorescence_lines.py L1349-1360 -/
def SmKBeta : Entry := ⟨"Sm", "KBeta", "metal", "Zschornack", true, none, 45413,
  [45288.6, 45413],
  [26.2, 26.6],
  [0.927, 1.797],
  .lorentzianIntegralIntensity, none⟩

/-- fluorescence_lines.py L1363-1375 -/
def EuKAlpha : Entry := ⟨"Eu", "KAlpha", "metal", "Zschornack", true, none, 41542.63,
  [40902.33, 41542.63],
  [24.1, 23.93],
  [5.54, 10],
  .lorentzianIntegralIntensity, (some (640.3))⟩

/-- fluorescence_lines.py L1378-1389 -/
def EuKBeta : Entry := ⟨"Eu", "KBeta", "metal", "Zschornack", true, none, 47038.4,
  [46904, 47038.4],
  [27.86, 28.25],
  [1.05, 2.031],
  .lorentzianIntegralIntensity, none⟩

/-- fluorescence_lines.py L1392-1404 -/
def GdKAlpha : Entry := ⟨"Gd", "KAlpha", "metal", "Zschornack", true, none, 42996.72,
  [42309.3, 42996.72],
  [25.5, 25.4],
  [5.9, 10.6],
  .lorentzianIntegralIntensity, (some (687.42))⟩

/-- fluorescence_lines.py L1407-1418 -/
def GdKBeta : Entry := ⟨"Gd", "KBeta", "metal", "Zschornack", true, none, 48696.9,
  [48555.8, 49696.9],
  [29.5, 30],
  [1.1, 2.13],
  .lorentzianIntegralIntensity, none⟩

/-- fluorescence_lines.py L1421-1433 -/
def TbKAlpha : Entry := ⟨"Tb", "KAlpha", "metal", "Zschornack", true, none, 44482.7,
  [43744.6, 44482.7],
  [27, 26.9],
  [6.3, 11.3],
  .lorentzianIntegralIntensity, (some (738.1))⟩

/-- fluorescence_lines.py L1436-1447 -/
def TbKBeta : Entry := ⟨"Tb", "KBeta", "metal", "Zschornack", true, none, 50382.9,
  [50229.8, 50382.9],
  [31.7, 31.8],
  [1.15, 2.33],
  .lorentzianIntegralIntensity, none⟩

/-- fluorescence_lines.py L1450-1462 -/
def DyKAlpha : Entry := ⟨"Dy", "KAlpha", "metal", "Zschornack", true, none, 45998.94,
  [45208.27, 45998.94],
  [28.54, 28.41],
  [6.68, 11.94],
  .lorentzianIntegralIntensity, (some (790.67))⟩

/-- fluorescence_lines.py L1465-1476 -/
def DyKBeta : Entry := ⟨"Dy", "KBeta", "metal", "Zschornack", true, none, 52119.7,
  [51958.1, 52119.7],
  [33.5, 33.66],
  [1.23, 2.376],
  .lorentzianIntegralIntensity, none⟩

/-- fluorescence_lines.py L1479-1491 -/
def HoKAlpha : Entry := ⟨"Ho", "KAlpha", "metal", "Zschornack", true, none, 47546.7,
  [46699.7, 47546.7],
  [30.16, 30.04],
  [7.13, 12.69],
  .lorentzianIntegralIntensity, (some (847))⟩

/-- fluorescence_lines.py L1494-1505 -/
def HoKBeta : Entry := ⟨"Ho", "KBeta", "metal", "Zschornack", true, none, 53877,
  [53711, 53877],
  [35.4, 35.6],
  [1.31, 2.54],
  .lorentzianIntegralIntensity, none⟩

/-- all calls, in order, fluorescence_lines.py L445-1505 -/
def table : List Entry := [FeLAlpha, MgKAlpha, AlKAlpha, SiKAlpha, MgKAlpha_metal_v1, AlKAlpha_metal_v1992, AlKAlpha_AlO, SiKAlpha_Si_crystal, SKAlpha, ClKAlpha, KKAlpha, ScKAlpha, ScKAlpha_metal_2006, ScKBeta, TiKAlpha, TiKBeta, VKAlpha, VKBeta, CrKAlpha, CrKBeta, MnKAlpha, MnKBeta, FeKAlpha, FeKBeta, CoKAlpha, CoKBeta, NiKAlpha, NiKBeta, CuKAlpha, CuKBeta, ZnKAlpha, ZnKBeta, SeKAlpha, SeKBeta, BrKAlpha, YKAlpha, YKBeta, ZrKAlpha, ZrKBeta, WLAlpha, WLBeta1, WLBeta2, IrLAlpha, IrLBeta1, PtLAlpha, PtLBeta1, AuLAlpha, AuLBeta1, PbLAlpha, PbLBeta1, BiLAlpha, BiLBeta1, NbKBeta, NbKBeta24, MoKAlpha, MoKBeta, PrKAlpha, PrKBeta, NdKAlpha, NdKBeta, SmKAlpha, SmKBeta, EuKAlpha, EuKBeta, GdKAlpha, GdKBeta, TbKAlpha, TbKBeta, DyKAlpha, DyKBeta, HoKAlpha, HoKBeta]

end Mass.Line.Builtin

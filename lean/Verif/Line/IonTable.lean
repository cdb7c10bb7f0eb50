import Verif.Line.Builtin
/-! The lines of highly charged ions that are written down in the package (C189): the calls of `addline` in mass/calibration/_highly_charged_ion_lines.py, written by tools/gen_ions.py. Numbers are the
decimal numbers of the source, exactly; sums and quotients in the source are worked out exactly. Left out: position_uncertainty, fitter_type, reference_measurement_type. -/
namespace Mass.Line.Ions
open Mass.Line.Builtin

/-- _highly_charged_ion_lines.py L10-22 -/
def line10 : Entry := ⟨"O", " H-Like 2p", "Highly Charged Ion", "NIST ASD", true, some (0.5), 1960853549 / 3000000, [653.493657, 653.679946], [0.1, 0.1], [1, 2], .lorentzianPeakHeight, none⟩

/-- _highly_charged_ion_lines.py L24-36 -/
def line24 : Entry := ⟨"O", " H-Like 3p", "Highly Charged Ion", "NIST ASD", true, some (0.5), 774.615643, [774.634043, 774.578843], [0.1, 0.1], [2, 1], .lorentzianPeakHeight, none⟩

/-- _highly_charged_ion_lines.py L38-50 -/
def line38 : Entry := ⟨"O", " H-Like 4p", "Highly Charged Ion", "NIST ASD", true, some (0.5), 816.966606, [816.951082, 816.974368], [0.1, 0.1], [2, 1], .lorentzianPeakHeight, none⟩

/-- _highly_charged_ion_lines.py L53-66 -/
def line53 : Entry := ⟨"O", " He-Like 1s2s+1s2p", "Highly Charged Ion", "NIST ASD", true, some (0.5), 573.94777, [560.983, 568.551, 573.94777], [0.1, 0.1, 0.1], [500, 300, 1000], .lorentzianPeakHeight, none⟩

/-- _highly_charged_ion_lines.py L68-81 -/
def line68 : Entry := ⟨"O", " He-Like 1s2s 3S1", "Highly Charged Ion", "NIST ASD", true, some (0.5), 560.98386, [560.98386], [0.1], [1], .lorentzianPeakHeight, none⟩

/-- _highly_charged_ion_lines.py L83-96 -/
def line83 : Entry := ⟨"O", " He-Like 1s2p 1P1", "Highly Charged Ion", "NIST ASD", true, some (0.5), 573.94777, [573.94777], [0.1], [1], .lorentzianPeakHeight, none⟩

/-- _highly_charged_ion_lines.py L98-111 -/
def line98 : Entry := ⟨"O", " He-Like 1s3p 1P1", "Highly Charged Ion", "NIST ASD", true, some (0.5), 665.61536, [665.61536], [0.1], [1], .lorentzianPeakHeight, none⟩

/-- _highly_charged_ion_lines.py L113-126 -/
def line113 : Entry := ⟨"O", " He-Like 1s4p 1P1", "Highly Charged Ion", "NIST ASD", true, some (0.5), 697.79546, [697.79546], [0.1], [1], .lorentzianPeakHeight, none⟩

/-- _highly_charged_ion_lines.py L132-145 -/
def line132 : Entry := ⟨"Ne", " H-Like 2p", "Highly Charged Ion", "NIST ASD", true, some (0.5), 1021.801114, [1021.49755, 1021.952896], [0.1, 0.1], [1, 2], .lorentzianPeakHeight, none⟩

/-- _highly_charged_ion_lines.py L147-160 -/
def line147 : Entry := ⟨"Ne", " H-Like 3p", "Highly Charged Ion", "NIST ASD", true, some (0.5), 363274943 / 300000, [1210.826524, 1210.961453], [0.1, 0.1], [1, 2], .lorentzianPeakHeight, none⟩

/-- _highly_charged_ion_lines.py L162-175 -/
def line162 : Entry := ⟨"Ne", " H-Like 4p", "Highly Charged Ion", "NIST ASD", true, some (0.5), 478916657 / 375000, [1277.07314, 1277.130058], [0.1, 0.1], [1, 2], .lorentzianPeakHeight, none⟩

/-- _highly_charged_ion_lines.py L177-190 -/
def line177 : Entry := ⟨"Ne", " H-Like 5p", "Highly Charged Ion", "NIST ASD", true, some (0.5), 1961621069 / 1500000, [1307.727954, 1307.757092], [0.1, 0.1], [1, 2], .lorentzianPeakHeight, none⟩

/-- _highly_charged_ion_lines.py L192-205 -/
def line192 : Entry := ⟨"Ne", " H-Like 6p", "Highly Charged Ion", "NIST ASD", true, some (0.5), 1324.387893, [1324.376653, 1324.393513], [0.1, 0.1], [1, 2], .lorentzianPeakHeight, none⟩

/-- _highly_charged_ion_lines.py L207-220 -/
def line207 : Entry := ⟨"Ne", " H-Like 7p", "Highly Charged Ion", "NIST ASD", true, some (0.5), 1334.420845, [1334.413767, 1334.424384], [0.1, 0.1], [1, 2], .lorentzianPeakHeight, none⟩

/-- _highly_charged_ion_lines.py L223-236 -/
def line223 : Entry := ⟨"Ne", " He-Like 1s2s+1s2p", "Highly Charged Ion", "NIST ASD", true, some (0.5), 922.0159, [905.0772, 914.8174, 922.0159], [0.1, 0.1, 0.1], [500, 150, 1000], .lorentzianPeakHeight, none⟩

/-- _highly_charged_ion_lines.py L238-251 -/
def line238 : Entry := ⟨"Ne", " He-Like 1s2s 3S1", "Highly Charged Ion", "NIST ASD", true, some (0.5), 905.0772, [905.0772], [0.1], [1], .lorentzianPeakHeight, none⟩

/-- _highly_charged_ion_lines.py L253-266 -/
def line253 : Entry := ⟨"Ne", " He-Like 1s2p 1P1", "Highly Charged Ion", "NIST ASD", true, some (0.5), 922.0159, [922.0159], [0.1], [1], .lorentzianPeakHeight, none⟩

/-- _highly_charged_ion_lines.py L268-281 -/
def line268 : Entry := ⟨"Ne", " He-Like 1s3p 1P1", "Highly Charged Ion", "NIST ASD", true, some (0.5), 1073.7689, [1073.7689], [0.1], [1], .lorentzianPeakHeight, none⟩

/-- _highly_charged_ion_lines.py L287-300 -/
def line287 : Entry := ⟨"Ar", " H-Like 2p", "Highly Charged Ion", "NIST ASD", true, some (0.5), 3321.3868, [3318.1762, 3322.9921], [0.1, 0.1], [1, 2], .lorentzianPeakHeight, none⟩

/-- _highly_charged_ion_lines.py L302-315 -/
def line302 : Entry := ⟨"Ar", " H-Like 3p", "Highly Charged Ion", "NIST ASD", true, some (0.5), 3935.24492, [3934.29336, 3935.7207], [0.1, 0.1], [1, 2], .lorentzianPeakHeight, none⟩

/-- _highly_charged_ion_lines.py L317-330 -/
def line317 : Entry := ⟨"Ar", " H-Like 4p", "Highly Charged Ion", "NIST ASD", true, some (0.5), 4150.13935, [4149.73807, 4150.33999], [0.1, 0.1], [1, 2], .lorentzianPeakHeight, none⟩

/-- _highly_charged_ion_lines.py L333-346 -/
def line333 : Entry := ⟨"Ar", " He-Like 1s2s+1s2p", "Highly Charged Ion", "NIST ASD", true, some (0.5), 3139.5824, [3104.1486, 3123.5346, 3139.5824], [0.1, 0.1, 0.1], [100, 55, 200], .lorentzianPeakHeight, none⟩

/-- _highly_charged_ion_lines.py L348-361 -/
def line348 : Entry := ⟨"Ar", " He-Like 1s2s 3S1", "Highly Charged Ion", "NIST ASD", true, some (0.5), 3104.1486, [3104.1486], [0.1], [1], .lorentzianPeakHeight, none⟩

/-- _highly_charged_ion_lines.py L363-376 -/
def line363 : Entry := ⟨"Ar", " He-Like 1s2p 1P1", "Highly Charged Ion", "NIST ASD", true, some (0.5), 3139.5824, [3139.5824], [0.1], [1], .lorentzianPeakHeight, none⟩

/-- _highly_charged_ion_lines.py L378-391 -/
def line378 : Entry := ⟨"Ar", " He-Like 1s3p 1P1", "Highly Charged Ion", "NIST ASD", true, some (0.5), 3683.848, [3683.848], [0.1], [1], .lorentzianPeakHeight, none⟩

/-- _highly_charged_ion_lines.py L393-406 -/
def line393 : Entry := ⟨"Ar", " He-Like 1s4p 1P1", "Highly Charged Ion", "NIST ASD", true, some (0.5), 3874.886, [3874.886], [0.1], [1], .lorentzianPeakHeight, none⟩

/-- _highly_charged_ion_lines.py L412-426 -/
def line412 : Entry := ⟨"W", " Ni-1", "Highly Charged Ion", "Clementson 2010", true, some (0.5), 1488.2, [1488.2], [0.1], [1], .lorentzianPeakHeight, none⟩

/-- _highly_charged_ion_lines.py L428-442 -/
def line428 : Entry := ⟨"W", " Ni-2", "Highly Charged Ion", "Clementson 2010", true, some (0.5), 1562.9, [1562.9], [0.1], [1], .lorentzianPeakHeight, none⟩

/-- _highly_charged_ion_lines.py L444-458 -/
def line444 : Entry := ⟨"W", " Ni-3", "Highly Charged Ion", "Clementson 2010", true, some (0.5), 1629.8, [1629.8], [0.1], [1], .lorentzianPeakHeight, none⟩

/-- _highly_charged_ion_lines.py L460-474 -/
def line460 : Entry := ⟨"W", " Ni-4", "Highly Charged Ion", "Clementson 2010", true, some (0.5), 1764.6, [1764.6], [0.1], [1], .lorentzianPeakHeight, none⟩

/-- _highly_charged_ion_lines.py L476-490 -/
def line476 : Entry := ⟨"W", " Ni-5", "Highly Charged Ion", "Clementson 2010", true, some (0.5), 1829.6, [1829.6], [0.1], [1], .lorentzianPeakHeight, none⟩

/-- _highly_charged_ion_lines.py L492-506 -/
def line492 : Entry := ⟨"W", " Ni-6", "Highly Charged Ion", "Clementson 2010", true, some (0.5), 2015.4, [2015.4], [0.1], [1], .lorentzianPeakHeight, none⟩

/-- _highly_charged_ion_lines.py L508-522 -/
def line508 : Entry := ⟨"W", " Ni-7", "Highly Charged Ion", "Clementson 2010", true, some (0.5), 2112.2, [2112.2], [0.1], [1], .lorentzianPeakHeight, none⟩

/-- _highly_charged_ion_lines.py L524-538 -/
def line524 : Entry := ⟨"W", " Ni-8", "Highly Charged Ion", "Clementson 2010", true, some (0.5), 2179.7, [2179.7], [0.1], [1], .lorentzianPeakHeight, none⟩

/-- _highly_charged_ion_lines.py L540-554 -/
def line540 : Entry := ⟨"W", " Ni-9", "Highly Charged Ion", "Clementson 2010", true, some (0.5), 2320.3, [2320.3], [0.1], [1], .lorentzianPeakHeight, none⟩

/-- _highly_charged_ion_lines.py L556-570 -/
def line556 : Entry := ⟨"W", " Ni-10", "Highly Charged Ion", "Clementson 2010", true, some (0.5), 2360.7, [2360.7], [0.1], [1], .lorentzianPeakHeight, none⟩

/-- _highly_charged_ion_lines.py L572-586 -/
def line572 : Entry := ⟨"W", " Ni-11", "Highly Charged Ion", "Clementson 2010", true, some (0.5), 2384.2, [2384.2], [0.1], [1], .lorentzianPeakHeight, none⟩

/-- _highly_charged_ion_lines.py L588-602 -/
def line588 : Entry := ⟨"W", " Ni-12", "Highly Charged Ion", "Clementson 2010", true, some (0.5), 2553, [2553], [0.1], [1], .lorentzianPeakHeight, none⟩

/-- _highly_charged_ion_lines.py L604-618 -/
def line604 : Entry := ⟨"W", " Ni-13", "Highly Charged Ion", "Clementson 2010", true, some (0.5), 2651.3, [2651.3], [0.1], [1], .lorentzianPeakHeight, none⟩

/-- _highly_charged_ion_lines.py L620-634 -/
def line620 : Entry := ⟨"W", " Ni-14", "Highly Charged Ion", "Clementson 2010", true, some (0.5), 2673.7, [2673.7], [0.1], [1], .lorentzianPeakHeight, none⟩

/-- _highly_charged_ion_lines.py L636-650 -/
def line636 : Entry := ⟨"W", " Ni-15", "Highly Charged Ion", "Clementson 2010", true, some (0.5), 2760.7, [2760.7], [0.1], [1], .lorentzianPeakHeight, none⟩

/-- _highly_charged_ion_lines.py L652-666 -/
def line652 : Entry := ⟨"W", " Ni-16", "Highly Charged Ion", "Clementson 2010", true, some (0.5), 2816.1, [2816.1], [0.1], [1], .lorentzianPeakHeight, none⟩

/-- _highly_charged_ion_lines.py L668-682 -/
def line668 : Entry := ⟨"W", " Ni-17", "Highly Charged Ion", "Clementson 2010", true, some (0.5), 2878.2, [2878.2], [0.1], [1], .lorentzianPeakHeight, none⟩

/-- _highly_charged_ion_lines.py L684-698 -/
def line684 : Entry := ⟨"W", " Ni-18", "Highly Charged Ion", "Clementson 2010", true, some (0.5), 3182.7, [3182.7], [0.1], [1], .lorentzianPeakHeight, none⟩

/-- _highly_charged_ion_lines.py L700-714 -/
def line700 : Entry := ⟨"W", " Ni-19", "Highly Charged Ion", "Clementson 2010", true, some (0.5), 3196.8, [3196.8], [0.1], [1], .lorentzianPeakHeight, none⟩

/-- _highly_charged_ion_lines.py L716-730 -/
def line716 : Entry := ⟨"W", " Ni-20", "Highly Charged Ion", "Clementson 2010", true, some (0.5), 3259.9, [3259.9], [0.1], [1], .lorentzianPeakHeight, none⟩

/-- _highly_charged_ion_lines.py L732-746 -/
def line732 : Entry := ⟨"W", " Ni-21", "Highly Charged Ion", "Clementson 2010", true, some (0.5), 3426, [3426], [0.1], [1], .lorentzianPeakHeight, none⟩

/-- _highly_charged_ion_lines.py L748-762 -/
def line748 : Entry := ⟨"W", " Ni-22", "Highly Charged Ion", "Clementson 2010", true, some (0.5), 3480.9, [3480.9], [0.1], [1], .lorentzianPeakHeight, none⟩

/-- _highly_charged_ion_lines.py L764-778 -/
def line764 : Entry := ⟨"W", " Ni-23", "Highly Charged Ion", "Clementson 2010", true, some (0.5), 3490.2, [3490.2], [0.1], [1], .lorentzianPeakHeight, none⟩

/-- _highly_charged_ion_lines.py L780-794 -/
def line780 : Entry := ⟨"W", " Ni-24", "Highly Charged Ion", "Clementson 2010", true, some (0.5), 3574.1, [3574.1], [0.1], [1], .lorentzianPeakHeight, none⟩

/-- _highly_charged_ion_lines.py L796-810 -/
def line796 : Entry := ⟨"W", " Ni-25", "Highly Charged Ion", "Clementson 2010", true, some (0.5), 3600, [3600], [0.1], [1], .lorentzianPeakHeight, none⟩

/-- _highly_charged_ion_lines.py L812-826 -/
def line812 : Entry := ⟨"W", " Ni-26", "Highly Charged Ion", "Clementson 2010", true, some (0.5), 3639.5, [3639.5], [0.1], [1], .lorentzianPeakHeight, none⟩

/-- _highly_charged_ion_lines.py L828-842 -/
def line828 : Entry := ⟨"W", " Ni-Like 3s^2,3p^6,3s^3_3/2,3d^6_5/2,4p_1/2", "Highly Charged Ion", "Nilsen 1995", true, some (0.5), 1728.41, [1725.04, 1728.41], [0.1, 0.1], [1, 20], .lorentzianPeakHeight, none⟩

/-- all calls, in order, _highly_charged_ion_lines.py L10-842 -/
def table : List Entry := [line10, line24, line38, line53, line68, line83, line98, line113, line132, line147, line162, line177, line192, line207, line223, line238, line253, line268, line287, line302, line317, line333, line348, line363, line378, line393, line412, line428, line444, line460, line476, line492, line508, line524, line540, line556, line572, line588, line604, line620, line636, line652, line668, line684, line700, line716, line732, line748, line764, line780, line796, line812, line828]

end Mass.Line.Ions

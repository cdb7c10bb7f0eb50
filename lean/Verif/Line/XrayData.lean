import Verif.Line.XrayDb
import Mathlib.Data.Rat.Defs
/-! C188: the data files of the x-ray data base, mass/calibration/nist_xray_data.dat and low_z_xray_data.dat. Written by tools/gen_xray.py: every line of the files, and the lines with a measured energy as a table. -/
namespace Mass.Line.XrayData
open Mass Mass.Names Mass.Line.Xray

/-- a line of a data file (layout: nist_xray_data.dat L6-17): with columns up to the measured energy or beyond, or one that ends before (`theory` are columns 17-44, `more` what follows the uncertainty and `gap` blanks) -/
inductive Row
  | full (el mass tr theory pk un : Str) (gap : Nat) (more : Str)
  | short (el mass tr theory : Str)
  deriving DecidableEq

/-- nist_xray_data.dat L1-18: what comes before the title -/
def mainBefore : List String := ["Elements: All (Neon - Fermium)", "Transitions: KL2 (Kalpha2), KL3 (Kalpha1), KM5 (Kbeta5 I), KM3 (Kbeta1), KM2 (Kbeta3), L3M5 (Lalpha1), L3M4 (Lalpha2), L3M1 (Ll), L2M4 (Lbeta1), L2N4 (Lgamma1), L3N5 (Lbeta2), L1M3 (Lbeta3), L3N7 (Lu), L3N7 (Lu), L3N7 (Lu), L3N7 (Lu), L3N7 (Lu), and L3N7 (Lu)", "Energy Range: 150 eV - 100000 eV", "Sorted by Energy", "", "Column Definitions:", "", "Ele.                = 1 - 4", "A                   = 6 - 8", "Trans.              = 10 - 16", "Theory (eV)         = 18 - 30", "Theory Unc. (eV)    = 32 - 43", "Experimental Energy:", "  Direct (eV)       = 45 - 59", "  Direct Unc. (eV)  = 61 - 72", "Blend               = 74 - 79", "Ref.                = 81 - 91", ""]

/-- nist_xray_data.dat L19: the title -/
def mainTitle : String := "Ele. A   Trans.  Theory (eV)   Unc. (eV)    Direct (eV)     Unc. (eV)    Blend  Ref."

/-- nist_xray_data.dat L20-79 -/
def main0 : List Row := [.full ['S'] [] ['L','3','M','1'] [' ','1','5','1','.','2','9',' ',' ',' ',' ',' ',' ',' ',' ','0','.','8','0'] ['1','4','8','.','6','6'] ['0','.','7','9'] 9 ['L','2',',','3','M','1',' ','1','d'],
  .full ['C','l'] [] ['L','3','M','1'] [' ','1','8','3','.','3','1',' ',' ',' ',' ',' ',' ',' ',' ','0','.','8','3'] ['1','8','2','.','6','0'] ['0','.','3','6'] 16 ['1','d'],
  .short ['P'] [] ['L','1','M','3'] [' ','1','8','6','.','4',' ',' ',' ',' ',' ',' ',' ',' ',' ','1','.','0'],
  .full ['A','r'] [] ['L','3','M','1'] [' ','2','1','9','.','5','2',' ',' ',' ',' ',' ',' ',' ',' ','0','.','7','7'] ['2','2','0','.','2','2'] ['0','.','5','8'] 16 ['1','d'],
  .short ['S'] [] ['L','1','M','3'] [' ','2','2','4','.','9','6',' ',' ',' ',' ',' ',' ',' ',' ','0','.','7','2'],
  .full ['K'] [] ['L','3','M','1'] [' ','2','6','0','.','3','8',' ',' ',' ',' ',' ',' ',' ',' ','0','.','9','1'] ['2','5','9','.','7','0','3'] ['0','.','0','8','1'] 15 ['1','d'],
  .short ['C','l'] [] ['L','1','M','3'] [' ','2','6','6','.','6','2',' ',' ',' ',' ',' ',' ',' ',' ','0','.','5','2'],
  .full ['C','a'] [] ['L','3','M','1'] [' ','3','0','2','.','8','0',' ',' ',' ',' ',' ',' ',' ',' ','0','.','7','7'] ['3','0','2','.','6','9'] ['0','.','2','2'] 16 ['1','d'],
  .short ['A','r'] [] ['L','1','M','3'] [' ','3','1','1','.','3','5',' ',' ',' ',' ',' ',' ',' ',' ','0','.','6','9'],
  .full ['C','a'] [] ['L','3','M','4'] [] ['3','4','1','.','2','7'] ['0','.','2','8'] 9 ['L','3','M','4',',','5',' ','1','d'],
  .full ['C','a'] [] ['L','3','M','5'] [] ['3','4','1','.','2','7'] ['0','.','2','8'] 9 ['L','3','M','4',',','5',' ','1','d'],
  .full ['C','a'] [] ['L','2','M','4'] [] ['3','4','4','.','9','7'] ['0','.','2','8'] 16 ['1','d'],
  .full ['S','c'] [] ['L','3','M','1'] [' ','3','4','8','.','7','0',' ',' ',' ',' ',' ',' ',' ',' ','0','.','9','9'] ['3','4','8','.','3','6'] ['0','.','4','3'] 16 ['1','d'],
  .short ['K'] [] ['L','1','M','3'] [' ','3','6','1','.','5','2',' ',' ',' ',' ',' ',' ',' ',' ','0','.','7','1'],
  .full ['S','c'] [] ['L','3','M','5'] [] ['3','9','5','.','4','8'] ['0','.','5','6'] 9 ['L','3','M','4',',','5',' ','1','d'],
  .full ['T','i'] [] ['L','3','M','1'] [' ','3','9','6','.','7',' ',' ',' ',' ',' ',' ',' ',' ',' ','1','.','0'] ['3','9','5','.','3','5'] ['0','.','3','7'] 16 ['1','d'],
  .full ['S','c'] [] ['L','3','M','4'] [' ','4','0','0','.','6','4',' ',' ',' ',' ',' ',' ',' ',' ','0','.','6','0'] ['3','9','5','.','4','8'] ['0','.','5','6'] 9 ['L','3','M','4',',','5',' ','1','d'],
  .full ['S','c'] [] ['L','2','M','4'] [' ','4','0','5','.','3','5',' ',' ',' ',' ',' ',' ',' ',' ','0','.','6','2'] ['3','9','9','.','6','9'] ['0','.','3','8'] 16 ['1','d'],
  .short ['C','a'] [] ['L','1','M','3'] [' ','4','1','5','.','8','0',' ',' ',' ',' ',' ',' ',' ',' ','0','.','6','7'],
  .full ['V'] [] ['L','3','M','1'] [' ','4','4','7','.','5',' ',' ',' ',' ',' ',' ',' ',' ',' ','1','.','1'] ['4','4','6','.','4','6'] ['0','.','2','4'] 16 ['1','d'],
  .full ['T','i'] [] ['L','3','M','5'] [] ['4','5','2','.','1','6'] ['0','.','4','9'] 9 ['L','3','M','4',',','5',' ','1','d'],
  .full ['T','i'] [] ['L','3','M','4'] [' ','4','5','5','.','5','7',' ',' ',' ',' ',' ',' ',' ',' ','0','.','6','1'] ['4','5','2','.','1','6'] ['0','.','4','9'] 9 ['L','3','M','4',',','5',' ','1','d'],
  .full ['T','i'] [] ['L','2','M','4'] [' ','4','6','1','.','8','8',' ',' ',' ',' ',' ',' ',' ',' ','0','.','6','4'] ['4','5','8','.','3','5'] ['0','.','5','0'] 16 ['1','d'],
  .short ['S','c'] [] ['L','1','M','3'] [' ','4','7','1','.','3','6',' ',' ',' ',' ',' ',' ',' ',' ','0','.','9','7'],
  .full ['C','r'] [] ['L','3','M','1'] [' ','5','0','0','.','3',' ',' ',' ',' ',' ',' ',' ',' ',' ','1','.','1'] ['5','0','0','.','3','3'] ['0','.','3','0'] 16 ['1','d'],
  .full ['V'] [] ['L','3','M','5'] [] ['5','1','1','.','2','7'] ['0','.','9','4'] 9 ['L','3','M','4',',','5',' ','1','d'],
  .full ['V'] [] ['L','3','M','4'] [' ','5','1','3','.','5','4',' ',' ',' ',' ',' ',' ',' ',' ','0','.','6','3'] ['5','1','1','.','2','7'] ['0','.','9','4'] 9 ['L','3','M','4',',','5',' ','1','d'],
  .full ['V'] [] ['L','2','M','4'] [' ','5','2','1','.','7','4',' ',' ',' ',' ',' ',' ',' ',' ','0','.','6','5'] ['5','1','9','.','2'] ['1','.','3'] 17 ['1','d'],
  .short ['T','i'] [] ['L','1','M','3'] [' ','5','2','9','.','9',' ',' ',' ',' ',' ',' ',' ',' ',' ','1','.','1'],
  .full ['M','n'] [] ['L','3','M','1'] [' ','5','5','7','.','6',' ',' ',' ',' ',' ',' ',' ',' ',' ','1','.','1'] ['5','5','6','.','2','2'] ['0','.','3','7'] 16 ['1','d'],
  .full ['C','r'] [] ['L','3','M','4'] [' ','5','7','2','.','9','4',' ',' ',' ',' ',' ',' ',' ',' ','0','.','6','4'] ['5','7','2','.','9'] ['1','.','2'] 10 ['L','3','M','4',',','5',' ','1','d'],
  .full ['C','r'] [] ['L','3','M','5'] [' ','5','7','6','.','9','5',' ',' ',' ',' ',' ',' ',' ',' ','0','.','3','0'] ['5','7','2','.','9'] ['1','.','2'] 10 ['L','3','M','4',',','5',' ','1','d'],
  .full ['C','r'] [] ['L','2','M','4'] [' ','5','8','2','.','7','6',' ',' ',' ',' ',' ',' ',' ',' ','0','.','6','7'] ['5','8','2','.','9','0'] ['0','.','4','1'] 16 ['1','d'],
  .full ['V'] [] ['L','1','M','3'] [' ','5','9','1','.','5',' ',' ',' ',' ',' ',' ',' ',' ',' ','1','.','2'] ['5','8','5','.','1'] ['3','.','7'] 10 ['L','1','M','2',',','3',' ','1','d'],
  .full ['F','e'] [] ['L','3','M','1'] [' ','6','1','7','.','0',' ',' ',' ',' ',' ',' ',' ',' ',' ','1','.','2'] ['6','1','5','.','3','0'] ['0','.','4','5'] 16 ['1','d'],
  .full ['M','n'] [] ['L','3','M','4'] [' ','6','3','9','.','4','2',' ',' ',' ',' ',' ',' ',' ',' ','0','.','6','6'] ['6','3','7','.','4','4'] ['0','.','4','9'] 9 ['L','3','M','4',',','5',' ','1','d'],
  .full ['M','n'] [] ['L','3','M','5'] [' ','6','4','0','.','4','4',' ',' ',' ',' ',' ',' ',' ',' ','0','.','6','9'] ['6','3','7','.','4','4'] ['0','.','4','9'] 9 ['L','3','M','4',',','5',' ','1','d'],
  .full ['M','n'] [] ['L','2','M','4'] [' ','6','5','1','.','3','2',' ',' ',' ',' ',' ',' ',' ',' ','0','.','6','9'] ['6','4','8','.','8'] ['1','.','0'] 17 ['1','d'],
  .full ['C','r'] [] ['L','1','M','3'] [' ','6','5','3','.','8',' ',' ',' ',' ',' ',' ',' ',' ',' ','1','.','3'] ['6','5','3','.','9'] ['1','.','0'] 10 ['L','1','M','2',',','3',' ','1','d'],
  .full ['C','o'] [] ['L','3','M','1'] [' ','6','7','9','.','3',' ',' ',' ',' ',' ',' ',' ',' ',' ','1','.','2'] ['6','7','7','.','8','0'] ['0','.','4','4'] 16 ['1','d'],
  .full ['F','e'] [] ['L','3','M','4'] [' ','7','0','7','.','4','6',' ',' ',' ',' ',' ',' ',' ',' ','0','.','6','7'] ['7','0','4','.','8'] ['1','.','2'] 10 ['L','3','M','4',',','5',' ','1','d'],
  .full ['F','e'] [] ['L','3','M','5'] [' ','7','0','8','.','3','8',' ',' ',' ',' ',' ',' ',' ',' ','0','.','7','0'] ['7','0','4','.','8'] ['1','.','2'] 10 ['L','3','M','4',',','5',' ','1','d'],
  .full ['F','e'] [] ['L','2','M','4'] [' ','7','2','1','.','0','7',' ',' ',' ',' ',' ',' ',' ',' ','0','.','7','0'] ['7','1','8','.','3','2'] ['0','.','6','2'] 16 ['1','d'],
  .full ['M','n'] [] ['L','1','M','3'] [' ','7','2','3','.','5',' ',' ',' ',' ',' ',' ',' ',' ',' ','1','.','4'] ['7','2','1','.','2'] ['1','.','2'] 10 ['L','1','M','2',',','3',' ','1','d'],
  .full ['N','i'] [] ['L','3','M','1'] [' ','7','4','4','.','5',' ',' ',' ',' ',' ',' ',' ',' ',' ','1','.','2'] ['7','4','2','.','7','2'] ['0','.','5','9'] 16 ['1','d'],
  .full ['C','o'] [] ['L','3','M','4'] [' ','7','7','8','.','7','1',' ',' ',' ',' ',' ',' ',' ',' ','0','.','6','9'] ['7','7','6','.','2','5'] ['0','.','4','3'] 9 ['L','3','M','4',',','5',' ','1','d'],
  .full ['C','o'] [] ['L','3','M','5'] [' ','7','7','9','.','5','2',' ',' ',' ',' ',' ',' ',' ',' ','0','.','7','1'] ['7','7','6','.','2','5'] ['0','.','4','3'] 9 ['L','3','M','4',',','5',' ','1','d'],
  .full ['F','e'] [] ['L','1','M','3'] [' ','7','9','3','.','8',' ',' ',' ',' ',' ',' ',' ',' ',' ','1','.','4'] ['7','9','2','.','2'] ['1','.','5'] 10 ['L','1','M','2',',','3',' ','1','d'],
  .full ['C','o'] [] ['L','2','M','4'] [' ','7','9','4','.','2','7',' ',' ',' ',' ',' ',' ',' ',' ','0','.','7','2'] ['7','9','1','.','4','1'] ['0','.','6','0'] 16 ['1','d'],
  .full ['C','u'] [] ['L','3','M','1'] [' ','8','1','1','.','7',' ',' ',' ',' ',' ',' ',' ',' ',' ','1','.','3'] ['8','1','1','.','0','8'] ['0','.','7','1'] 16 ['1','d'],
  .full ['N','e'] [] ['K','L','2'] [' ','8','4','9','.','0','9',' ',' ',' ',' ',' ',' ',' ',' ','0','.','5','4'] ['8','4','8','.','6','1'] ['0','.','2','6'] 9 ['K','L','2',',','3',' ',' ','1','d'],
  .full ['N','e'] [] ['K','L','3'] [' ','8','4','9','.','1','7',' ',' ',' ',' ',' ',' ',' ',' ','0','.','5','4'] ['8','4','8','.','6','1'] ['0','.','2','6'] 9 ['K','L','2',',','3',' ',' ','1','d'],
  .full ['N','i'] [] ['L','3','M','4'] [' ','8','5','3','.','1','9',' ',' ',' ',' ',' ',' ',' ',' ','0','.','7','1'] ['8','5','1','.','4','7'] ['0','.','2','6'] 9 ['L','3','M','4',',','5',' ','1','d'],
  .full ['N','i'] [] ['L','3','M','5'] [' ','8','5','3','.','8','7',' ',' ',' ',' ',' ',' ',' ',' ','0','.','7','2'] ['8','5','1','.','4','7'] ['0','.','2','6'] 9 ['L','3','M','4',',','5',' ','1','d'],
  .full ['N','e'] [] ['K','M','2'] [] ['8','5','7','.','8','9'] ['0','.','4','4'] 9 ['K','M',' ',' ',' ',' ',' ','1','d'],
  .full ['N','e'] [] ['K','M','3'] [] ['8','5','7','.','8','9'] ['0','.','4','4'] 9 ['K','M',' ',' ',' ',' ',' ','1','d'],
  .full ['N','e'] [] ['K','M','5'] [] ['8','5','7','.','8','9'] ['0','.','4','4'] 9 ['K','M',' ',' ',' ',' ',' ','1','d'],
  .full ['C','o'] [] ['L','1','M','3'] [' ','8','6','7','.','4',' ',' ',' ',' ',' ',' ',' ',' ',' ','1','.','5'] ['8','6','6','.','4'] ['2','.','7'] 10 ['L','1','M','2',',','3',' ','1','d'],
  .full ['N','i'] [] ['L','2','M','4'] [' ','8','7','0','.','9','5',' ',' ',' ',' ',' ',' ',' ',' ','0','.','7','4'] ['8','6','8','.','7','7'] ['0','.','5','4'] 16 ['1','d'],
  .full ['Z','n'] [] ['L','3','M','1'] [' ','8','8','3','.','6',' ',' ',' ',' ',' ',' ',' ',' ',' ','1','.','4'] ['8','8','4','.','3'] ['1','.','9'] 17 ['1','d']]

/-- the lines of nist_xray_data.dat L20-79 with a measured energy -/
def main0T : List (XLine ℚ) := [⟨['S'], ['L','3','M','1'], 148.66, 0.79⟩,
  ⟨['C','l'], ['L','3','M','1'], 182.60, 0.36⟩,
  ⟨['A','r'], ['L','3','M','1'], 220.22, 0.58⟩,
  ⟨['K'], ['L','3','M','1'], 259.703, 0.081⟩,
  ⟨['C','a'], ['L','3','M','1'], 302.69, 0.22⟩,
  ⟨['C','a'], ['L','3','M','4'], 341.27, 0.28⟩,
  ⟨['C','a'], ['L','3','M','5'], 341.27, 0.28⟩,
  ⟨['C','a'], ['L','2','M','4'], 344.97, 0.28⟩,
  ⟨['S','c'], ['L','3','M','1'], 348.36, 0.43⟩,
  ⟨['S','c'], ['L','3','M','5'], 395.48, 0.56⟩,
  ⟨['T','i'], ['L','3','M','1'], 395.35, 0.37⟩,
  ⟨['S','c'], ['L','3','M','4'], 395.48, 0.56⟩,
  ⟨['S','c'], ['L','2','M','4'], 399.69, 0.38⟩,
  ⟨['V'], ['L','3','M','1'], 446.46, 0.24⟩,
  ⟨['T','i'], ['L','3','M','5'], 452.16, 0.49⟩,
  ⟨['T','i'], ['L','3','M','4'], 452.16, 0.49⟩,
  ⟨['T','i'], ['L','2','M','4'], 458.35, 0.50⟩,
  ⟨['C','r'], ['L','3','M','1'], 500.33, 0.30⟩,
  ⟨['V'], ['L','3','M','5'], 511.27, 0.94⟩,
  ⟨['V'], ['L','3','M','4'], 511.27, 0.94⟩,
  ⟨['V'], ['L','2','M','4'], 519.2, 1.3⟩,
  ⟨['M','n'], ['L','3','M','1'], 556.22, 0.37⟩,
  ⟨['C','r'], ['L','3','M','4'], 572.9, 1.2⟩,
  ⟨['C','r'], ['L','3','M','5'], 572.9, 1.2⟩,
  ⟨['C','r'], ['L','2','M','4'], 582.90, 0.41⟩,
  ⟨['V'], ['L','1','M','3'], 585.1, 3.7⟩,
  ⟨['F','e'], ['L','3','M','1'], 615.30, 0.45⟩,
  ⟨['M','n'], ['L','3','M','4'], 637.44, 0.49⟩,
  ⟨['M','n'], ['L','3','M','5'], 637.44, 0.49⟩,
  ⟨['M','n'], ['L','2','M','4'], 648.8, 1.0⟩,
  ⟨['C','r'], ['L','1','M','3'], 653.9, 1.0⟩,
  ⟨['C','o'], ['L','3','M','1'], 677.80, 0.44⟩,
  ⟨['F','e'], ['L','3','M','4'], 704.8, 1.2⟩,
  ⟨['F','e'], ['L','3','M','5'], 704.8, 1.2⟩,
  ⟨['F','e'], ['L','2','M','4'], 718.32, 0.62⟩,
  ⟨['M','n'], ['L','1','M','3'], 721.2, 1.2⟩,
  ⟨['N','i'], ['L','3','M','1'], 742.72, 0.59⟩,
  ⟨['C','o'], ['L','3','M','4'], 776.25, 0.43⟩,
  ⟨['C','o'], ['L','3','M','5'], 776.25, 0.43⟩,
  ⟨['F','e'], ['L','1','M','3'], 792.2, 1.5⟩,
  ⟨['C','o'], ['L','2','M','4'], 791.41, 0.60⟩,
  ⟨['C','u'], ['L','3','M','1'], 811.08, 0.71⟩,
  ⟨['N','e'], ['K','L','2'], 848.61, 0.26⟩,
  ⟨['N','e'], ['K','L','3'], 848.61, 0.26⟩,
  ⟨['N','i'], ['L','3','M','4'], 851.47, 0.26⟩,
  ⟨['N','i'], ['L','3','M','5'], 851.47, 0.26⟩,
  ⟨['N','e'], ['K','M','2'], 857.89, 0.44⟩,
  ⟨['N','e'], ['K','M','3'], 857.89, 0.44⟩,
  ⟨['N','e'], ['K','M','5'], 857.89, 0.44⟩,
  ⟨['C','o'], ['L','1','M','3'], 866.4, 2.7⟩,
  ⟨['N','i'], ['L','2','M','4'], 868.77, 0.54⟩,
  ⟨['Z','n'], ['L','3','M','1'], 884.3, 1.9⟩]

/-- nist_xray_data.dat L80-139 -/
def main1 : List Row := [.full ['C','u'] [] ['L','3','M','4'] [' ','9','2','9','.','3','8',' ',' ',' ',' ',' ',' ',' ',' ','0','.','7','2'] ['9','2','9','.','6','8'] ['0','.','3','1'] 9 ['L','3','M','4',',','5',' ','1','d'],
  .full ['C','u'] [] ['L','3','M','5'] [' ','9','2','9','.','7','1',' ',' ',' ',' ',' ',' ',' ',' ','0','.','7','4'] ['9','2','9','.','6','8'] ['0','.','3','1'] 9 ['L','3','M','4',',','5',' ','1','d'],
  .full ['N','i'] [] ['L','1','M','3'] [' ','9','4','4','.','3',' ',' ',' ',' ',' ',' ',' ',' ',' ','1','.','6'] ['9','4','0','.','7'] ['1','.','1'] 10 ['L','1','M','2',',','3',' ','1','d'],
  .full ['C','u'] [] ['L','2','M','4'] [' ','9','4','9','.','1','1',' ',' ',' ',' ',' ',' ',' ',' ','0','.','7','6'] ['9','4','9','.','8','4'] ['0','.','3','2'] 16 ['1','d'],
  .full ['G','a'] [] ['L','3','M','1'] [' ','9','5','8','.','5',' ',' ',' ',' ',' ',' ',' ',' ',' ','1','.','3'] ['9','5','7','.','1','7'] ['0','.','2','2'] 16 ['1','d'],
  .full ['Z','n'] [] ['L','3','M','4'] [' ','1','0','1','1','.','8','7',' ',' ',' ',' ',' ',' ',' ','0','.','7','5'] ['1','0','1','1','.','7','7'] ['0','.','3','7'] 9 ['L','3','M','4',',','5',' ','1','d'],
  .full ['Z','n'] [] ['L','3','M','5'] [' ','1','0','1','2','.','2','1',' ',' ',' ',' ',' ',' ',' ','0','.','7','5'] ['1','0','1','1','.','7','7'] ['0','.','3','7'] 9 ['L','3','M','4',',','5',' ','1','d'],
  .full ['C','u'] [] ['L','1','M','3'] [' ','1','0','2','2','.','0',' ',' ',' ',' ',' ',' ',' ',' ','1','.','6'] ['1','0','2','2','.','7','9'] ['1','.','0','0'] 9 ['L','1','M','2',',','3',' ','1','d'],
  .full ['Z','n'] [] ['L','2','M','4'] [' ','1','0','3','4','.','7','6',' ',' ',' ',' ',' ',' ',' ','0','.','8','0'] ['1','0','3','4','.','6','5'] ['0','.','3','8'] 16 ['1','d'],
  .full ['G','e'] [] ['L','3','M','1'] [' ','1','0','3','7','.','3',' ',' ',' ',' ',' ',' ',' ',' ','1','.','4'] ['1','0','3','6','.','2','1'] ['0','.','5','1'] 16 ['1','d'],
  .full ['N','a'] [] ['K','L','2'] [' ','1','0','4','1','.','7','7',' ',' ',' ',' ',' ',' ',' ','0','.','5','1'] ['1','0','4','0','.','9','8'] ['0','.','1','2'] 9 ['K','L','2',',','3',' ',' ','1','d'],
  .full ['N','a'] [] ['K','L','3'] [' ','1','0','4','1','.','9','4',' ',' ',' ',' ',' ',' ',' ','0','.','5','1'] ['1','0','4','0','.','9','8'] ['0','.','1','2'] 9 ['K','L','2',',','3',' ',' ','1','d'],
  .full ['N','a'] [] ['K','M','2'] [] ['1','0','7','1','.','1','2'] ['0','.','2','7'] 9 ['K','M',' ',' ',' ',' ',' ','1','d'],
  .full ['N','a'] [] ['K','M','3'] [] ['1','0','7','1','.','1','2'] ['0','.','2','7'] 9 ['K','M',' ',' ',' ',' ',' ','1','d'],
  .full ['N','a'] [] ['K','M','5'] [] ['1','0','7','1','.','1','2'] ['0','.','2','7'] 9 ['K','M',' ',' ',' ',' ',' ','1','d'],
  .full ['G','a'] [] ['L','3','M','4'] [' ','1','0','9','8','.','0','3',' ',' ',' ',' ',' ',' ',' ','0','.','7','5'] ['1','0','9','7','.','9','7'] ['0','.','1','4'] 9 ['L','3','M','4',',','5',' ','1','d'],
  .full ['G','a'] [] ['L','3','M','5'] [' ','1','0','9','8','.','5','9',' ',' ',' ',' ',' ',' ',' ','0','.','7','6'] ['1','0','9','7','.','9','7'] ['0','.','1','4'] 9 ['L','3','M','4',',','5',' ','1','d'],
  .full ['Z','n'] [] ['L','1','M','3'] [' ','1','1','0','8','.','4',' ',' ',' ',' ',' ',' ',' ',' ','1','.','6'] ['1','1','0','7','.','0'] ['1','.','0'] 10 ['L','1','M','2',',','3',' ','1','d'],
  .full ['A','s'] [] ['L','3','M','1'] [' ','1','1','1','9','.','5',' ',' ',' ',' ',' ',' ',' ',' ','1','.','3'] ['1','1','1','9','.','7','8'] ['0','.','1','5'] 16 ['1','d'],
  .full ['G','a'] [] ['L','2','M','4'] [' ','1','1','2','4','.','8','2',' ',' ',' ',' ',' ',' ',' ','0','.','7','9'] ['1','1','2','4','.','7','6'] ['0','.','3','0'] 16 ['1','d'],
  .full ['G','e'] [] ['L','3','M','4'] [' ','1','1','8','7','.','9','1',' ',' ',' ',' ',' ',' ',' ','0','.','7','8'] ['1','1','8','8','.','0','1'] ['0','.','1','3'] 9 ['L','3','M','4',',','5',' ','1','d'],
  .full ['G','e'] [] ['L','3','M','5'] [' ','1','1','8','8','.','6','6',' ',' ',' ',' ',' ',' ',' ','0','.','7','8'] ['1','1','8','8','.','0','1'] ['0','.','1','3'] 9 ['L','3','M','4',',','5',' ','1','d'],
  .full ['G','a'] [] ['L','1','M','3'] [' ','1','1','9','7','.','9',' ',' ',' ',' ',' ',' ',' ',' ','1','.','7'] ['1','1','9','6','.','9'] ['1','.','4'] 10 ['L','1','M','2',',','3',' ','1','d'],
  .full ['S','e'] [] ['L','3','M','1'] [' ','1','2','0','5','.','3',' ',' ',' ',' ',' ',' ',' ',' ','1','.','3'] ['1','2','0','4','.','4','1'] ['0','.','1','7'] 16 ['1','d'],
  .full ['G','e'] [] ['L','2','M','4'] [' ','1','2','1','8','.','9','1',' ',' ',' ',' ',' ',' ',' ','0','.','8','2'] ['1','2','1','8','.','5','0'] ['0','.','1','8'] 16 ['1','d'],
  .full ['M','g'] [] ['K','L','2'] [' ','1','2','5','4','.','1','4',' ',' ',' ',' ',' ',' ',' ','0','.','4','9'] ['1','2','5','3','.','4','3','7'] ['0','.','0','1','3'] 15 ['2','d'],
  .full ['M','g'] [] ['K','L','3'] [' ','1','2','5','4','.','3','9',' ',' ',' ',' ',' ',' ',' ','0','.','4','9'] ['1','2','5','3','.','6','8','8'] ['0','.','0','1','1'] 15 ['2','d'],
  .full ['A','s'] [] ['L','3','M','4'] [' ','1','2','8','1','.','5','6',' ',' ',' ',' ',' ',' ',' ','0','.','7','9'] ['1','2','8','2','.','0','1'] ['0','.','1','6'] 9 ['L','3','M','4',',','5',' ','1','d'],
  .full ['A','s'] [] ['L','3','M','5'] [' ','1','2','8','2','.','4','1',' ',' ',' ',' ',' ',' ',' ','0','.','7','9'] ['1','2','8','2','.','0','1'] ['0','.','1','6'] 9 ['L','3','M','4',',','5',' ','1','d'],
  .full ['G','e'] [] ['L','1','M','3'] [' ','1','2','9','2','.','0',' ',' ',' ',' ',' ',' ',' ',' ','1','.','8'] ['1','2','9','4','.','0','4'] ['0','.','4','0'] 16 ['1','d'],
  .full ['B','r'] [] ['L','3','M','1'] [' ','1','2','9','4','.','5',' ',' ',' ',' ',' ',' ',' ',' ','1','.','4'] ['1','2','9','3','.','5','0'] ['0','.','2','0'] 16 ['1','d'],
  .full ['M','g'] [] ['K','M','2'] [] ['1','3','0','2','.','2','0'] ['0','.','4','0'] 9 ['K','M',' ',' ',' ',' ',' ','1','d'],
  .full ['M','g'] [] ['K','M','3'] [] ['1','3','0','2','.','2','0'] ['0','.','4','0'] 9 ['K','M',' ',' ',' ',' ',' ','1','d'],
  .full ['M','g'] [] ['K','M','5'] [] ['1','3','0','2','.','2','0'] ['0','.','4','0'] 9 ['K','M',' ',' ',' ',' ',' ','1','d'],
  .full ['A','s'] [] ['L','2','M','4'] [' ','1','3','1','7','.','2','1',' ',' ',' ',' ',' ',' ',' ','0','.','8','2'] ['1','3','1','6','.','9','9'] ['0','.','1','7'] 16 ['1','d'],
  .full ['S','e'] [] ['L','3','M','4'] [' ','1','3','7','8','.','9','2',' ',' ',' ',' ',' ',' ',' ','0','.','8','0'] ['1','3','7','9','.','1','1'] ['0','.','1','1'] 9 ['L','3','M','4',',','5',' ','1','d'],
  .full ['S','e'] [] ['L','3','M','5'] [' ','1','3','7','9','.','8','8',' ',' ',' ',' ',' ',' ',' ','0','.','8','0'] ['1','3','7','9','.','1','1'] ['0','.','1','1'] 9 ['L','3','M','4',',','5',' ','1','d'],
  .short ['K','r'] [] ['L','3','M','1'] [' ','1','3','8','6','.','9',' ',' ',' ',' ',' ',' ',' ',' ','1','.','4'],
  .full ['A','s'] [] ['L','1','M','3'] [' ','1','3','9','0','.','4',' ',' ',' ',' ',' ',' ',' ',' ','1','.','7'] ['1','3','8','8','.','5','4'] ['0','.','2','3'] 9 ['L','1','M','2',',','3',' ','1','d'],
  .full ['S','e'] [] ['L','2','M','4'] [' ','1','4','1','9','.','6','5',' ',' ',' ',' ',' ',' ',' ','0','.','8','4'] ['1','4','1','9','.','2','4'] ['0','.','1','2'] 16 ['1','d'],
  .full ['B','r'] [] ['L','3','M','4'] [' ','1','4','7','9','.','9','5',' ',' ',' ',' ',' ',' ',' ','0','.','8','2'] ['1','4','8','0','.','4','6'] ['0','.','1','3'] 9 ['L','3','M','4',',','5',' ','1','d'],
  .full ['B','r'] [] ['L','3','M','5'] [' ','1','4','8','1','.','0','2',' ',' ',' ',' ',' ',' ',' ','0','.','8','1'] ['1','4','8','0','.','4','6'] ['0','.','1','3'] 9 ['L','3','M','4',',','5',' ','1','d'],
  .full ['R','b'] [] ['L','3','M','1'] [' ','1','4','8','3','.','6',' ',' ',' ',' ',' ',' ',' ',' ','1','.','4'] ['1','4','8','2','.','4','0'] ['0','.','1','0'] 16 ['1','d'],
  .full ['A','l'] [] ['K','L','2'] [' ','1','4','8','7','.','1','2',' ',' ',' ',' ',' ',' ',' ','0','.','4','7'] ['1','4','8','6','.','2','9','5'] ['0','.','0','1','0'] 15 ['2','d'],
  .full ['A','l'] [] ['K','L','3'] [' ','1','4','8','7','.','5','3',' ',' ',' ',' ',' ',' ',' ','0','.','4','7'] ['1','4','8','6','.','7','0','8'] ['0','.','0','1','0'] 15 ['2','d'],
  .full ['S','e'] [] ['L','1','M','3'] [' ','1','4','9','3','.','0',' ',' ',' ',' ',' ',' ',' ',' ','1','.','8'] ['1','4','9','0','.','0'] ['2','.','4'] 10 ['L','1','M','2',',','3',' ','1','d'],
  .full ['B','r'] [] ['L','2','M','4'] [' ','1','5','2','6','.','2','8',' ',' ',' ',' ',' ',' ',' ','0','.','8','6'] ['1','5','2','5','.','9','2'] ['0','.','1','4'] 16 ['1','d'],
  .full ['A','l'] [] ['K','M','3'] [] ['1','5','5','7','.','5','7'] ['0','.','5','8'] 9 ['K','M',' ',' ',' ',' ',' ','1','d'],
  .full ['A','l'] [] ['K','M','5'] [] ['1','5','5','7','.','5','7'] ['0','.','5','8'] 9 ['K','M',' ',' ',' ',' ',' ','1','d'],
  .full ['A','l'] [] ['K','M','2'] [' ','1','5','6','1','.','2','8',' ',' ',' ',' ',' ',' ',' ','0','.','9','6'] ['1','5','5','7','.','5','7'] ['0','.','5','8'] 9 ['K','M',' ',' ',' ',' ',' ','1','d'],
  .full ['S','r'] [] ['L','3','M','1'] [' ','1','5','8','3','.','3',' ',' ',' ',' ',' ',' ',' ',' ','1','.','4'] ['1','5','8','2','.','1','7','4'] ['0','.','0','9','0'] 15 ['1','d'],
  .full ['K','r'] [] ['L','3','M','4'] [' ','1','5','8','4','.','6','3',' ',' ',' ',' ',' ',' ',' ','0','.','8','3'] ['1','5','8','5','.','4','1','1'] ['0','.','0','2','6'] 8 ['L','3','M','4',',','5',' ','3','d'],
  .full ['K','r'] [] ['L','3','M','5'] [' ','1','5','8','5','.','8','8',' ',' ',' ',' ',' ',' ',' ','0','.','8','3'] ['1','5','8','5','.','4','1','1'] ['0','.','0','2','6'] 8 ['L','3','M','4',',','5',' ','3','d'],
  .full ['B','r'] [] ['L','1','M','3'] [' ','1','6','0','0','.','0',' ',' ',' ',' ',' ',' ',' ',' ','1','.','8'] ['1','5','9','6','.','3'] ['2','.','7'] 10 ['L','1','M','2',',','3',' ','1','d'],
  .full ['K','r'] [] ['L','2','M','4'] [' ','1','6','3','7','.','0','5',' ',' ',' ',' ',' ',' ',' ','0','.','8','7'] ['1','6','3','6','.','8','7','6'] ['0','.','0','2','1'] 15 ['3','d'],
  .full ['Y'] [] ['L','3','M','1'] [' ','1','6','8','6','.','5',' ',' ',' ',' ',' ',' ',' ',' ','1','.','4'] ['1','6','8','5','.','3','9'] ['0','.','1','0'] 16 ['1','d'],
  .full ['R','b'] [] ['L','3','M','4'] [' ','1','6','9','3','.','1','6',' ',' ',' ',' ',' ',' ',' ','0','.','8','5'] ['1','6','9','2','.','5','7'] ['0','.','1','0'] 16 ['1','d'],
  .full ['R','b'] [] ['L','3','M','5'] [' ','1','6','9','4','.','6','0',' ',' ',' ',' ',' ',' ',' ','0','.','8','4'] ['1','6','9','4','.','1','4','1'] ['0','.','0','6','9'] 15 ['1','d'],
  .full ['K','r'] [] ['L','1','M','3'] [' ','1','7','1','0','.','7',' ',' ',' ',' ',' ',' ',' ',' ','1','.','8'] ['1','7','0','6','.','8'] ['1','.','7'] 17 ['1','d'],
  .full ['S','i'] [] ['K','L','2'] [' ','1','7','3','9','.','6','7',' ',' ',' ',' ',' ',' ',' ','0','.','4','7'] ['1','7','3','9','.','3','9','4'] ['0','.','0','3','4'] 15 ['3','d']]

/-- the lines of nist_xray_data.dat L80-139 with a measured energy -/
def main1T : List (XLine ℚ) := [⟨['C','u'], ['L','3','M','4'], 929.68, 0.31⟩,
  ⟨['C','u'], ['L','3','M','5'], 929.68, 0.31⟩,
  ⟨['N','i'], ['L','1','M','3'], 940.7, 1.1⟩,
  ⟨['C','u'], ['L','2','M','4'], 949.84, 0.32⟩,
  ⟨['G','a'], ['L','3','M','1'], 957.17, 0.22⟩,
  ⟨['Z','n'], ['L','3','M','4'], 1011.77, 0.37⟩,
  ⟨['Z','n'], ['L','3','M','5'], 1011.77, 0.37⟩,
  ⟨['C','u'], ['L','1','M','3'], 1022.79, 1.00⟩,
  ⟨['Z','n'], ['L','2','M','4'], 1034.65, 0.38⟩,
  ⟨['G','e'], ['L','3','M','1'], 1036.21, 0.51⟩,
  ⟨['N','a'], ['K','L','2'], 1040.98, 0.12⟩,
  ⟨['N','a'], ['K','L','3'], 1040.98, 0.12⟩,
  ⟨['N','a'], ['K','M','2'], 1071.12, 0.27⟩,
  ⟨['N','a'], ['K','M','3'], 1071.12, 0.27⟩,
  ⟨['N','a'], ['K','M','5'], 1071.12, 0.27⟩,
  ⟨['G','a'], ['L','3','M','4'], 1097.97, 0.14⟩,
  ⟨['G','a'], ['L','3','M','5'], 1097.97, 0.14⟩,
  ⟨['Z','n'], ['L','1','M','3'], 1107.0, 1.0⟩,
  ⟨['A','s'], ['L','3','M','1'], 1119.78, 0.15⟩,
  ⟨['G','a'], ['L','2','M','4'], 1124.76, 0.30⟩,
  ⟨['G','e'], ['L','3','M','4'], 1188.01, 0.13⟩,
  ⟨['G','e'], ['L','3','M','5'], 1188.01, 0.13⟩,
  ⟨['G','a'], ['L','1','M','3'], 1196.9, 1.4⟩,
  ⟨['S','e'], ['L','3','M','1'], 1204.41, 0.17⟩,
  ⟨['G','e'], ['L','2','M','4'], 1218.50, 0.18⟩,
  ⟨['M','g'], ['K','L','2'], 1253.437, 0.013⟩,
  ⟨['M','g'], ['K','L','3'], 1253.688, 0.011⟩,
  ⟨['A','s'], ['L','3','M','4'], 1282.01, 0.16⟩,
  ⟨['A','s'], ['L','3','M','5'], 1282.01, 0.16⟩,
  ⟨['G','e'], ['L','1','M','3'], 1294.04, 0.40⟩,
  ⟨['B','r'], ['L','3','M','1'], 1293.50, 0.20⟩,
  ⟨['M','g'], ['K','M','2'], 1302.20, 0.40⟩,
  ⟨['M','g'], ['K','M','3'], 1302.20, 0.40⟩,
  ⟨['M','g'], ['K','M','5'], 1302.20, 0.40⟩,
  ⟨['A','s'], ['L','2','M','4'], 1316.99, 0.17⟩,
  ⟨['S','e'], ['L','3','M','4'], 1379.11, 0.11⟩,
  ⟨['S','e'], ['L','3','M','5'], 1379.11, 0.11⟩,
  ⟨['A','s'], ['L','1','M','3'], 1388.54, 0.23⟩,
  ⟨['S','e'], ['L','2','M','4'], 1419.24, 0.12⟩,
  ⟨['B','r'], ['L','3','M','4'], 1480.46, 0.13⟩,
  ⟨['B','r'], ['L','3','M','5'], 1480.46, 0.13⟩,
  ⟨['R','b'], ['L','3','M','1'], 1482.40, 0.10⟩,
  ⟨['A','l'], ['K','L','2'], 1486.295, 0.010⟩,
  ⟨['A','l'], ['K','L','3'], 1486.708, 0.010⟩,
  ⟨['S','e'], ['L','1','M','3'], 1490.0, 2.4⟩,
  ⟨['B','r'], ['L','2','M','4'], 1525.92, 0.14⟩,
  ⟨['A','l'], ['K','M','3'], 1557.57, 0.58⟩,
  ⟨['A','l'], ['K','M','5'], 1557.57, 0.58⟩,
  ⟨['A','l'], ['K','M','2'], 1557.57, 0.58⟩,
  ⟨['S','r'], ['L','3','M','1'], 1582.174, 0.090⟩,
  ⟨['K','r'], ['L','3','M','4'], 1585.411, 0.026⟩,
  ⟨['K','r'], ['L','3','M','5'], 1585.411, 0.026⟩,
  ⟨['B','r'], ['L','1','M','3'], 1596.3, 2.7⟩,
  ⟨['K','r'], ['L','2','M','4'], 1636.876, 0.021⟩,
  ⟨['Y'], ['L','3','M','1'], 1685.39, 0.10⟩,
  ⟨['R','b'], ['L','3','M','4'], 1692.57, 0.10⟩,
  ⟨['R','b'], ['L','3','M','5'], 1694.141, 0.069⟩,
  ⟨['K','r'], ['L','1','M','3'], 1706.8, 1.7⟩,
  ⟨['S','i'], ['K','L','2'], 1739.394, 0.034⟩]

/-- nist_xray_data.dat L140-199 -/
def main2 : List Row := [.full ['S','i'] [] ['K','L','3'] [' ','1','7','4','1','.','1','6',' ',' ',' ',' ',' ',' ',' ','0','.','4','7'] ['1','7','3','9','.','9','8','5'] ['0','.','0','1','9'] 15 ['3','d'],
  .full ['R','b'] [] ['L','2','M','4'] [' ','1','7','5','2','.','4','6',' ',' ',' ',' ',' ',' ',' ','0','.','9','0'] ['1','7','5','2','.','1','8'] ['0','.','1','1'] 16 ['1','d'],
  .full ['Z','r'] [] ['L','3','M','1'] [' ','1','7','9','3','.','2',' ',' ',' ',' ',' ',' ',' ',' ','1','.','4'] ['1','7','9','2','.','1','1','1'] ['0','.','0','2','3'] 15 ['3','d'],
  .full ['S','r'] [] ['L','3','M','4'] [' ','1','8','0','5','.','4','0',' ',' ',' ',' ',' ',' ',' ','0','.','8','6'] ['1','8','0','4','.','7','7'] ['0','.','1','2'] 16 ['1','d'],
  .full ['S','r'] [] ['L','3','M','5'] [' ','1','8','0','7','.','1','0',' ',' ',' ',' ',' ',' ',' ','0','.','8','5'] ['1','8','0','6','.','5','8','5'] ['0','.','0','7','8'] 15 ['1','d'],
  .full ['R','b'] [] ['L','1','M','3'] [' ','1','8','2','6','.','4',' ',' ',' ',' ',' ',' ',' ',' ','1','.','8'] ['1','8','2','6','.','6','0'] ['0','.','1','2'] 16 ['1','d'],
  .full ['S','i'] [] ['K','M','3'] [] ['1','8','3','5','.','9','6'] ['0','.','4','0'] 9 ['K','M',' ',' ',' ',' ',' ','1','d'],
  .full ['S','i'] [] ['K','M','5'] [] ['1','8','3','5','.','9','6'] ['0','.','4','0'] 9 ['K','M',' ',' ',' ',' ',' ','1','d'],
  .full ['S','i'] [] ['K','M','2'] [' ','1','8','4','1','.','7','9',' ',' ',' ',' ',' ',' ',' ','0','.','7','2'] ['1','8','3','5','.','9','6'] ['0','.','4','0'] 9 ['K','M',' ',' ',' ',' ',' ','1','d'],
  .full ['S','r'] [] ['L','2','M','4'] [' ','1','8','7','2','.','1','9',' ',' ',' ',' ',' ',' ',' ','0','.','9','2'] ['1','8','7','1','.','7','4'] ['0','.','1','3'] 16 ['1','d'],
  .full ['N','b'] [] ['L','3','M','1'] [' ','1','9','0','3','.','2',' ',' ',' ',' ',' ',' ',' ',' ','1','.','4'] ['1','9','0','2','.','2','7'] ['0','.','1','3'] 16 ['1','d'],
  .full ['Y'] [] ['L','3','M','4'] [' ','1','9','2','1','.','0','7',' ',' ',' ',' ',' ',' ',' ','0','.','8','8'] ['1','9','2','0','.','4','8'] ['0','.','1','3'] 16 ['1','d'],
  .full ['Y'] [] ['L','3','M','5'] [' ','1','9','2','3','.','2','6',' ',' ',' ',' ',' ',' ',' ','0','.','8','6'] ['1','9','2','2','.','5','6','4'] ['0','.','0','8','8'] 15 ['1','d'],
  .full ['S','r'] [] ['L','1','M','3'] [' ','1','9','4','6','.','6',' ',' ',' ',' ',' ',' ',' ',' ','1','.','8'] ['1','9','4','7','.','2','0'] ['0','.','1','4'] 16 ['1','d'],
  .full ['Y'] [] ['L','2','M','4'] [' ','1','9','9','6','.','2','0',' ',' ',' ',' ',' ',' ',' ','0','.','9','3'] ['1','9','9','5','.','8','5'] ['0','.','1','4'] 16 ['1','d'],
  .full ['P'] [] ['K','L','2'] [' ','2','0','1','3','.','1','4',' ',' ',' ',' ',' ',' ',' ','0','.','4','5'] ['2','0','1','2','.','7','0'] ['0','.','4','8'] 16 ['1','d'],
  .full ['P'] [] ['K','L','3'] [' ','2','0','1','4','.','7','3',' ',' ',' ',' ',' ',' ',' ','0','.','4','4'] ['2','0','1','3','.','6','8'] ['0','.','4','8'] 16 ['1','d'],
  .full ['M','o'] [] ['L','3','M','1'] [' ','2','0','1','6','.','7',' ',' ',' ',' ',' ',' ',' ',' ','1','.','4'] ['2','0','1','5','.','7','1'] ['0','.','1','5'] 16 ['1','d'],
  .full ['Z','r'] [] ['L','3','M','4'] [' ','2','0','4','0','.','3','4',' ',' ',' ',' ',' ',' ',' ','0','.','8','9'] ['2','0','4','0','.','1','9'] ['0','.','1','6'] 16 ['3','d'],
  .full ['Z','r'] [] ['L','3','M','5'] [' ','2','0','4','3','.','1','1',' ',' ',' ',' ',' ',' ',' ','0','.','8','7'] ['2','0','4','2','.','4','8','9'] ['0','.','0','2','7'] 15 ['3','d'],
  .full ['Y'] [] ['L','1','M','3'] [' ','2','0','7','1','.','3',' ',' ',' ',' ',' ',' ',' ',' ','1','.','8'] ['2','0','7','2','.','1','7'] ['0','.','1','5'] 16 ['1','d'],
  .full ['Z','r'] [] ['L','2','M','4'] [' ','2','1','2','4','.','5','9',' ',' ',' ',' ',' ',' ',' ','0','.','9','4'] ['2','1','2','4','.','3','9','4'] ['0','.','0','2','8'] 15 ['3','d'],
  .short ['T','c'] [] ['L','3','M','1'] [' ','2','1','3','3','.','6',' ',' ',' ',' ',' ',' ',' ',' ','1','.','4'],
  .full ['P'] [] ['K','M','5'] [] ['2','1','3','9','.','1'] ['1','.','1'] 10 ['K','M',' ',' ',' ',' ',' ','1','d'],
  .full ['P'] [] ['K','M','3'] [' ','2','1','4','0','.','8','2',' ',' ',' ',' ',' ',' ',' ','1','.','0','0'] ['2','1','3','9','.','1'] ['1','.','1'] 10 ['K','M',' ',' ',' ',' ',' ','1','d'],
  .full ['P'] [] ['K','M','2'] [' ','2','1','4','3','.','7','9',' ',' ',' ',' ',' ',' ',' ','0','.','5','8'] ['2','1','3','9','.','1'] ['1','.','1'] 10 ['K','M',' ',' ',' ',' ',' ','1','d'],
  .short ['Y'] [] ['L','2','N','4'] [' ','2','1','5','7','.','9','0',' ',' ',' ',' ',' ',' ',' ','0','.','7','1'],
  .full ['N','b'] [] ['L','3','M','4'] [' ','2','1','6','2','.','8','0',' ',' ',' ',' ',' ',' ',' ','0','.','9','0'] ['2','1','6','3','.','0','2'] ['0','.','1','7'] 16 ['1','d'],
  .full ['N','b'] [] ['L','3','M','5'] [' ','2','1','6','6','.','5','7',' ',' ',' ',' ',' ',' ',' ','0','.','8','8'] ['2','1','6','5','.','8','9'] ['0','.','1','1'] 16 ['1','d'],
  .full ['Z','r'] [] ['L','1','M','3'] [' ','2','2','0','0','.','4',' ',' ',' ',' ',' ',' ',' ',' ','1','.','8'] ['2','2','0','1','.','0','6','3'] ['0','.','0','3','2'] 15 ['3','d'],
  .full ['Z','r'] [] ['L','3','N','5'] [] ['2','2','1','9','.','4','0'] ['0','.','1','8'] 9 ['L','3','N','4',',','5',' ','1','d'],
  .full ['R','u'] [] ['L','3','M','1'] [' ','2','2','5','3','.','8',' ',' ',' ',' ',' ',' ',' ',' ','1','.','4'] ['2','2','5','2','.','7','9'] ['0','.','1','8'] 16 ['1','d'],
  .full ['N','b'] [] ['L','2','M','4'] [' ','2','2','5','7','.','1','1',' ',' ',' ',' ',' ',' ',' ','0','.','9','6'] ['2','2','5','7','.','3','8'] ['0','.','1','8'] 16 ['1','d'],
  .full ['M','o'] [] ['L','3','M','4'] [' ','2','2','8','9','.','6','0',' ',' ',' ',' ',' ',' ',' ','0','.','9','2'] ['2','2','8','9','.','8','7','5'] ['0','.','0','5','0'] 15 ['1','d'],
  .full ['M','o'] [] ['L','3','M','5'] [' ','2','2','9','3','.','7','1',' ',' ',' ',' ',' ',' ',' ','0','.','8','9'] ['2','2','9','3','.','1','8','7'] ['0','.','0','5','0'] 15 ['1','d'],
  .full ['S'] [] ['K','L','2'] [' ','2','3','0','7','.','0','1',' ',' ',' ',' ',' ',' ',' ','0','.','4','5'] ['2','3','0','6','.','7','0','0'] ['0','.','0','3','8'] 15 ['3','d'],
  .full ['S'] [] ['K','L','3'] [' ','2','3','0','8','.','8','0',' ',' ',' ',' ',' ',' ',' ','0','.','4','4'] ['2','3','0','7','.','8','8','5'] ['0','.','0','3','4'] 15 ['3','d'],
  .full ['Z','r'] [] ['L','2','N','4'] [' ','2','3','0','9','.','4','8',' ',' ',' ',' ',' ',' ',' ','0','.','8','6'] ['2','3','0','2','.','6','6'] ['0','.','1','9'] 16 ['1','d'],
  .full ['N','b'] [] ['L','1','M','3'] [' ','2','3','3','3','.','9',' ',' ',' ',' ',' ',' ',' ',' ','1','.','8'] ['2','3','3','4','.','8','0'] ['0','.','2','0'] 16 ['1','d'],
  .full ['N','b'] [] ['L','3','N','5'] [] ['2','3','6','7','.','0','2'] ['0','.','2','0'] 9 ['L','3','N','4',',','5',' ','1','d'],
  .full ['R','h'] [] ['L','3','M','1'] [' ','2','3','7','0','.','2',' ',' ',' ',' ',' ',' ',' ',' ','1','.','4'] ['2','3','7','6','.','5','5'] ['0','.','2','0'] 16 ['1','d'],
  .full ['M','o'] [] ['L','2','M','4'] [' ','2','3','9','4','.','5','2',' ',' ',' ',' ',' ',' ',' ','0','.','9','7'] ['2','3','9','4','.','8','3','1'] ['0','.','0','5','5'] 15 ['1','d'],
  .short ['T','c'] [] ['L','3','M','4'] [' ','2','4','2','0','.','2','4',' ',' ',' ',' ',' ',' ',' ','0','.','9','3'],
  .full ['T','c'] [] ['L','3','M','5'] [' ','2','4','2','4','.','4','6',' ',' ',' ',' ',' ',' ',' ','0','.','9','0'] ['2','4','2','3','.','9','9'] ['0','.','2','1'] 16 ['1','d'],
  .full ['N','b'] [] ['L','2','N','4'] [' ','2','4','6','4','.','6','4',' ',' ',' ',' ',' ',' ',' ','0','.','9','1'] ['2','4','6','1','.','8','7'] ['0','.','2','2'] 16 ['1','d'],
  .full ['S'] [] ['K','M','3'] [' ','2','4','6','7','.','5','3',' ',' ',' ',' ',' ',' ',' ','0','.','7','2'] ['2','4','6','4','.','0','7'] ['0','.','1','4'] 16 ['1','d'],
  .short ['S'] [] ['K','M','2'] [' ','2','4','6','9','.','7','3',' ',' ',' ',' ',' ',' ',' ','0','.','6','0'],
  .full ['M','o'] [] ['L','1','M','3'] [' ','2','4','7','2','.','1',' ',' ',' ',' ',' ',' ',' ',' ','1','.','8'] ['2','4','7','3','.','0','7'] ['0','.','2','2'] 16 ['1','d'],
  .full ['P','d'] [] ['L','3','M','1'] [' ','2','5','0','4','.','5',' ',' ',' ',' ',' ',' ',' ',' ','1','.','3'] ['2','5','0','3','.','4','3'] ['0','.','2','2'] 16 ['1','d'],
  .full ['M','o'] [] ['L','3','N','5'] [' ','2','5','2','0','.','7','4',' ',' ',' ',' ',' ',' ',' ','0','.','3','8'] ['2','5','1','8','.','3','3'] ['0','.','1','5'] 9 ['L','3','N','4',',','5',' ','1','d'],
  .full ['T','c'] [] ['L','2','M','4'] [' ','2','5','3','6','.','5','2',' ',' ',' ',' ',' ',' ',' ','0','.','9','9'] ['2','5','3','6','.','8','3'] ['0','.','6','1'] 16 ['1','d'],
  .full ['R','u'] [] ['L','3','M','4'] [' ','2','5','5','4','.','2','3',' ',' ',' ',' ',' ',' ',' ','0','.','9','4'] ['2','5','5','4','.','3','3','0'] ['0','.','0','5','5'] 15 ['1','d'],
  .full ['R','u'] [] ['L','3','M','5'] [' ','2','5','5','9','.','0','6',' ',' ',' ',' ',' ',' ',' ','0','.','9','1'] ['2','5','5','8','.','5','7','9'] ['0','.','0','3','9'] 15 ['1','d'],
  .full ['T','c'] [] ['L','1','M','3'] [' ','2','6','1','4','.','9',' ',' ',' ',' ',' ',' ',' ',' ','1','.','8'] [] [] 20 ['0','d'],
  .full ['C','l'] [] ['K','L','2'] [' ','2','6','2','1','.','2','7',' ',' ',' ',' ',' ',' ',' ','0','.','4','4'] ['2','6','2','0','.','8','4','6'] ['0','.','0','3','9'] 15 ['3','d'],
  .full ['C','l'] [] ['K','L','3'] [' ','2','6','2','3','.','6','7',' ',' ',' ',' ',' ',' ',' ','0','.','4','3'] ['2','6','2','2','.','4','4','0'] ['0','.','0','3','9'] 15 ['3','d'],
  .full ['M','o'] [] ['L','2','N','4'] [' ','2','6','2','6','.','5','5',' ',' ',' ',' ',' ',' ',' ','0','.','9','2'] ['2','6','2','3','.','5','2'] ['0','.','1','6'] 16 ['1','d'],
  .full ['A','g'] [] ['L','3','M','1'] [' ','2','6','3','4','.','4',' ',' ',' ',' ',' ',' ',' ',' ','1','.','4'] ['2','6','3','3','.','6','6'] ['0','.','1','7'] 16 ['1','d'],
  .short ['T','c'] [] ['L','3','N','5'] [' ','2','6','7','5','.','4','9',' ',' ',' ',' ',' ',' ',' ','0','.','7','6'],
  .full ['R','u'] [] ['L','2','M','4'] [' ','2','6','8','3','.','1',' ',' ',' ',' ',' ',' ',' ',' ','1','.','0'] ['2','6','8','3','.','2','6','3'] ['0','.','0','2','6'] 15 ['1','d']]

/-- the lines of nist_xray_data.dat L140-199 with a measured energy -/
def main2T : List (XLine ℚ) := [⟨['S','i'], ['K','L','3'], 1739.985, 0.019⟩,
  ⟨['R','b'], ['L','2','M','4'], 1752.18, 0.11⟩,
  ⟨['Z','r'], ['L','3','M','1'], 1792.111, 0.023⟩,
  ⟨['S','r'], ['L','3','M','4'], 1804.77, 0.12⟩,
  ⟨['S','r'], ['L','3','M','5'], 1806.585, 0.078⟩,
  ⟨['R','b'], ['L','1','M','3'], 1826.60, 0.12⟩,
  ⟨['S','i'], ['K','M','3'], 1835.96, 0.40⟩,
  ⟨['S','i'], ['K','M','5'], 1835.96, 0.40⟩,
  ⟨['S','i'], ['K','M','2'], 1835.96, 0.40⟩,
  ⟨['S','r'], ['L','2','M','4'], 1871.74, 0.13⟩,
  ⟨['N','b'], ['L','3','M','1'], 1902.27, 0.13⟩,
  ⟨['Y'], ['L','3','M','4'], 1920.48, 0.13⟩,
  ⟨['Y'], ['L','3','M','5'], 1922.564, 0.088⟩,
  ⟨['S','r'], ['L','1','M','3'], 1947.20, 0.14⟩,
  ⟨['Y'], ['L','2','M','4'], 1995.85, 0.14⟩,
  ⟨['P'], ['K','L','2'], 2012.70, 0.48⟩,
  ⟨['P'], ['K','L','3'], 2013.68, 0.48⟩,
  ⟨['M','o'], ['L','3','M','1'], 2015.71, 0.15⟩,
  ⟨['Z','r'], ['L','3','M','4'], 2040.19, 0.16⟩,
  ⟨['Z','r'], ['L','3','M','5'], 2042.489, 0.027⟩,
  ⟨['Y'], ['L','1','M','3'], 2072.17, 0.15⟩,
  ⟨['Z','r'], ['L','2','M','4'], 2124.394, 0.028⟩,
  ⟨['P'], ['K','M','5'], 2139.1, 1.1⟩,
  ⟨['P'], ['K','M','3'], 2139.1, 1.1⟩,
  ⟨['P'], ['K','M','2'], 2139.1, 1.1⟩,
  ⟨['N','b'], ['L','3','M','4'], 2163.02, 0.17⟩,
  ⟨['N','b'], ['L','3','M','5'], 2165.89, 0.11⟩,
  ⟨['Z','r'], ['L','1','M','3'], 2201.063, 0.032⟩,
  ⟨['Z','r'], ['L','3','N','5'], 2219.40, 0.18⟩,
  ⟨['R','u'], ['L','3','M','1'], 2252.79, 0.18⟩,
  ⟨['N','b'], ['L','2','M','4'], 2257.38, 0.18⟩,
  ⟨['M','o'], ['L','3','M','4'], 2289.875, 0.050⟩,
  ⟨['M','o'], ['L','3','M','5'], 2293.187, 0.050⟩,
  ⟨['S'], ['K','L','2'], 2306.700, 0.038⟩,
  ⟨['S'], ['K','L','3'], 2307.885, 0.034⟩,
  ⟨['Z','r'], ['L','2','N','4'], 2302.66, 0.19⟩,
  ⟨['N','b'], ['L','1','M','3'], 2334.80, 0.20⟩,
  ⟨['N','b'], ['L','3','N','5'], 2367.02, 0.20⟩,
  ⟨['R','h'], ['L','3','M','1'], 2376.55, 0.20⟩,
  ⟨['M','o'], ['L','2','M','4'], 2394.831, 0.055⟩,
  ⟨['T','c'], ['L','3','M','5'], 2423.99, 0.21⟩,
  ⟨['N','b'], ['L','2','N','4'], 2461.87, 0.22⟩,
  ⟨['S'], ['K','M','3'], 2464.07, 0.14⟩,
  ⟨['M','o'], ['L','1','M','3'], 2473.07, 0.22⟩,
  ⟨['P','d'], ['L','3','M','1'], 2503.43, 0.22⟩,
  ⟨['M','o'], ['L','3','N','5'], 2518.33, 0.15⟩,
  ⟨['T','c'], ['L','2','M','4'], 2536.83, 0.61⟩,
  ⟨['R','u'], ['L','3','M','4'], 2554.330, 0.055⟩,
  ⟨['R','u'], ['L','3','M','5'], 2558.579, 0.039⟩,
  ⟨['C','l'], ['K','L','2'], 2620.846, 0.039⟩,
  ⟨['C','l'], ['K','L','3'], 2622.440, 0.039⟩,
  ⟨['M','o'], ['L','2','N','4'], 2623.52, 0.16⟩,
  ⟨['A','g'], ['L','3','M','1'], 2633.66, 0.17⟩,
  ⟨['R','u'], ['L','2','M','4'], 2683.263, 0.026⟩]

/-- nist_xray_data.dat L200-259 -/
def main3 : List Row := [.full ['R','h'] [] ['L','3','M','4'] [' ','2','6','9','2','.','0','6',' ',' ',' ',' ',' ',' ',' ','0','.','9','6'] ['2','6','9','2','.','0','7','8'] ['0','.','0','7','8'] 15 ['1','d'],
  .full ['R','h'] [] ['L','3','M','5'] [' ','2','6','9','7','.','2','9',' ',' ',' ',' ',' ',' ',' ','0','.','9','2'] ['2','6','9','6','.','7','7','5'] ['0','.','0','7','8'] 15 ['1','d'],
  .full ['R','u'] [] ['L','1','M','3'] [' ','2','7','6','2','.','5',' ',' ',' ',' ',' ',' ',' ',' ','1','.','8'] ['2','7','6','3','.','3','9'] ['0','.','2','7'] 16 ['1','d'],
  .full ['C','d'] [] ['L','3','M','1'] [' ','2','7','6','7','.','9',' ',' ',' ',' ',' ',' ',' ',' ','1','.','4'] ['2','7','6','7','.','3','7','6'] ['0','.','0','8','2'] 15 ['1','d'],
  .short ['T','c'] [] ['L','2','N','4'] [' ','2','7','9','1','.','4','4',' ',' ',' ',' ',' ',' ',' ','0','.','9','1'],
  .full ['C','l'] [] ['K','M','5'] [] ['2','8','1','5','.','6','0'] ['0','.','2','8'] 9 ['K','M',' ',' ',' ',' ',' ','1','d'],
  .full ['C','l'] [] ['K','M','3'] [' ','2','8','1','7','.','5','8',' ',' ',' ',' ',' ',' ',' ','0','.','4','9'] ['2','8','1','5','.','6','0'] ['0','.','2','8'] 9 ['K','M',' ',' ',' ',' ',' ','1','d'],
  .full ['C','l'] [] ['K','M','2'] [' ','2','8','1','9','.','0','4',' ',' ',' ',' ',' ',' ',' ','0','.','6','4'] ['2','8','1','5','.','6','0'] ['0','.','2','8'] 9 ['K','M',' ',' ',' ',' ',' ','1','d'],
  .full ['P','d'] [] ['L','3','M','4'] [' ','2','8','3','3','.','7','4',' ',' ',' ',' ',' ',' ',' ','0','.','9','8'] ['2','8','3','3','.','3','1','2'] ['0','.','0','6','7'] 15 ['1','d'],
  .full ['R','h'] [] ['L','2','M','4'] [' ','2','8','3','4','.','3',' ',' ',' ',' ',' ',' ',' ',' ','1','.','0'] ['2','8','3','4','.','4','3','9'] ['0','.','0','3','8'] 15 ['1','d'],
  .full ['R','u'] [] ['L','3','N','5'] [' ','2','8','3','8','.','4','0',' ',' ',' ',' ',' ',' ',' ','0','.','8','2'] ['2','8','3','5','.','9','6'] ['0','.','1','9'] 9 ['L','3','N','4',',','5',' ','1','d'],
  .full ['P','d'] [] ['L','3','M','5'] [' ','2','8','3','8','.','9','7',' ',' ',' ',' ',' ',' ',' ','0','.','9','5'] ['2','8','3','8','.','6','3','8'] ['0','.','0','4','8'] 15 ['1','d'],
  .full ['I','n'] [] ['L','3','M','1'] [' ','2','9','0','4','.','6',' ',' ',' ',' ',' ',' ',' ',' ','1','.','4'] ['2','9','0','4','.','4','3','1'] ['0','.','0','9','1'] 15 ['1','d'],
  .full ['R','h'] [] ['L','1','M','3'] [' ','2','9','1','4','.','8',' ',' ',' ',' ',' ',' ',' ',' ','1','.','8'] ['2','9','1','5','.','7','2'] ['0','.','2','0'] 16 ['1','d'],
  .full ['A','r'] [] ['K','L','2'] [' ','2','9','5','5','.','8','9',' ',' ',' ',' ',' ',' ',' ','0','.','4','3'] ['2','9','5','5','.','5','6','6'] ['0','.','0','1','6'] 15 ['4','d'],
  .full ['A','r'] [] ['K','L','3'] [' ','2','9','5','7','.','9','0',' ',' ',' ',' ',' ',' ',' ','0','.','4','2'] ['2','9','5','7','.','6','8','2'] ['0','.','0','1','6'] 15 ['4','d'],
  .full ['R','u'] [] ['L','2','N','4'] [' ','2','9','6','6','.','6','4',' ',' ',' ',' ',' ',' ',' ','0','.','8','9'] ['2','9','6','4','.','5','2'] ['0','.','2','1'] 16 ['1','d'],
  .full ['A','g'] [] ['L','3','M','4'] [' ','2','9','7','8','.','7','2',' ',' ',' ',' ',' ',' ',' ','0','.','9','9'] ['2','9','7','8','.','2','4','0'] ['0','.','0','5','3'] 15 ['1','d'],
  .full ['A','g'] [] ['L','3','M','5'] [' ','2','9','8','4','.','6','0',' ',' ',' ',' ',' ',' ',' ','0','.','9','5'] ['2','9','8','4','.','3','4','0'] ['0','.','0','3','2'] 15 ['1','d'],
  .full ['P','d'] [] ['L','2','M','4'] [' ','2','9','9','0','.','4',' ',' ',' ',' ',' ',' ',' ',' ','1','.','0'] ['2','9','9','0','.','2','5','0'] ['0','.','0','5','3'] 15 ['1','d'],
  .full ['R','h'] [] ['L','3','N','5'] [' ','3','0','0','3','.','7','3',' ',' ',' ',' ',' ',' ',' ','0','.','8','6'] ['3','0','0','1','.','2','7'] ['0','.','2','2'] 9 ['L','3','N','4',',','5',' ','1','d'],
  .full ['S','n'] [] ['L','3','M','1'] [' ','3','0','4','4','.','7',' ',' ',' ',' ',' ',' ',' ',' ','1','.','4'] ['3','0','4','5','.','0','1','4'] ['0','.','1','0','0'] 15 ['1','d'],
  .full ['P','d'] [] ['L','1','M','3'] [' ','3','0','7','1','.','8',' ',' ',' ',' ',' ',' ',' ',' ','1','.','8'] ['3','0','7','2','.','9','8'] ['0','.','2','3'] 16 ['1','d'],
  .full ['C','d'] [] ['L','3','M','4'] [' ','3','1','2','7','.','5',' ',' ',' ',' ',' ',' ',' ',' ','1','.','0'] ['3','1','2','6','.','9','5','0'] ['0','.','0','7','0'] 15 ['1','d'],
  .full ['C','d'] [] ['L','3','M','5'] [' ','3','1','3','4','.','0','6',' ',' ',' ',' ',' ',' ',' ','0','.','9','6'] ['3','1','3','3','.','7','5','5'] ['0','.','0','4','7'] 15 ['1','d'],
  .full ['R','h'] [] ['L','2','N','4'] [' ','3','1','4','5','.','2','1',' ',' ',' ',' ',' ',' ',' ','0','.','8','7'] ['3','1','4','3','.','8','1'] ['0','.','2','4'] 16 ['1','d'],
  .full ['A','g'] [] ['L','2','M','4'] [' ','3','1','5','1','.','1',' ',' ',' ',' ',' ',' ',' ',' ','1','.','0'] ['3','1','5','0','.','9','7','4'] ['0','.','0','3','6'] 15 ['1','d'],
  .full ['P','d'] [] ['L','3','N','5'] [' ','3','1','7','1','.','9','3',' ',' ',' ',' ',' ',' ',' ','0','.','8','4'] ['3','1','7','1','.','8','2','0'] ['0','.','0','4','8'] 8 ['L','3','N','4',',','5',' ','1','d'],
  .full ['S','b'] [] ['L','3','M','1'] [' ','3','1','8','8','.','1',' ',' ',' ',' ',' ',' ',' ',' ','1','.','4'] ['3','1','8','8','.','6','3'] ['0','.','1','1'] 16 ['1','d'],
  .full ['A','r'] [] ['K','M','2'] [' ','3','1','9','1','.','3','1',' ',' ',' ',' ',' ',' ',' ','0','.','5','8'] ['3','1','9','0','.','4','9'] ['0','.','2','4'] 9 ['K','M','2',',','3',' ',' ','1','d'],
  .full ['A','r'] [] ['K','M','3'] [' ','3','1','9','1','.','4','7',' ',' ',' ',' ',' ',' ',' ','0','.','5','8'] ['3','1','9','0','.','4','9'] ['0','.','2','4'] 9 ['K','M','2',',','3',' ',' ','1','d'],
  .full ['A','g'] [] ['L','1','M','3'] [' ','3','2','3','3','.','6',' ',' ',' ',' ',' ',' ',' ',' ','1','.','8'] ['3','2','3','4','.','4','9'] ['0','.','1','1'] 16 ['1','d'],
  .full ['I','n'] [] ['L','3','M','4'] [' ','3','2','7','9','.','9',' ',' ',' ',' ',' ',' ',' ',' ','1','.','0'] ['3','2','7','9','.','3','2','2'] ['0','.','0','7','7'] 15 ['1','d'],
  .full ['I','n'] [] ['L','3','M','5'] [' ','3','2','8','7','.','2','8',' ',' ',' ',' ',' ',' ',' ','0','.','9','7'] ['3','2','8','6','.','9','8','2'] ['0','.','0','5','2'] 15 ['1','d'],
  .full ['K'] [] ['K','L','2'] [' ','3','3','1','1','.','9','7',' ',' ',' ',' ',' ',' ',' ','0','.','4','4'] ['3','3','1','1','.','1','9','5','6'] ['0','.','0','0','6','0'] 14 ['5','d'],
  .full ['K'] [] ['K','L','3'] [' ','3','3','1','4','.','6','0',' ',' ',' ',' ',' ',' ',' ','0','.','4','2'] ['3','3','1','3','.','9','4','7','6'] ['0','.','0','0','5','0'] 14 ['5','d'],
  .full ['C','d'] [] ['L','2','M','4'] [' ','3','3','1','6','.','7',' ',' ',' ',' ',' ',' ',' ',' ','1','.','1'] ['3','3','1','6','.','6','0','5'] ['0','.','0','5','3'] 15 ['1','d'],
  .full ['P','d'] [] ['L','2','N','4'] [' ','3','3','2','8','.','1','3',' ',' ',' ',' ',' ',' ',' ','0','.','9','0'] ['3','3','2','8','.','7','4'] ['0','.','2','6'] 16 ['1','d'],
  .full ['T','e'] [] ['L','3','M','1'] [' ','3','3','3','4','.','8',' ',' ',' ',' ',' ',' ',' ',' ','1','.','4'] ['3','3','3','5','.','5','8'] ['0','.','1','2'] 16 ['1','d'],
  .full ['A','g'] [] ['L','3','N','5'] [' ','3','3','4','7','.','8','4',' ',' ',' ',' ',' ',' ',' ','0','.','9','2'] ['3','3','4','7','.','8','4','2'] ['0','.','0','4','0'] 8 ['L','3','N','4',',','5',' ','1','d'],
  .full ['C','d'] [] ['L','1','M','3'] [' ','3','4','0','0','.','6',' ',' ',' ',' ',' ',' ',' ',' ','1','.','9'] ['3','4','0','1','.','4','8'] ['0','.','1','2'] 16 ['1','d'],
  .full ['S','n'] [] ['L','3','M','4'] [' ','3','4','3','6','.','0',' ',' ',' ',' ',' ',' ',' ',' ','1','.','0'] ['3','4','3','7','.','3','5','6'] ['0','.','0','5','6'] 15 ['1','d'],
  .full ['S','n'] [] ['L','3','M','5'] [' ','3','4','4','4','.','2','9',' ',' ',' ',' ',' ',' ',' ','0','.','9','8'] ['3','4','4','4','.','0','1','1'] ['0','.','0','4','2'] 15 ['1','d'],
  .full ['I'] [] ['L','3','M','1'] [' ','3','4','8','4','.','8',' ',' ',' ',' ',' ',' ',' ',' ','1','.','4'] ['3','4','8','5','.','0','6'] ['0','.','1','3'] 16 ['1','d'],
  .full ['I','n'] [] ['L','2','M','4'] [' ','3','4','8','7','.','3',' ',' ',' ',' ',' ',' ',' ',' ','1','.','1'] ['3','4','8','7','.','2','4','4'] ['0','.','0','5','8'] 15 ['1','d'],
  .full ['A','g'] [] ['L','2','N','4'] [' ','3','5','1','9','.','3','2',' ',' ',' ',' ',' ',' ',' ','0','.','8','9'] ['3','5','1','9','.','6','2','5'] ['0','.','0','5','9'] 15 ['1','d'],
  .full ['C','d'] [] ['L','3','N','5'] [' ','3','5','2','8','.','7','4',' ',' ',' ',' ',' ',' ',' ','0','.','9','7'] ['3','5','2','8','.','1','5','9'] ['0','.','0','5','9'] 8 ['L','3','N','4',',','5',' ','1','d'],
  .full ['I','n'] [] ['L','1','M','3'] [' ','3','5','7','2','.','6',' ',' ',' ',' ',' ',' ',' ',' ','1','.','9'] ['3','5','7','3','.','1','4'] ['0','.','1','4'] 16 ['1','d'],
  .full ['K'] [] ['K','M','3'] [' ','3','5','9','1','.','4','9',' ',' ',' ',' ',' ',' ',' ','0','.','6','1'] ['3','5','8','9','.','6','3'] ['0','.','3','1'] 9 ['K','M','2',',','3',' ',' ','1','d'],
  .full ['K'] [] ['K','M','2'] [' ','3','5','9','1','.','7','8',' ',' ',' ',' ',' ',' ',' ','0','.','7','2'] ['3','5','8','9','.','6','3'] ['0','.','3','1'] 9 ['K','M','2',',','3',' ',' ','1','d'],
  .full ['S','b'] [] ['L','3','M','4'] [' ','3','5','9','5','.','9',' ',' ',' ',' ',' ',' ',' ',' ','1','.','0'] ['3','5','9','5','.','3','5','8'] ['0','.','0','9','3'] 15 ['1','d'],
  .full ['K'] [] ['K','M','5'] [] ['3','6','0','2','.','7','8'] ['0','.','6','2'] 9 ['K','M','4',',','5',' ',' ','1','d'],
  .full ['S','b'] [] ['L','3','M','5'] [' ','3','6','0','5','.','1','0',' ',' ',' ',' ',' ',' ',' ','0','.','9','8'] ['3','6','0','4','.','7','5','6'] ['0','.','0','6','2'] 15 ['1','d'],
  .full ['X','e'] [] ['L','3','M','1'] [' ','3','6','3','7','.','8',' ',' ',' ',' ',' ',' ',' ',' ','1','.','4'] ['3','6','3','8','.','0','0','8'] ['0','.','0','5','9'] 15 ['1','2','d'],
  .full ['S','n'] [] ['L','2','M','4'] [' ','3','6','6','3','.','1',' ',' ',' ',' ',' ',' ',' ',' ','1','.','1'] ['3','6','6','2','.','8','3','9'] ['0','.','0','4','8'] 15 ['1','d'],
  .full ['C','a'] [] ['K','L','2'] [' ','3','6','8','7','.','5','6',' ',' ',' ',' ',' ',' ',' ','0','.','4','3'] ['3','6','8','8','.','1','2','8'] ['0','.','0','4','9'] 15 ['1','d'],
  .full ['C','a'] [] ['K','L','3'] [' ','3','6','9','0','.','9','8',' ',' ',' ',' ',' ',' ',' ','0','.','4','1'] ['3','6','9','1','.','7','1','9'] ['0','.','0','4','9'] 15 ['1','d'],
  .full ['I','n'] [] ['L','3','N','5'] [' ','3','7','1','4','.','3','7',' ',' ',' ',' ',' ',' ',' ','0','.','9','2'] ['3','7','1','3','.','8','4','7'] ['0','.','0','4','9'] 8 ['L','3','N','4',',','5',' ','1','d'],
  .full ['C','d'] [] ['L','2','N','4'] [' ','3','7','1','6','.','6','7',' ',' ',' ',' ',' ',' ',' ','0','.','8','5'] ['3','7','1','6','.','8','9','8'] ['0','.','0','9','9'] 15 ['1','d'],
  .full ['S','n'] [] ['L','1','M','3'] [' ','3','7','4','9','.','8',' ',' ',' ',' ',' ',' ',' ',' ','1','.','9'] ['3','7','5','0','.','3','9','2'] ['0','.','0','5','0'] 15 ['1','d']]

/-- the lines of nist_xray_data.dat L200-259 with a measured energy -/
def main3T : List (XLine ℚ) := [⟨['R','h'], ['L','3','M','4'], 2692.078, 0.078⟩,
  ⟨['R','h'], ['L','3','M','5'], 2696.775, 0.078⟩,
  ⟨['R','u'], ['L','1','M','3'], 2763.39, 0.27⟩,
  ⟨['C','d'], ['L','3','M','1'], 2767.376, 0.082⟩,
  ⟨['C','l'], ['K','M','5'], 2815.60, 0.28⟩,
  ⟨['C','l'], ['K','M','3'], 2815.60, 0.28⟩,
  ⟨['C','l'], ['K','M','2'], 2815.60, 0.28⟩,
  ⟨['P','d'], ['L','3','M','4'], 2833.312, 0.067⟩,
  ⟨['R','h'], ['L','2','M','4'], 2834.439, 0.038⟩,
  ⟨['R','u'], ['L','3','N','5'], 2835.96, 0.19⟩,
  ⟨['P','d'], ['L','3','M','5'], 2838.638, 0.048⟩,
  ⟨['I','n'], ['L','3','M','1'], 2904.431, 0.091⟩,
  ⟨['R','h'], ['L','1','M','3'], 2915.72, 0.20⟩,
  ⟨['A','r'], ['K','L','2'], 2955.566, 0.016⟩,
  ⟨['A','r'], ['K','L','3'], 2957.682, 0.016⟩,
  ⟨['R','u'], ['L','2','N','4'], 2964.52, 0.21⟩,
  ⟨['A','g'], ['L','3','M','4'], 2978.240, 0.053⟩,
  ⟨['A','g'], ['L','3','M','5'], 2984.340, 0.032⟩,
  ⟨['P','d'], ['L','2','M','4'], 2990.250, 0.053⟩,
  ⟨['R','h'], ['L','3','N','5'], 3001.27, 0.22⟩,
  ⟨['S','n'], ['L','3','M','1'], 3045.014, 0.100⟩,
  ⟨['P','d'], ['L','1','M','3'], 3072.98, 0.23⟩,
  ⟨['C','d'], ['L','3','M','4'], 3126.950, 0.070⟩,
  ⟨['C','d'], ['L','3','M','5'], 3133.755, 0.047⟩,
  ⟨['R','h'], ['L','2','N','4'], 3143.81, 0.24⟩,
  ⟨['A','g'], ['L','2','M','4'], 3150.974, 0.036⟩,
  ⟨['P','d'], ['L','3','N','5'], 3171.820, 0.048⟩,
  ⟨['S','b'], ['L','3','M','1'], 3188.63, 0.11⟩,
  ⟨['A','r'], ['K','M','2'], 3190.49, 0.24⟩,
  ⟨['A','r'], ['K','M','3'], 3190.49, 0.24⟩,
  ⟨['A','g'], ['L','1','M','3'], 3234.49, 0.11⟩,
  ⟨['I','n'], ['L','3','M','4'], 3279.322, 0.077⟩,
  ⟨['I','n'], ['L','3','M','5'], 3286.982, 0.052⟩,
  ⟨['K'], ['K','L','2'], 3311.1956, 0.0060⟩,
  ⟨['K'], ['K','L','3'], 3313.9476, 0.0050⟩,
  ⟨['C','d'], ['L','2','M','4'], 3316.605, 0.053⟩,
  ⟨['P','d'], ['L','2','N','4'], 3328.74, 0.26⟩,
  ⟨['T','e'], ['L','3','M','1'], 3335.58, 0.12⟩,
  ⟨['A','g'], ['L','3','N','5'], 3347.842, 0.040⟩,
  ⟨['C','d'], ['L','1','M','3'], 3401.48, 0.12⟩,
  ⟨['S','n'], ['L','3','M','4'], 3437.356, 0.056⟩,
  ⟨['S','n'], ['L','3','M','5'], 3444.011, 0.042⟩,
  ⟨['I'], ['L','3','M','1'], 3485.06, 0.13⟩,
  ⟨['I','n'], ['L','2','M','4'], 3487.244, 0.058⟩,
  ⟨['A','g'], ['L','2','N','4'], 3519.625, 0.059⟩,
  ⟨['C','d'], ['L','3','N','5'], 3528.159, 0.059⟩,
  ⟨['I','n'], ['L','1','M','3'], 3573.14, 0.14⟩,
  ⟨['K'], ['K','M','3'], 3589.63, 0.31⟩,
  ⟨['K'], ['K','M','2'], 3589.63, 0.31⟩,
  ⟨['S','b'], ['L','3','M','4'], 3595.358, 0.093⟩,
  ⟨['K'], ['K','M','5'], 3602.78, 0.62⟩,
  ⟨['S','b'], ['L','3','M','5'], 3604.756, 0.062⟩,
  ⟨['X','e'], ['L','3','M','1'], 3638.008, 0.059⟩,
  ⟨['S','n'], ['L','2','M','4'], 3662.839, 0.048⟩,
  ⟨['C','a'], ['K','L','2'], 3688.128, 0.049⟩,
  ⟨['C','a'], ['K','L','3'], 3691.719, 0.049⟩,
  ⟨['I','n'], ['L','3','N','5'], 3713.847, 0.049⟩,
  ⟨['C','d'], ['L','2','N','4'], 3716.898, 0.099⟩,
  ⟨['S','n'], ['L','1','M','3'], 3750.392, 0.050⟩]

/-- nist_xray_data.dat L260-319 -/
def main4 : List Row := [.full ['T','e'] [] ['L','3','M','4'] [' ','3','7','5','9','.','5',' ',' ',' ',' ',' ',' ',' ',' ','1','.','1'] ['3','7','5','8','.','7','9'] ['0','.','1','5'] 16 ['1','d'],
  .full ['T','e'] [] ['L','3','M','5'] [' ','3','7','6','9','.','7','3',' ',' ',' ',' ',' ',' ',' ','0','.','9','9'] ['3','7','6','9','.','3','8'] ['0','.','1','0'] 16 ['1','d'],
  .full ['C','s'] [] ['L','3','M','1'] [' ','3','7','9','4','.','6',' ',' ',' ',' ',' ',' ',' ',' ','1','.','4'] ['3','7','9','4','.','9','9'] ['0','.','3','4'] 16 ['1','d'],
  .full ['S','b'] [] ['L','2','M','4'] [' ','3','8','4','3','.','9',' ',' ',' ',' ',' ',' ',' ',' ','1','.','1'] ['3','8','4','3','.','6','1','5'] ['0','.','0','7','1'] 15 ['1','d'],
  .full ['S','n'] [] ['L','3','N','5'] [' ','3','9','0','5','.','3','2',' ',' ',' ',' ',' ',' ',' ','0','.','9','5'] ['3','9','0','4','.','8','9','4'] ['0','.','0','5','5'] 8 ['L','3','N','4',',','5',' ','1','d'],
  .full ['I','n'] [] ['L','2','N','4'] [' ','3','9','2','0','.','7','2',' ',' ',' ',' ',' ',' ',' ','0','.','9','3'] ['3','9','2','0','.','8','4','8'] ['0','.','0','7','3'] 15 ['1','d'],
  .full ['I'] [] ['L','3','M','4'] [' ','3','9','2','6','.','9',' ',' ',' ',' ',' ',' ',' ',' ','1','.','1'] ['3','9','2','6','.','0','9'] ['0','.','1','1'] 16 ['1','d'],
  .full ['S','b'] [] ['L','1','M','3'] [' ','3','9','3','2','.','1',' ',' ',' ',' ',' ',' ',' ',' ','1','.','9'] ['3','9','3','2','.','7','3'] ['0','.','1','7'] 16 ['1','d'],
  .full ['I'] [] ['L','3','M','5'] [' ','3','9','3','8','.','2',' ',' ',' ',' ',' ',' ',' ',' ','1','.','0'] ['3','9','3','7','.','7','0'] ['0','.','1','1'] 16 ['1','d'],
  .full ['B','a'] [] ['L','3','M','1'] [' ','3','9','5','4','.','4',' ',' ',' ',' ',' ',' ',' ',' ','1','.','4'] ['3','9','5','4','.','1','5'] ['0','.','3','7'] 16 ['1','d'],
  .full ['C','a'] [] ['K','M','2'] [' ','4','0','1','4','.','3','2',' ',' ',' ',' ',' ',' ',' ','0','.','5','9'] ['4','0','1','2','.','7','6'] ['0','.','3','8'] 9 ['K','M','2',',','3',' ',' ','1','d'],
  .full ['C','a'] [] ['K','M','3'] [' ','4','0','1','4','.','6','8',' ',' ',' ',' ',' ',' ',' ','0','.','5','8'] ['4','0','1','2','.','7','6'] ['0','.','3','8'] 9 ['K','M','2',',','3',' ',' ','1','d'],
  .full ['T','e'] [] ['L','2','M','4'] [' ','4','0','2','9','.','9',' ',' ',' ',' ',' ',' ',' ',' ','1','.','1'] ['4','0','2','9','.','6','3'] ['0','.','1','2'] 16 ['1','d'],
  .full ['C','a'] [] ['K','M','5'] [] ['4','0','3','2','.','4','7'] ['0','.','5','8'] 9 ['K','M','4',',','5',' ',' ','1','d'],
  .full ['S','c'] [] ['K','L','2'] [' ','4','0','8','5','.','4','3',' ',' ',' ',' ',' ',' ',' ','0','.','4','4'] ['4','0','8','5','.','9','5','2','6'] ['0','.','0','0','8','5'] 14 ['1',',','2','3','d'],
  .full ['S','c'] [] ['K','L','3'] [' ','4','0','9','0','.','1','5',' ',' ',' ',' ',' ',' ',' ','0','.','4','2'] ['4','0','9','0','.','7','3','5'] ['0','.','0','1','9'] 15 ['2','3','d'],
  .full ['X','e'] [] ['L','3','M','4'] [' ','4','0','9','7','.','7',' ',' ',' ',' ',' ',' ',' ',' ','1','.','1'] ['4','0','9','7','.','3','7','8'] ['0','.','0','3','0'] 15 ['1','2','d'],
  .full ['S','b'] [] ['L','3','N','5'] [' ','4','1','0','1','.','0','2',' ',' ',' ',' ',' ',' ',' ','0','.','9','1'] ['4','1','0','0','.','8','2','6'] ['0','.','0','6','0'] 8 ['L','3','N','4',',','5',' ','1','d'],
  .full ['X','e'] [] ['L','3','M','5'] [' ','4','1','1','0','.','3',' ',' ',' ',' ',' ',' ',' ',' ','1','.','0'] ['4','1','1','0','.','0','8','8'] ['0','.','0','2','0'] 15 ['1','2','d'],
  .full ['L','a'] [] ['L','3','M','1'] [' ','4','1','1','7','.','4',' ',' ',' ',' ',' ',' ',' ',' ','1','.','4'] ['4','1','2','4','.','5'] ['6','.','1'] 17 ['1','d'],
  .full ['T','e'] [] ['L','1','M','3'] [' ','4','1','1','9','.','7',' ',' ',' ',' ',' ',' ',' ',' ','1','.','9'] ['4','1','2','0','.','4','8'] ['0','.','1','8'] 16 ['1','d'],
  .full ['S','n'] [] ['L','2','N','4'] [' ','4','1','3','1','.','1',' ',' ',' ',' ',' ',' ',' ',' ','1','.','0'] ['4','1','3','1','.','1','6','1'] ['0','.','0','6','1'] 15 ['1','d'],
  .full ['I'] [] ['L','2','M','4'] [' ','4','2','2','1','.','2',' ',' ',' ',' ',' ',' ',' ',' ','1','.','1'] ['4','2','2','0','.','7','6'] ['0','.','1','3'] 16 ['1','d'],
  .full ['C','s'] [] ['L','3','M','4'] [' ','4','2','7','2','.','9',' ',' ',' ',' ',' ',' ',' ',' ','1','.','1'] ['4','2','7','2','.','3','1'] ['0','.','4','4'] 16 ['1','d'],
  .full ['C','s'] [] ['L','3','M','5'] [' ','4','2','8','6','.','6',' ',' ',' ',' ',' ',' ',' ',' ','1','.','0'] ['4','2','8','6','.','4','9'] ['0','.','4','4'] 16 ['1','d'],
  .full ['C','e'] [] ['L','3','M','1'] [' ','4','2','8','6','.','8',' ',' ',' ',' ',' ',' ',' ',' ','1','.','4'] ['4','2','8','7','.','5','2'] ['0','.','8','8'] 16 ['1','d'],
  .full ['T','e'] [] ['L','3','N','5'] [' ','4','3','0','1','.','8','9',' ',' ',' ',' ',' ',' ',' ','0','.','9','1'] ['4','3','0','1','.','7','0'] ['0','.','1','8'] 9 ['L','3','N','4',',','5',' ','1','d'],
  .full ['I'] [] ['L','1','M','3'] [' ','4','3','1','2','.','8',' ',' ',' ',' ',' ',' ',' ',' ','1','.','9'] ['4','3','1','3','.','4','9'] ['0','.','2','0'] 16 ['1','d'],
  .full ['S','b'] [] ['L','2','N','4'] [' ','4','3','4','7','.','5','6',' ',' ',' ',' ',' ',' ',' ','0','.','9','6'] ['4','3','4','7','.','8','3','1'] ['0','.','0','6','8'] 15 ['1','d'],
  .full ['X','e'] [] ['L','2','M','4'] [' ','4','4','1','7','.','6',' ',' ',' ',' ',' ',' ',' ',' ','1','.','1'] ['4','4','1','7','.','6','6','8'] ['0','.','0','3','0'] 15 ['1','2','d'],
  .full ['B','a'] [] ['L','3','M','4'] [' ','4','4','5','1','.','5',' ',' ',' ',' ',' ',' ',' ',' ','1','.','1'] ['4','4','5','0','.','9','4'] ['0','.','1','2'] 16 ['1','d'],
  .full ['P','r'] [] ['L','3','M','1'] [' ','4','4','5','8','.','0',' ',' ',' ',' ',' ',' ',' ',' ','1','.','4'] ['4','4','5','3','.','2','3'] ['0','.','9','5'] 16 ['1','d'],
  .full ['S','c'] [] ['K','M','2'] [' ','4','4','6','1','.','1','6',' ',' ',' ',' ',' ',' ',' ','0','.','8','0'] ['4','4','6','0','.','4','4'] ['0','.','4','7'] 9 ['K','M','2',',','3',' ',' ','1','d'],
  .full ['S','c'] [] ['K','M','3'] [' ','4','4','6','2','.','9','3',' ',' ',' ',' ',' ',' ',' ','0','.','8','0'] ['4','4','6','0','.','4','4'] ['0','.','4','7'] 9 ['K','M','2',',','3',' ',' ','1','d'],
  .full ['B','a'] [] ['L','3','M','5'] [' ','4','4','6','6','.','6',' ',' ',' ',' ',' ',' ',' ',' ','1','.','0'] ['4','4','6','6','.','3','0'] ['0','.','1','2'] 16 ['1','d'],
  .full ['S','c'] [] ['K','M','5'] [] ['4','4','8','6','.','5','9'] ['0','.','7','2'] 9 ['K','M','4',',','5',' ',' ','1','d'],
  .full ['T','i'] [] ['K','L','2'] [' ','4','5','0','4','.','0','7',' ',' ',' ',' ',' ',' ',' ','0','.','4','4'] ['4','5','0','4','.','9','2','0','1'] ['0','.','0','0','9','4'] 14 ['1',',','6',',','2','3','d'],
  .full ['I'] [] ['L','3','N','5'] [' ','4','5','0','8','.','0','1',' ',' ',' ',' ',' ',' ',' ','0','.','8','9'] ['4','5','0','7','.','5','8'] ['0','.','1','9'] 9 ['L','3','N','4',',','5',' ','1','d'],
  .full ['T','i'] [] ['K','L','3'] [' ','4','5','1','0','.','3','8',' ',' ',' ',' ',' ',' ',' ','0','.','4','2'] ['4','5','1','0','.','8','9','9','1'] ['0','.','0','0','9','4'] 14 ['1',',','6',',','2','3','d'],
  .full ['X','e'] [] ['L','1','M','3'] [' ','4','5','1','1','.','8',' ',' ',' ',' ',' ',' ',' ',' ','2','.','2'] ['4','5','1','2','.','0','2','8'] ['0','.','0','3','0'] 15 ['1','2','d'],
  .full ['T','e'] [] ['L','2','N','4'] [' ','4','5','7','0','.','6','7',' ',' ',' ',' ',' ',' ',' ','0','.','9','7'] ['4','5','7','0','.','9','3'] ['0','.','1','5'] 16 ['1','d'],
  .full ['C','s'] [] ['L','2','M','4'] [' ','4','6','2','0','.','0',' ',' ',' ',' ',' ',' ',' ',' ','1','.','1'] ['4','6','1','9','.','8','3'] ['0','.','5','1'] 16 ['1','d'],
  .full ['N','d'] [] ['L','3','M','1'] [' ','4','6','3','2','.','4',' ',' ',' ',' ',' ',' ',' ',' ','1','.','5'] ['4','6','3','1','.','8','4','9'] ['0','.','0','5','2'] 15 ['3','d'],
  .full ['L','a'] [] ['L','3','M','4'] [' ','4','6','3','3','.','8',' ',' ',' ',' ',' ',' ',' ',' ','1','.','1'] ['4','6','3','4','.','2','6'] ['0','.','1','0'] 16 ['1',',','2','7','d'],
  .full ['L','a'] [] ['L','3','M','5'] [' ','4','6','5','0','.','4',' ',' ',' ',' ',' ',' ',' ',' ','1','.','0'] ['4','6','5','1','.','0','2'] ['0','.','1','3'] 16 ['1','d'],
  .full ['C','s'] [] ['L','1','M','3'] [' ','4','7','1','5','.','2',' ',' ',' ',' ',' ',' ',' ',' ','2','.','0'] ['4','7','1','6','.','8','5'] ['0','.','5','3'] 16 ['1','d'],
  .short ['X','e'] [] ['L','3','N','5'] [' ','4','7','1','8','.','9','0',' ',' ',' ',' ',' ',' ',' ','0','.','8','4'],
  .full ['I'] [] ['L','2','N','4'] [' ','4','8','0','0','.','5','8',' ',' ',' ',' ',' ',' ',' ','0','.','9','6'] ['4','8','0','0','.','9','8'] ['0','.','2','2'] 16 ['1','d'],
  .short ['P','m'] [] ['L','3','M','1'] [' ','4','8','1','0','.','0',' ',' ',' ',' ',' ',' ',' ',' ','1','.','5'],
  .full ['C','e'] [] ['L','3','M','4'] [' ','4','8','2','2','.','0',' ',' ',' ',' ',' ',' ',' ',' ','1','.','1'] ['4','8','2','3','.','1','7'] ['0','.','3','4'] 16 ['1',',','2','8','d'],
  .full ['B','a'] [] ['L','2','M','4'] [' ','4','8','2','7','.','8',' ',' ',' ',' ',' ',' ',' ',' ','1','.','2'] ['4','8','2','7','.','5','8'] ['0','.','1','4'] 16 ['1','d'],
  .full ['C','e'] [] ['L','3','M','5'] [' ','4','8','4','1','.','1',' ',' ',' ',' ',' ',' ',' ',' ','1','.','1'] ['4','8','4','0','.','0','6'] ['0','.','3','1'] 16 ['1',',','2','8','d'],
  .full ['B','a'] [] ['L','1','M','3'] [' ','4','9','2','5','.','0',' ',' ',' ',' ',' ',' ',' ',' ','2','.','0'] ['4','9','2','6','.','9','7'] ['0','.','5','8'] 16 ['1','d'],
  .full ['T','i'] [] ['K','M','2'] [' ','4','9','3','0','.','8','6',' ',' ',' ',' ',' ',' ',' ','0','.','8','5'] ['4','9','3','1','.','8','2','7'] ['0','.','0','5','9'] 8 ['K','M','2',',','3',' ',' ','1','d'],
  .full ['T','i'] [] ['K','M','3'] [' ','4','9','3','4','.','4','6',' ',' ',' ',' ',' ',' ',' ','0','.','8','7'] ['4','9','3','1','.','8','2','7'] ['0','.','0','5','9'] 8 ['K','M','2',',','3',' ',' ','1','d'],
  .full ['C','s'] [] ['L','3','N','5'] [' ','4','9','3','5','.','3','6',' ',' ',' ',' ',' ',' ',' ','0','.','9','2'] ['4','9','3','6','.','0','0'] ['0','.','5','8'] 9 ['L','3','N','4',',','5',' ','1','d'],
  .full ['V'] [] ['K','L','2'] [' ','4','9','4','3','.','5','9',' ',' ',' ',' ',' ',' ',' ','0','.','4','5'] ['4','9','4','4','.','6','7','1'] ['0','.','0','5','9'] 15 ['1',',','6','d'],
  .full ['V'] [] ['K','L','3'] [' ','4','9','5','1','.','7','9',' ',' ',' ',' ',' ',' ',' ','0','.','4','2'] ['4','9','5','2','.','2','1','6'] ['0','.','0','5','9'] 15 ['1',',','6','d'],
  .full ['T','i'] [] ['K','M','5'] [] ['4','9','6','2','.','2','7'] ['0','.','5','9'] 9 ['K','M','4',',','5',' ',' ','1','d'],
  .full ['S','m'] [] ['L','3','M','1'] [' ','4','9','9','0','.','9',' ',' ',' ',' ',' ',' ',' ',' ','1','.','5'] ['4','9','9','0','.','4','3'] ['0','.','1','7'] 16 ['3','d']]

/-- the lines of nist_xray_data.dat L260-319 with a measured energy -/
def main4T : List (XLine ℚ) := [⟨['T','e'], ['L','3','M','4'], 3758.79, 0.15⟩,
  ⟨['T','e'], ['L','3','M','5'], 3769.38, 0.10⟩,
  ⟨['C','s'], ['L','3','M','1'], 3794.99, 0.34⟩,
  ⟨['S','b'], ['L','2','M','4'], 3843.615, 0.071⟩,
  ⟨['S','n'], ['L','3','N','5'], 3904.894, 0.055⟩,
  ⟨['I','n'], ['L','2','N','4'], 3920.848, 0.073⟩,
  ⟨['I'], ['L','3','M','4'], 3926.09, 0.11⟩,
  ⟨['S','b'], ['L','1','M','3'], 3932.73, 0.17⟩,
  ⟨['I'], ['L','3','M','5'], 3937.70, 0.11⟩,
  ⟨['B','a'], ['L','3','M','1'], 3954.15, 0.37⟩,
  ⟨['C','a'], ['K','M','2'], 4012.76, 0.38⟩,
  ⟨['C','a'], ['K','M','3'], 4012.76, 0.38⟩,
  ⟨['T','e'], ['L','2','M','4'], 4029.63, 0.12⟩,
  ⟨['C','a'], ['K','M','5'], 4032.47, 0.58⟩,
  ⟨['S','c'], ['K','L','2'], 4085.9526, 0.0085⟩,
  ⟨['S','c'], ['K','L','3'], 4090.735, 0.019⟩,
  ⟨['X','e'], ['L','3','M','4'], 4097.378, 0.030⟩,
  ⟨['S','b'], ['L','3','N','5'], 4100.826, 0.060⟩,
  ⟨['X','e'], ['L','3','M','5'], 4110.088, 0.020⟩,
  ⟨['L','a'], ['L','3','M','1'], 4124.5, 6.1⟩,
  ⟨['T','e'], ['L','1','M','3'], 4120.48, 0.18⟩,
  ⟨['S','n'], ['L','2','N','4'], 4131.161, 0.061⟩,
  ⟨['I'], ['L','2','M','4'], 4220.76, 0.13⟩,
  ⟨['C','s'], ['L','3','M','4'], 4272.31, 0.44⟩,
  ⟨['C','s'], ['L','3','M','5'], 4286.49, 0.44⟩,
  ⟨['C','e'], ['L','3','M','1'], 4287.52, 0.88⟩,
  ⟨['T','e'], ['L','3','N','5'], 4301.70, 0.18⟩,
  ⟨['I'], ['L','1','M','3'], 4313.49, 0.20⟩,
  ⟨['S','b'], ['L','2','N','4'], 4347.831, 0.068⟩,
  ⟨['X','e'], ['L','2','M','4'], 4417.668, 0.030⟩,
  ⟨['B','a'], ['L','3','M','4'], 4450.94, 0.12⟩,
  ⟨['P','r'], ['L','3','M','1'], 4453.23, 0.95⟩,
  ⟨['S','c'], ['K','M','2'], 4460.44, 0.47⟩,
  ⟨['S','c'], ['K','M','3'], 4460.44, 0.47⟩,
  ⟨['B','a'], ['L','3','M','5'], 4466.30, 0.12⟩,
  ⟨['S','c'], ['K','M','5'], 4486.59, 0.72⟩,
  ⟨['T','i'], ['K','L','2'], 4504.9201, 0.0094⟩,
  ⟨['I'], ['L','3','N','5'], 4507.58, 0.19⟩,
  ⟨['T','i'], ['K','L','3'], 4510.8991, 0.0094⟩,
  ⟨['X','e'], ['L','1','M','3'], 4512.028, 0.030⟩,
  ⟨['T','e'], ['L','2','N','4'], 4570.93, 0.15⟩,
  ⟨['C','s'], ['L','2','M','4'], 4619.83, 0.51⟩,
  ⟨['N','d'], ['L','3','M','1'], 4631.849, 0.052⟩,
  ⟨['L','a'], ['L','3','M','4'], 4634.26, 0.10⟩,
  ⟨['L','a'], ['L','3','M','5'], 4651.02, 0.13⟩,
  ⟨['C','s'], ['L','1','M','3'], 4716.85, 0.53⟩,
  ⟨['I'], ['L','2','N','4'], 4800.98, 0.22⟩,
  ⟨['C','e'], ['L','3','M','4'], 4823.17, 0.34⟩,
  ⟨['B','a'], ['L','2','M','4'], 4827.58, 0.14⟩,
  ⟨['C','e'], ['L','3','M','5'], 4840.06, 0.31⟩,
  ⟨['B','a'], ['L','1','M','3'], 4926.97, 0.58⟩,
  ⟨['T','i'], ['K','M','2'], 4931.827, 0.059⟩,
  ⟨['T','i'], ['K','M','3'], 4931.827, 0.059⟩,
  ⟨['C','s'], ['L','3','N','5'], 4936.00, 0.58⟩,
  ⟨['V'], ['K','L','2'], 4944.671, 0.059⟩,
  ⟨['V'], ['K','L','3'], 4952.216, 0.059⟩,
  ⟨['T','i'], ['K','M','5'], 4962.27, 0.59⟩,
  ⟨['S','m'], ['L','3','M','1'], 4990.43, 0.17⟩]

/-- nist_xray_data.dat L320-379 -/
def main5 : List Row := [.full ['P','r'] [] ['L','3','M','4'] [' ','5','0','1','2','.','9',' ',' ',' ',' ',' ',' ',' ',' ','1','.','1'] ['5','0','1','3','.','6','4'] ['0','.','9','0'] 16 ['1','d'],
  .full ['P','r'] [] ['L','3','M','5'] [' ','5','0','3','4','.','3',' ',' ',' ',' ',' ',' ',' ',' ','1','.','1'] ['5','0','3','3','.','7','9'] ['0','.','6','0'] 16 ['1','d'],
  .short ['X','e'] [] ['L','2','N','4'] [' ','5','0','3','6','.','9','5',' ',' ',' ',' ',' ',' ',' ','0','.','9','3'],
  .full ['L','a'] [] ['L','2','M','4'] [' ','5','0','4','1','.','2',' ',' ',' ',' ',' ',' ',' ',' ','1','.','2'] ['5','0','4','2','.','1','7'] ['0','.','1','5'] 16 ['1','d'],
  .full ['L','a'] [] ['L','1','M','3'] [' ','5','1','4','0','.','5',' ',' ',' ',' ',' ',' ',' ',' ','2','.','0'] ['5','1','4','3','.','4','0'] ['0','.','3','9'] 16 ['1',',','2','7','d'],
  .full ['B','a'] [] ['L','3','N','5'] [' ','5','1','5','6','.','9','7',' ',' ',' ',' ',' ',' ',' ','0','.','5','5'] ['5','1','5','6','.','5','8'] ['0','.','1','9'] 9 ['L','3','N','4',',','5',' ','1','d'],
  .full ['E','u'] [] ['L','3','M','1'] [' ','5','1','7','5','.','1',' ',' ',' ',' ',' ',' ',' ',' ','1','.','5'] ['5','1','7','7','.','1','5'] ['0','.','6','4'] 16 ['1','d'],
  .full ['N','d'] [] ['L','3','M','4'] [' ','5','2','0','7','.','6',' ',' ',' ',' ',' ',' ',' ',' ','1','.','1'] ['5','2','0','7','.','7'] ['1','.','1'] 17 ['3','d'],
  .full ['N','d'] [] ['L','3','M','5'] [' ','5','2','3','1','.','4',' ',' ',' ',' ',' ',' ',' ',' ','1','.','1'] ['5','2','3','0','.','2','3','9'] ['0','.','0','3','5'] 15 ['3','d'],
  .full ['C','e'] [] ['L','2','M','4'] [' ','5','2','6','2','.','5',' ',' ',' ',' ',' ',' ',' ',' ','1','.','2'] ['5','2','6','2','.','9','3'] ['0','.','4','1'] 16 ['1',',','2','8','d'],
  .full ['C','s'] [] ['L','2','N','4'] [' ','5','2','8','0','.','4',' ',' ',' ',' ',' ',' ',' ',' ','1','.','1'] ['5','2','8','0','.','3','4'] ['0','.','6','7'] 16 ['1','d'],
  .full ['G','d'] [] ['L','3','M','1'] [' ','5','3','6','1','.','1',' ',' ',' ',' ',' ',' ',' ',' ','1','.','5'] ['5','3','6','2','.','0','9'] ['0','.','6','9'] 16 ['1','d'],
  .full ['C','e'] [] ['L','1','M','3'] [' ','5','3','6','4','.','7',' ',' ',' ',' ',' ',' ',' ',' ','2','.','0'] ['5','3','6','5','.','2','9'] ['0','.','4','2'] 16 ['1',',','2','8','d'],
  .full ['L','a'] [] ['L','3','N','5'] [' ','5','3','8','3','.','4','3',' ',' ',' ',' ',' ',' ',' ','0','.','5','5'] ['5','3','8','2','.','8','7'] ['0','.','2','3'] 9 ['L','3','N','4',',','5',' ','1',',','2','7','d'],
  .full ['C','r'] [] ['K','L','2'] [' ','5','4','0','4','.','0','6',' ',' ',' ',' ',' ',' ',' ','0','.','4','5'] ['5','4','0','5','.','5','3','8','4'] ['0','.','0','0','7','1'] 14 ['7','d'],
  .full ['P','m'] [] ['L','3','M','4'] [' ','5','4','0','6','.','1',' ',' ',' ',' ',' ',' ',' ',' ','1','.','1'] ['5','4','0','7','.','9'] ['1','.','4'] 17 ['1','d'],
  .full ['C','r'] [] ['K','L','3'] [' ','5','4','1','3','.','8','8',' ',' ',' ',' ',' ',' ',' ','0','.','4','2'] ['5','4','1','4','.','8','0','4','5'] ['0','.','0','0','7','1'] 14 ['7','d'],
  .full ['V'] [] ['K','M','2'] [' ','5','4','2','4','.','4','2',' ',' ',' ',' ',' ',' ',' ','0','.','8','9'] ['5','4','2','7','.','3','2','0'] ['0','.','0','7','1'] 8 ['K','M','2',',','3',' ',' ','1','d'],
  .full ['V'] [] ['K','M','3'] [' ','5','4','3','0','.','0','0',' ',' ',' ',' ',' ',' ',' ','0','.','9','4'] ['5','4','2','7','.','3','2','0'] ['0','.','0','7','1'] 8 ['K','M','2',',','3',' ',' ','1','d'],
  .full ['P','m'] [] ['L','3','M','5'] [' ','5','4','3','2','.','5',' ',' ',' ',' ',' ',' ',' ',' ','1','.','1'] ['5','4','3','2','.','6'] ['1','.','1'] 17 ['1','d'],
  .full ['V'] [] ['K','M','5'] [] ['5','4','6','2','.','9','6'] ['0','.','2','1'] 9 ['K','M','4',',','5',' ',' ','1','d'],
  .full ['L','a'] [] ['L','3','N','7'] [] ['5','4','7','9','.','1'] ['1','.','2'] 10 ['L','3','N','6',',','7',' ','2','6','d'],
  .full ['P','r'] [] ['L','2','M','4'] [' ','5','4','8','8','.','7',' ',' ',' ',' ',' ',' ',' ',' ','1','.','2'] ['5','4','8','8','.','9'] ['1','.','1'] 17 ['1','d'],
  .full ['B','a'] [] ['L','2','N','4'] [' ','5','5','3','1','.','1',' ',' ',' ',' ',' ',' ',' ',' ','5','.','0'] ['5','5','3','1','.','2','2'] ['0','.','7','3'] 16 ['1','d'],
  .full ['T','b'] [] ['L','3','M','1'] [' ','5','5','5','2','.','7',' ',' ',' ',' ',' ',' ',' ',' ','1','.','5'] ['5','5','4','6','.','8','1'] ['0','.','7','3'] 16 ['1','d'],
  .full ['P','r'] [] ['L','1','M','3'] [' ','5','5','9','3','.','5',' ',' ',' ',' ',' ',' ',' ',' ','2','.','1'] ['5','5','9','1','.','8'] ['1','.','1'] 17 ['1','d'],
  .full ['S','m'] [] ['L','3','M','4'] [' ','5','6','0','8','.','8',' ',' ',' ',' ',' ',' ',' ',' ','1','.','2'] ['5','6','0','9','.','0','5','3'] ['0','.','0','6','1'] 15 ['3','d'],
  .full ['C','e'] [] ['L','3','N','5'] [' ','5','6','1','4','.','1','3',' ',' ',' ',' ',' ',' ',' ','0','.','5','4'] ['5','6','1','2','.','6','7'] ['0','.','4','2'] 9 ['L','3','N','4',',','5',' ','1',',','2','8','d'],
  .full ['S','m'] [] ['L','3','M','5'] [' ','5','6','3','7','.','6',' ',' ',' ',' ',' ',' ',' ',' ','1','.','1'] ['5','6','3','5','.','9','7','0'] ['0','.','0','3','3'] 15 ['3','d'],
  .full ['N','d'] [] ['L','2','M','4'] [' ','5','7','2','0','.','8',' ',' ',' ',' ',' ',' ',' ',' ','1','.','2'] ['5','7','2','1','.','4','4','6'] ['0','.','0','5','0'] 15 ['3','d'],
  .full ['C','e'] [] ['L','3','N','7'] [] ['5','7','2','1','.','1','0'] ['0','.','5','3'] 9 ['L','3','N','6',',','7',' ','2','8','d'],
  .full ['D','y'] [] ['L','3','M','1'] [' ','5','7','4','6','.','0',' ',' ',' ',' ',' ',' ',' ',' ','1','.','5'] ['5','7','4','3','.','0','5'] ['0','.','2','6'] 16 ['1',',','4','4','d'],
  .full ['L','a'] [] ['L','2','N','4'] [' ','5','7','8','8','.','8',' ',' ',' ',' ',' ',' ',' ',' ','4','.','7'] ['5','7','8','8','.','3','0'] ['0','.','2','6'] 16 ['1',',','2','7','d'],
  .full ['E','u'] [] ['L','3','M','4'] [' ','5','8','1','5','.','0',' ',' ',' ',' ',' ',' ',' ',' ','1','.','2'] ['5','8','1','6','.','6','1'] ['0','.','4','5'] 16 ['1',',','3','4','d'],
  .full ['N','d'] [] ['L','1','M','3'] [' ','5','8','2','8','.','5',' ',' ',' ',' ',' ',' ',' ',' ','2','.','1'] ['5','8','2','7','.','8','0','1'] ['0','.','0','5','2'] 15 ['3','d'],
  .full ['E','u'] [] ['L','3','M','5'] [' ','5','8','4','6','.','1',' ',' ',' ',' ',' ',' ',' ',' ','1','.','1'] ['5','8','4','6','.','4','6'] ['0','.','2','6'] 16 ['1',',','3','4','d'],
  .full ['P','r'] [] ['L','3','N','5'] [' ','5','8','5','0','.','0','8',' ',' ',' ',' ',' ',' ',' ','0','.','5','4'] ['5','8','4','9','.','9'] ['1','.','6'] 10 ['L','3','N','4',',','5',' ','1','d'],
  .full ['M','n'] [] ['K','L','2'] [' ','5','8','8','6','.','2','0',' ',' ',' ',' ',' ',' ',' ','0','.','4','5'] ['5','8','8','7','.','6','8','5','9'] ['0','.','0','0','8','4'] 14 ['7','d'],
  .full ['M','n'] [] ['K','L','3'] [' ','5','8','9','8','.','1','0',' ',' ',' ',' ',' ',' ',' ','0','.','4','2'] ['5','8','9','8','.','8','0','1','0'] ['0','.','0','0','8','4'] 14 ['7','d'],
  .full ['C','r'] [] ['K','M','2'] [' ','5','9','4','0','.','7','4',' ',' ',' ',' ',' ',' ',' ','0','.','9','2'] ['5','9','4','6','.','8','2','3'] ['0','.','0','1','1'] 8 ['K','M','2',',','3',' ',' ','7','d'],
  .full ['H','o'] [] ['L','3','M','1'] [' ','5','9','4','2','.','2',' ',' ',' ',' ',' ',' ',' ',' ','1','.','6'] ['5','9','3','9','.','9','6','3'] ['0','.','0','7','1'] 15 ['3','d'],
  .full ['C','r'] [] ['K','M','3'] [' ','5','9','4','7','.','1','0',' ',' ',' ',' ',' ',' ',' ','1','.','0','0'] ['5','9','4','6','.','8','2','3'] ['0','.','0','1','1'] 8 ['K','M','2',',','3',' ',' ','7','d'],
  .full ['P','m'] [] ['L','2','M','4'] [' ','5','9','5','9','.','1',' ',' ',' ',' ',' ',' ',' ',' ','1','.','2'] ['5','9','6','1','.','5'] ['1','.','7'] 17 ['1','d'],
  .full ['C','r'] [] ['K','M','5'] [' ','5','9','9','0','.','8','3',' ',' ',' ',' ',' ',' ',' ','0','.','1','2'] ['5','9','8','6','.','9','7'] ['0','.','2','6'] 9 ['K','M','4',',','5',' ',' ','1','d'],
  .full ['G','d'] [] ['L','3','M','4'] [' ','6','0','2','4','.','0',' ',' ',' ',' ',' ',' ',' ',' ','1','.','2'] ['6','0','2','4','.','9','9'] ['0','.','8','7'] 16 ['1','d'],
  .full ['C','e'] [] ['L','2','N','4'] [' ','6','0','5','0','.','8',' ',' ',' ',' ',' ',' ',' ',' ','4','.','4'] ['6','0','5','2','.','1','5'] ['0','.','2','9'] 16 ['1',',','2','8','d'],
  .full ['G','d'] [] ['L','3','M','5'] [' ','6','0','5','7','.','8',' ',' ',' ',' ',' ',' ',' ',' ','1','.','1'] ['6','0','5','7','.','3','7'] ['0','.','8','8'] 16 ['1','d'],
  .full ['P','m'] [] ['L','1','M','3'] [' ','6','0','6','9','.','6',' ',' ',' ',' ',' ',' ',' ',' ','2','.','1'] ['6','0','7','1','.','3'] ['1','.','8'] 17 ['1','d'],
  .full ['N','d'] [] ['L','3','N','5'] [' ','6','0','9','0','.','9','6',' ',' ',' ',' ',' ',' ',' ','0','.','5','5'] ['6','0','9','1','.','2','5'] ['0','.','2','6'] 9 ['L','3','N','4',',','5',' ','1',',','2','9',',','3','0','d'],
  .full ['E','r'] [] ['L','3','M','1'] [' ','6','1','4','1','.','4',' ',' ',' ',' ',' ',' ',' ',' ','1','.','6'] ['6','1','3','8','.','8','6'] ['0','.','1','4'] 16 ['3','d'],
  .full ['N','d'] [] ['L','3','N','7'] [] ['6','2','0','2','.','3','4'] ['0','.','5','2'] 9 ['L','3','N','6',',','7',' ','2','9',',','3','0','d'],
  .full ['S','m'] [] ['L','2','M','4'] [' ','6','2','0','3','.','9',' ',' ',' ',' ',' ',' ',' ',' ','1','.','3'] ['6','2','0','4','.','0','7','3'] ['0','.','0','9','3'] 15 ['3','d'],
  .full ['T','b'] [] ['L','3','M','4'] [' ','6','2','3','9','.','8',' ',' ',' ',' ',' ',' ',' ',' ','1','.','2'] ['6','2','3','8','.','1','0'] ['0','.','9','3'] 16 ['1','d'],
  .full ['T','b'] [] ['L','3','M','5'] [' ','6','2','7','5','.','0',' ',' ',' ',' ',' ',' ',' ',' ','1','.','1'] ['6','2','7','2','.','8','2'] ['0','.','9','4'] 16 ['1','d'],
  .full ['S','m'] [] ['L','1','M','3'] [' ','6','3','1','7','.','0',' ',' ',' ',' ',' ',' ',' ',' ','2','.','2'] ['6','3','1','6','.','3','6'] ['0','.','1','3'] 16 ['3','d'],
  .full ['P','r'] [] ['L','2','N','4'] [' ','6','3','2','1','.','9',' ',' ',' ',' ',' ',' ',' ',' ','4','.','1'] ['6','3','2','2','.','1'] ['1','.','4'] 17 ['1','d'],
  .full ['P','m'] [] ['L','3','N','5'] [' ','6','3','3','6','.','2','3',' ',' ',' ',' ',' ',' ',' ','0','.','5','9'] ['6','3','3','8','.','9'] ['2','.','9'] 10 ['L','3','N','4',',','5',' ','1','d'],
  .full ['T','m'] [] ['L','3','M','1'] [' ','6','3','4','3','.','5',' ',' ',' ',' ',' ',' ',' ',' ','1','.','6'] ['6','3','4','1','.','9','6'] ['0','.','8','3'] 16 ['1',',','5','4','d'],
  .full ['F','e'] [] ['K','L','2'] [' ','6','3','8','9','.','5','1',' ',' ',' ',' ',' ',' ',' ','0','.','4','6'] ['6','3','9','1','.','0','2','6','4'] ['0','.','0','0','9','9'] 14 ['7','d'],
  .full ['F','e'] [] ['K','L','3'] [' ','6','4','0','3','.','1','3',' ',' ',' ',' ',' ',' ',' ','0','.','4','3'] ['6','4','0','4','.','0','0','6','2'] ['0','.','0','0','9','9'] 14 ['7','d']]

/-- the lines of nist_xray_data.dat L320-379 with a measured energy -/
def main5T : List (XLine ℚ) := [⟨['P','r'], ['L','3','M','4'], 5013.64, 0.90⟩,
  ⟨['P','r'], ['L','3','M','5'], 5033.79, 0.60⟩,
  ⟨['L','a'], ['L','2','M','4'], 5042.17, 0.15⟩,
  ⟨['L','a'], ['L','1','M','3'], 5143.40, 0.39⟩,
  ⟨['B','a'], ['L','3','N','5'], 5156.58, 0.19⟩,
  ⟨['E','u'], ['L','3','M','1'], 5177.15, 0.64⟩,
  ⟨['N','d'], ['L','3','M','4'], 5207.7, 1.1⟩,
  ⟨['N','d'], ['L','3','M','5'], 5230.239, 0.035⟩,
  ⟨['C','e'], ['L','2','M','4'], 5262.93, 0.41⟩,
  ⟨['C','s'], ['L','2','N','4'], 5280.34, 0.67⟩,
  ⟨['G','d'], ['L','3','M','1'], 5362.09, 0.69⟩,
  ⟨['C','e'], ['L','1','M','3'], 5365.29, 0.42⟩,
  ⟨['L','a'], ['L','3','N','5'], 5382.87, 0.23⟩,
  ⟨['C','r'], ['K','L','2'], 5405.5384, 0.0071⟩,
  ⟨['P','m'], ['L','3','M','4'], 5407.9, 1.4⟩,
  ⟨['C','r'], ['K','L','3'], 5414.8045, 0.0071⟩,
  ⟨['V'], ['K','M','2'], 5427.320, 0.071⟩,
  ⟨['V'], ['K','M','3'], 5427.320, 0.071⟩,
  ⟨['P','m'], ['L','3','M','5'], 5432.6, 1.1⟩,
  ⟨['V'], ['K','M','5'], 5462.96, 0.21⟩,
  ⟨['L','a'], ['L','3','N','7'], 5479.1, 1.2⟩,
  ⟨['P','r'], ['L','2','M','4'], 5488.9, 1.1⟩,
  ⟨['B','a'], ['L','2','N','4'], 5531.22, 0.73⟩,
  ⟨['T','b'], ['L','3','M','1'], 5546.81, 0.73⟩,
  ⟨['P','r'], ['L','1','M','3'], 5591.8, 1.1⟩,
  ⟨['S','m'], ['L','3','M','4'], 5609.053, 0.061⟩,
  ⟨['C','e'], ['L','3','N','5'], 5612.67, 0.42⟩,
  ⟨['S','m'], ['L','3','M','5'], 5635.970, 0.033⟩,
  ⟨['N','d'], ['L','2','M','4'], 5721.446, 0.050⟩,
  ⟨['C','e'], ['L','3','N','7'], 5721.10, 0.53⟩,
  ⟨['D','y'], ['L','3','M','1'], 5743.05, 0.26⟩,
  ⟨['L','a'], ['L','2','N','4'], 5788.30, 0.26⟩,
  ⟨['E','u'], ['L','3','M','4'], 5816.61, 0.45⟩,
  ⟨['N','d'], ['L','1','M','3'], 5827.801, 0.052⟩,
  ⟨['E','u'], ['L','3','M','5'], 5846.46, 0.26⟩,
  ⟨['P','r'], ['L','3','N','5'], 5849.9, 1.6⟩,
  ⟨['M','n'], ['K','L','2'], 5887.6859, 0.0084⟩,
  ⟨['M','n'], ['K','L','3'], 5898.8010, 0.0084⟩,
  ⟨['C','r'], ['K','M','2'], 5946.823, 0.011⟩,
  ⟨['H','o'], ['L','3','M','1'], 5939.963, 0.071⟩,
  ⟨['C','r'], ['K','M','3'], 5946.823, 0.011⟩,
  ⟨['P','m'], ['L','2','M','4'], 5961.5, 1.7⟩,
  ⟨['C','r'], ['K','M','5'], 5986.97, 0.26⟩,
  ⟨['G','d'], ['L','3','M','4'], 6024.99, 0.87⟩,
  ⟨['C','e'], ['L','2','N','4'], 6052.15, 0.29⟩,
  ⟨['G','d'], ['L','3','M','5'], 6057.37, 0.88⟩,
  ⟨['P','m'], ['L','1','M','3'], 6071.3, 1.8⟩,
  ⟨['N','d'], ['L','3','N','5'], 6091.25, 0.26⟩,
  ⟨['E','r'], ['L','3','M','1'], 6138.86, 0.14⟩,
  ⟨['N','d'], ['L','3','N','7'], 6202.34, 0.52⟩,
  ⟨['S','m'], ['L','2','M','4'], 6204.073, 0.093⟩,
  ⟨['T','b'], ['L','3','M','4'], 6238.10, 0.93⟩,
  ⟨['T','b'], ['L','3','M','5'], 6272.82, 0.94⟩,
  ⟨['S','m'], ['L','1','M','3'], 6316.36, 0.13⟩,
  ⟨['P','r'], ['L','2','N','4'], 6322.1, 1.4⟩,
  ⟨['P','m'], ['L','3','N','5'], 6338.9, 2.9⟩,
  ⟨['T','m'], ['L','3','M','1'], 6341.96, 0.83⟩,
  ⟨['F','e'], ['K','L','2'], 6391.0264, 0.0099⟩,
  ⟨['F','e'], ['K','L','3'], 6404.0062, 0.0099⟩]

/-- nist_xray_data.dat L380-439 -/
def main6 : List Row := [.full ['E','u'] [] ['L','2','M','4'] [' ','6','4','5','4','.','8',' ',' ',' ',' ',' ',' ',' ',' ','1','.','2'] ['6','4','5','5','.','7','2'] ['0','.','5','6'] 16 ['1',',','3','4','d'],
  .full ['D','y'] [] ['L','3','M','4'] [' ','6','4','5','8','.','0',' ',' ',' ',' ',' ',' ',' ',' ','1','.','2'] ['6','4','5','7','.','7','2'] ['0','.','1','5'] 16 ['1','d'],
  .full ['M','n'] [] ['K','M','2'] [' ','6','4','8','5','.','3','9',' ',' ',' ',' ',' ',' ',' ','0','.','9','6'] ['6','4','9','0','.','5','8','5'] ['0','.','0','1','4'] 8 ['K','M','2',',','3',' ',' ','7','d'],
  .full ['M','n'] [] ['K','M','3'] [' ','6','4','9','2','.','7',' ',' ',' ',' ',' ',' ',' ',' ','1','.','0'] ['6','4','9','0','.','5','8','5'] ['0','.','0','1','4'] 8 ['K','M','2',',','3',' ',' ','7','d'],
  .full ['D','y'] [] ['L','3','M','5'] [' ','6','4','9','5','.','3',' ',' ',' ',' ',' ',' ',' ',' ','1','.','1'] ['6','4','9','5','.','2','7'] ['0','.','1','5'] 16 ['1','d'],
  .full ['M','n'] [] ['K','M','5'] [' ','6','5','3','8','.','5','4',' ',' ',' ',' ',' ',' ',' ','0','.','5','1'] ['6','5','3','5','.','3','6'] ['0','.','5','1'] 9 ['K','M','4',',','5',' ',' ','1','d'],
  .full ['Y','b'] [] ['L','3','M','1'] [' ','6','5','4','8','.','4',' ',' ',' ',' ',' ',' ',' ',' ','1','.','7'] ['6','5','4','5','.','5','4'] ['0','.','2','6'] 16 ['1','d'],
  .full ['E','u'] [] ['L','1','M','3'] [' ','6','5','7','0','.','7',' ',' ',' ',' ',' ',' ',' ',' ','2','.','2'] ['6','5','7','1','.','5','7'] ['0','.','5','8'] 16 ['1',',','3','4','d'],
  .full ['S','m'] [] ['L','3','N','5'] [' ','6','5','8','7','.','0','3',' ',' ',' ',' ',' ',' ',' ','0','.','5','8'] ['6','5','8','7','.','1','7'] ['0','.','1','4'] 9 ['L','3','N','4',',','5',' ','1',',','3','2','d'],
  .full ['N','d'] [] ['L','2','N','4'] [' ','6','6','0','1','.','0',' ',' ',' ',' ',' ',' ',' ',' ','3','.','8'] ['6','6','0','1','.','1','6'] ['0','.','2','4'] 16 ['1',',','2','9',',','3','0','d'],
  .full ['H','o'] [] ['L','3','M','4'] [' ','6','6','8','0','.','0',' ',' ',' ',' ',' ',' ',' ',' ','1','.','2'] ['6','6','7','8','.','4','8','4'] ['0','.','0','5','4'] 15 ['3','d'],
  .full ['G','d'] [] ['L','2','M','4'] [' ','6','7','1','1','.','1',' ',' ',' ',' ',' ',' ',' ',' ','1','.','2'] ['6','7','1','3','.','4'] ['1','.','1'] 17 ['1','d'],
  .full ['S','m'] [] ['L','3','N','7'] [] ['6','7','1','1','.','7','5'] ['0','.','7','3'] 9 ['L','3','N','6',',','7',' ','3','2','d'],
  .full ['H','o'] [] ['L','3','M','5'] [' ','6','7','1','9','.','6',' ',' ',' ',' ',' ',' ',' ',' ','1','.','1'] ['6','7','1','9','.','6','7','5'] ['0','.','0','6','2'] 15 ['3','d'],
  .full ['L','u'] [] ['L','3','M','1'] [' ','6','7','5','4','.','4',' ',' ',' ',' ',' ',' ',' ',' ','1','.','6'] ['6','7','5','2','.','8','5'] ['0','.','5','4'] 16 ['1','d'],
  .full ['G','d'] [] ['L','1','M','3'] [' ','6','8','2','9','.','9',' ',' ',' ',' ',' ',' ',' ',' ','2','.','3'] ['6','8','3','1','.','0'] ['1','.','1'] 17 ['1','d'],
  .full ['E','u'] [] ['L','3','N','5'] [' ','6','8','4','1','.','0','1',' ',' ',' ',' ',' ',' ',' ','0','.','5','9'] ['6','8','4','1','.','8','3'] ['0','.','6','3'] 9 ['L','3','N','4',',','5',' ','1',',','3','4','d'],
  .full ['P','m'] [] ['L','2','N','4'] [' ','6','8','8','8','.','1',' ',' ',' ',' ',' ',' ',' ',' ','3','.','6'] ['6','8','9','2','.','1'] ['5','.','1'] 17 ['1','d'],
  .full ['E','r'] [] ['L','3','M','4'] [' ','6','9','0','5','.','8',' ',' ',' ',' ',' ',' ',' ',' ','1','.','2'] ['6','9','0','4','.','5','0'] ['0','.','1','7'] 16 ['3','d'],
  .full ['C','o'] [] ['K','L','2'] [' ','6','9','1','4','.','0','8',' ',' ',' ',' ',' ',' ',' ','0','.','4','7'] ['6','9','1','5','.','5','3','8','0'] ['0','.','0','0','3','9'] 14 ['7','d'],
  .full ['C','o'] [] ['K','L','3'] [' ','6','9','2','9','.','6','3',' ',' ',' ',' ',' ',' ',' ','0','.','4','3'] ['6','9','3','0','.','3','7','8','0'] ['0','.','0','0','3','9'] 14 ['7','d'],
  .full ['E','r'] [] ['L','3','M','5'] [' ','6','9','4','7','.','9',' ',' ',' ',' ',' ',' ',' ',' ','1','.','1'] ['6','9','4','7','.','9','1','3'] ['0','.','0','7','7'] 15 ['3','d'],
  .full ['H','f'] [] ['L','3','M','1'] [' ','6','9','6','3','.','1',' ',' ',' ',' ',' ',' ',' ',' ','1','.','7'] ['6','9','5','9','.','6','3'] ['0','.','2','9'] 16 ['1','d'],
  .full ['E','u'] [] ['L','3','N','7'] [' ','6','9','6','9','.','5','9',' ',' ',' ',' ',' ',' ',' ','0','.','6','7'] ['6','9','7','1','.','5','7'] ['0','.','7','9'] 9 ['L','3','N','6',',','7',' ','3','4','d'],
  .full ['T','b'] [] ['L','2','M','4'] [' ','6','9','7','7','.','1',' ',' ',' ',' ',' ',' ',' ',' ','1','.','3'] ['6','9','7','7','.','8'] ['1','.','7'] 17 ['1','d'],
  .full ['F','e'] [] ['K','M','2'] [' ','7','0','5','3','.','2','3',' ',' ',' ',' ',' ',' ',' ','1','.','0','0'] ['7','0','5','8','.','1','7','5'] ['0','.','0','1','6'] 8 ['K','M','2',',','3',' ',' ','7','d'],
  .full ['F','e'] [] ['K','M','3'] [' ','7','0','5','9','.','9',' ',' ',' ',' ',' ',' ',' ',' ','1','.','1'] ['7','0','5','8','.','1','7','5'] ['0','.','0','1','6'] 8 ['K','M','2',',','3',' ',' ','7','d'],
  .full ['T','b'] [] ['L','1','M','3'] [' ','7','0','9','7','.','7',' ',' ',' ',' ',' ',' ',' ',' ','2','.','4'] ['7','0','9','6','.','1'] ['1','.','2'] 17 ['1','d'],
  .full ['G','d'] [] ['L','3','N','5'] [' ','7','1','0','1','.','7','7',' ',' ',' ',' ',' ',' ',' ','0','.','5','5'] ['7','1','0','3','.','0'] ['1','.','2'] 10 ['L','3','N','4',',','5',' ','1','d'],
  .full ['F','e'] [] ['K','M','5'] [' ','7','1','1','1','.','5','0',' ',' ',' ',' ',' ',' ',' ','0','.','5','2'] ['7','1','0','8','.','2','6'] ['0','.','6','0'] 9 ['K','M','4',',','5',' ',' ','1','d'],
  .full ['T','m'] [] ['L','3','M','4'] [' ','7','1','3','5','.','4',' ',' ',' ',' ',' ',' ',' ',' ','1','.','2'] ['7','1','3','3','.','7','1','5'] ['0','.','0','7','8'] 15 ['3','d'],
  .full ['T','a'] [] ['L','3','M','1'] [' ','7','1','7','4','.','4',' ',' ',' ',' ',' ',' ',' ',' ','1','.','7'] ['7','1','7','3','.','2','0'] ['0','.','3','1'] 16 ['1','d'],
  .full ['T','m'] [] ['L','3','M','5'] [' ','7','1','8','0','.','1',' ',' ',' ',' ',' ',' ',' ',' ','1','.','1'] ['7','1','8','0','.','1','1','3'] ['0','.','0','2','9'] 15 ['3','d'],
  .full ['S','m'] [] ['L','2','N','4'] [' ','7','1','8','4','.','9',' ',' ',' ',' ',' ',' ',' ',' ','3','.','3'] ['7','1','7','8','.','0','9'] ['0','.','1','7'] 16 ['1',',','3','2','d'],
  .short ['G','d'] [] ['L','3','N','7'] [' ','7','2','3','7','.','5','0',' ',' ',' ',' ',' ',' ',' ','0','.','6','3'],
  .full ['D','y'] [] ['L','2','M','4'] [' ','7','2','4','8','.','3',' ',' ',' ',' ',' ',' ',' ',' ','1','.','3'] ['7','2','4','7','.','8','0'] ['0','.','4','4'] 16 ['1','d'],
  .full ['T','b'] [] ['L','3','N','5'] [' ','7','3','6','3','.','5','0',' ',' ',' ',' ',' ',' ',' ','0','.','6','0'] ['7','3','6','6','.','7'] ['1','.','3'] 10 ['L','3','N','4',',','5',' ','1','d'],
  .full ['Y','b'] [] ['L','3','M','4'] [' ','7','3','6','9','.','1',' ',' ',' ',' ',' ',' ',' ',' ','1','.','3'] ['7','3','6','7','.','4','0'] ['0','.','3','2'] 16 ['1','d'],
  .full ['D','y'] [] ['L','1','M','3'] [' ','7','3','7','1','.','4',' ',' ',' ',' ',' ',' ',' ',' ','2','.','4'] ['7','3','7','0','.','2'] ['1','.','3'] 17 ['1','d'],
  .full ['W'] [] ['L','3','M','1'] [' ','7','3','8','8','.','1',' ',' ',' ',' ',' ',' ',' ',' ','1','.','7'] ['7','3','8','7','.','8','2'] ['0','.','6','5'] 16 ['1','d'],
  .full ['Y','b'] [] ['L','3','M','5'] [' ','7','4','1','6','.','3',' ',' ',' ',' ',' ',' ',' ',' ','1','.','2'] ['7','4','1','5','.','7','0'] ['0','.','2','6'] 16 ['1','d'],
  .full ['N','i'] [] ['K','L','2'] [' ','7','4','5','9','.','9','6',' ',' ',' ',' ',' ',' ',' ','0','.','4','7'] ['7','4','6','1','.','0','3','4','3'] ['0','.','0','0','4','5'] 14 ['7','d'],
  .full ['N','i'] [] ['K','L','3'] [' ','7','4','7','7','.','7','2',' ',' ',' ',' ',' ',' ',' ','0','.','4','4'] ['7','4','7','8','.','2','5','2','1'] ['0','.','0','0','4','5'] 14 ['7','d'],
  .full ['E','u'] [] ['L','2','N','4'] [' ','7','4','7','8','.','5',' ',' ',' ',' ',' ',' ',' ',' ','3','.','0'] ['7','4','7','9','.','1','2'] ['0','.','4','3'] 16 ['1',',','3','4','d'],
  .short ['T','b'] [] ['L','3','N','7'] [' ','7','5','0','6','.','0','2',' ',' ',' ',' ',' ',' ',' ','0','.','6','9'],
  .full ['H','o'] [] ['L','2','M','4'] [' ','7','5','2','6','.','4',' ',' ',' ',' ',' ',' ',' ',' ','1','.','3'] ['7','5','2','5','.','6','7'] ['0','.','1','5'] 16 ['3','d'],
  .full ['R','e'] [] ['L','3','M','1'] [' ','7','6','0','4','.','4',' ',' ',' ',' ',' ',' ',' ',' ','1','.','7'] ['7','6','0','3','.','6','7'] ['0','.','3','5'] 16 ['1','d'],
  .full ['L','u'] [] ['L','3','M','4'] [' ','7','6','0','5','.','0',' ',' ',' ',' ',' ',' ',' ',' ','1','.','2'] ['7','6','0','4','.','9','2'] ['0','.','3','5'] 16 ['1','d'],
  .full ['D','y'] [] ['L','3','N','5'] [' ','7','6','2','9','.','9','2',' ',' ',' ',' ',' ',' ',' ','0','.','5','5'] ['7','6','3','5','.','8','4'] ['0','.','4','9'] 9 ['L','3','N','4',',','5',' ','1','d'],
  .full ['C','o'] [] ['K','M','2'] [' ','7','6','4','5','.','5',' ',' ',' ',' ',' ',' ',' ',' ','1','.','0'] ['7','6','4','9','.','4','4','5'] ['0','.','0','1','4'] 8 ['K','M','2',',','3',' ',' ','7','d'],
  .full ['C','o'] [] ['K','M','3'] [' ','7','6','5','1','.','5',' ',' ',' ',' ',' ',' ',' ',' ','1','.','1'] ['7','6','4','9','.','4','4','5'] ['0','.','0','1','4'] 8 ['K','M','2',',','3',' ',' ','7','d'],
  .full ['H','o'] [] ['L','1','M','3'] [' ','7','6','5','1','.','9',' ',' ',' ',' ',' ',' ',' ',' ','2','.','5'] ['7','6','5','1','.','8'] ['1','.','4'] 17 ['1','d'],
  .full ['L','u'] [] ['L','3','M','5'] [' ','7','6','5','5','.','8',' ',' ',' ',' ',' ',' ',' ',' ','1','.','2'] ['7','6','5','5','.','5','5'] ['0','.','2','1'] 16 ['1','d'],
  .full ['C','o'] [] ['K','M','5'] [' ','7','7','0','9','.','1','5',' ',' ',' ',' ',' ',' ',' ','0','.','5','4'] ['7','7','0','5','.','9','8'] ['0','.','2','1'] 9 ['K','M','4',',','5',' ',' ','1','d'],
  .full ['G','d'] [] ['L','2','N','4'] [' ','7','7','8','1','.','0',' ',' ',' ',' ',' ',' ',' ',' ','2','.','7'] ['7','7','8','5','.','9'] ['1','.','4'] 17 ['1','d'],
  .short ['D','y'] [] ['L','3','N','7'] [' ','7','7','8','2','.','5','0',' ',' ',' ',' ',' ',' ',' ','0','.','6','5'],
  .full ['E','r'] [] ['L','2','M','4'] [' ','7','8','1','1','.','5',' ',' ',' ',' ',' ',' ',' ',' ','1','.','3'] ['7','8','1','0','.','1','9'] ['0','.','4','2'] 16 ['3','d'],
  .full ['O','s'] [] ['L','3','M','1'] [' ','7','8','2','3','.','3',' ',' ',' ',' ',' ',' ',' ',' ','1','.','8'] ['7','8','2','2','.','3','3'] ['0','.','5','1'] 16 ['1','d'],
  .full ['H','f'] [] ['L','3','M','4'] [' ','7','8','4','4','.','7',' ',' ',' ',' ',' ',' ',' ',' ','1','.','2'] ['7','8','4','4','.','7','0'] ['0','.','3','7'] 16 ['1','d'],
  .full ['H','f'] [] ['L','3','M','5'] [' ','7','8','9','9','.','1',' ',' ',' ',' ',' ',' ',' ',' ','1','.','2'] ['7','8','9','9','.','0','8'] ['0','.','3','7'] 16 ['1','d']]

/-- the lines of nist_xray_data.dat L380-439 with a measured energy -/
def main6T : List (XLine ℚ) := [⟨['E','u'], ['L','2','M','4'], 6455.72, 0.56⟩,
  ⟨['D','y'], ['L','3','M','4'], 6457.72, 0.15⟩,
  ⟨['M','n'], ['K','M','2'], 6490.585, 0.014⟩,
  ⟨['M','n'], ['K','M','3'], 6490.585, 0.014⟩,
  ⟨['D','y'], ['L','3','M','5'], 6495.27, 0.15⟩,
  ⟨['M','n'], ['K','M','5'], 6535.36, 0.51⟩,
  ⟨['Y','b'], ['L','3','M','1'], 6545.54, 0.26⟩,
  ⟨['E','u'], ['L','1','M','3'], 6571.57, 0.58⟩,
  ⟨['S','m'], ['L','3','N','5'], 6587.17, 0.14⟩,
  ⟨['N','d'], ['L','2','N','4'], 6601.16, 0.24⟩,
  ⟨['H','o'], ['L','3','M','4'], 6678.484, 0.054⟩,
  ⟨['G','d'], ['L','2','M','4'], 6713.4, 1.1⟩,
  ⟨['S','m'], ['L','3','N','7'], 6711.75, 0.73⟩,
  ⟨['H','o'], ['L','3','M','5'], 6719.675, 0.062⟩,
  ⟨['L','u'], ['L','3','M','1'], 6752.85, 0.54⟩,
  ⟨['G','d'], ['L','1','M','3'], 6831.0, 1.1⟩,
  ⟨['E','u'], ['L','3','N','5'], 6841.83, 0.63⟩,
  ⟨['P','m'], ['L','2','N','4'], 6892.1, 5.1⟩,
  ⟨['E','r'], ['L','3','M','4'], 6904.50, 0.17⟩,
  ⟨['C','o'], ['K','L','2'], 6915.5380, 0.0039⟩,
  ⟨['C','o'], ['K','L','3'], 6930.3780, 0.0039⟩,
  ⟨['E','r'], ['L','3','M','5'], 6947.913, 0.077⟩,
  ⟨['H','f'], ['L','3','M','1'], 6959.63, 0.29⟩,
  ⟨['E','u'], ['L','3','N','7'], 6971.57, 0.79⟩,
  ⟨['T','b'], ['L','2','M','4'], 6977.8, 1.7⟩,
  ⟨['F','e'], ['K','M','2'], 7058.175, 0.016⟩,
  ⟨['F','e'], ['K','M','3'], 7058.175, 0.016⟩,
  ⟨['T','b'], ['L','1','M','3'], 7096.1, 1.2⟩,
  ⟨['G','d'], ['L','3','N','5'], 7103.0, 1.2⟩,
  ⟨['F','e'], ['K','M','5'], 7108.26, 0.60⟩,
  ⟨['T','m'], ['L','3','M','4'], 7133.715, 0.078⟩,
  ⟨['T','a'], ['L','3','M','1'], 7173.20, 0.31⟩,
  ⟨['T','m'], ['L','3','M','5'], 7180.113, 0.029⟩,
  ⟨['S','m'], ['L','2','N','4'], 7178.09, 0.17⟩,
  ⟨['D','y'], ['L','2','M','4'], 7247.80, 0.44⟩,
  ⟨['T','b'], ['L','3','N','5'], 7366.7, 1.3⟩,
  ⟨['Y','b'], ['L','3','M','4'], 7367.40, 0.32⟩,
  ⟨['D','y'], ['L','1','M','3'], 7370.2, 1.3⟩,
  ⟨['W'], ['L','3','M','1'], 7387.82, 0.65⟩,
  ⟨['Y','b'], ['L','3','M','5'], 7415.70, 0.26⟩,
  ⟨['N','i'], ['K','L','2'], 7461.0343, 0.0045⟩,
  ⟨['N','i'], ['K','L','3'], 7478.2521, 0.0045⟩,
  ⟨['E','u'], ['L','2','N','4'], 7479.12, 0.43⟩,
  ⟨['H','o'], ['L','2','M','4'], 7525.67, 0.15⟩,
  ⟨['R','e'], ['L','3','M','1'], 7603.67, 0.35⟩,
  ⟨['L','u'], ['L','3','M','4'], 7604.92, 0.35⟩,
  ⟨['D','y'], ['L','3','N','5'], 7635.84, 0.49⟩,
  ⟨['C','o'], ['K','M','2'], 7649.445, 0.014⟩,
  ⟨['C','o'], ['K','M','3'], 7649.445, 0.014⟩,
  ⟨['H','o'], ['L','1','M','3'], 7651.8, 1.4⟩,
  ⟨['L','u'], ['L','3','M','5'], 7655.55, 0.21⟩,
  ⟨['C','o'], ['K','M','5'], 7705.98, 0.21⟩,
  ⟨['G','d'], ['L','2','N','4'], 7785.9, 1.4⟩,
  ⟨['E','r'], ['L','2','M','4'], 7810.19, 0.42⟩,
  ⟨['O','s'], ['L','3','M','1'], 7822.33, 0.51⟩,
  ⟨['H','f'], ['L','3','M','4'], 7844.70, 0.37⟩,
  ⟨['H','f'], ['L','3','M','5'], 7899.08, 0.37⟩]

/-- nist_xray_data.dat L440-499 -/
def main7 : List Row := [.full ['H','o'] [] ['L','3','N','5'] [' ','7','9','0','6','.','2','6',' ',' ',' ',' ',' ',' ',' ','0','.','5','5'] ['7','9','1','1','.','3','5'] ['0','.','2','5'] 16 ['4','7','d'],
  .full ['E','r'] [] ['L','1','M','3'] [' ','7','9','3','9','.','5',' ',' ',' ',' ',' ',' ',' ',' ','2','.','6'] ['7','9','3','9','.','0','0','7'] ['0','.','0','8','6'] 15 ['3','d'],
  .full ['C','u'] [] ['K','L','2'] [' ','8','0','2','8','.','3','8',' ',' ',' ',' ',' ',' ',' ','0','.','4','8'] ['8','0','2','7','.','8','4','1','6'] ['0','.','0','0','2','6'] 14 ['7','d'],
  .full ['I','r'] [] ['L','3','M','1'] [' ','8','0','4','4','.','7',' ',' ',' ',' ',' ',' ',' ',' ','1','.','8'] ['8','0','4','5','.','8','9'] ['0','.','2','3'] 16 ['1','d'],
  .full ['C','u'] [] ['K','L','3'] [' ','8','0','4','8','.','1','1',' ',' ',' ',' ',' ',' ',' ','0','.','4','5'] ['8','0','4','7','.','8','2','2','7'] ['0','.','0','0','2','6'] 14 ['7','d'],
  .short ['H','o'] [] ['L','3','N','7'] [' ','8','0','6','3','.','1','5',' ',' ',' ',' ',' ',' ',' ','0','.','6','5'],
  .full ['T','a'] [] ['L','3','M','4'] [' ','8','0','8','8','.','2',' ',' ',' ',' ',' ',' ',' ',' ','1','.','2'] ['8','0','8','7','.','9','3'] ['0','.','1','6'] 16 ['1','d'],
  .full ['T','b'] [] ['L','2','N','4'] [' ','8','0','9','1','.','9',' ',' ',' ',' ',' ',' ',' ',' ','2','.','5'] ['8','1','0','1','.','8'] ['1','.','6'] 17 ['1','d'],
  .full ['T','m'] [] ['L','2','M','4'] [' ','8','1','0','3','.','8',' ',' ',' ',' ',' ',' ',' ',' ','1','.','3'] ['8','1','0','2','.','2','6','5'] ['0','.','0','3','7'] 15 ['3','d'],
  .full ['T','a'] [] ['L','3','M','5'] [' ','8','1','4','6','.','5',' ',' ',' ',' ',' ',' ',' ',' ','1','.','2'] ['8','1','4','6','.','1','7'] ['0','.','1','6'] 16 ['1','d'],
  .full ['E','r'] [] ['L','3','N','5'] [' ','8','1','8','4','.','5','2',' ',' ',' ',' ',' ',' ',' ','0','.','5','5'] ['8','1','8','9','.','1','1'] ['0','.','7','2'] 9 ['L','3','N','4',',','5',' ','1','d'],
  .full ['T','m'] [] ['L','1','M','3'] [' ','8','2','3','4','.','3',' ',' ',' ',' ',' ',' ',' ',' ','2','.','6'] ['8','2','3','0','.','9'] ['1','.','6'] 17 ['1','d'],
  .full ['N','i'] [] ['K','M','2'] [' ','8','2','6','2','.','4',' ',' ',' ',' ',' ',' ',' ',' ','1','.','1'] ['8','2','6','4','.','7','7','5'] ['0','.','0','1','7'] 8 ['K','M','2',',','3',' ',' ','7','d'],
  .full ['N','i'] [] ['K','M','3'] [' ','8','2','6','7','.','6',' ',' ',' ',' ',' ',' ',' ',' ','1','.','1'] ['8','2','6','4','.','7','7','5'] ['0','.','0','1','7'] 8 ['K','M','2',',','3',' ',' ','7','d'],
  .full ['P','t'] [] ['L','3','M','1'] [' ','8','2','6','8','.','3',' ',' ',' ',' ',' ',' ',' ',' ','1','.','8'] ['8','2','6','8','.','2'] ['1','.','6'] 17 ['1','d'],
  .full ['N','i'] [] ['K','M','5'] [' ','8','3','3','1','.','5','9',' ',' ',' ',' ',' ',' ',' ','0','.','5','6'] ['8','3','2','8','.','6','8'] ['0','.','3','3'] 9 ['K','M','4',',','5',' ',' ','1','d'],
  .full ['W'] [] ['L','3','M','4'] [' ','8','3','3','5','.','2',' ',' ',' ',' ',' ',' ',' ',' ','1','.','2'] ['8','3','3','5','.','3','4'] ['0','.','1','7'] 16 ['1','d'],
  .short ['E','r'] [] ['L','3','N','7'] [' ','8','3','4','8','.','7','5',' ',' ',' ',' ',' ',' ',' ','0','.','6','5'],
  .full ['W'] [] ['L','3','M','5'] [' ','8','3','9','7','.','6',' ',' ',' ',' ',' ',' ',' ',' ','1','.','2'] ['8','3','9','8','.','2','4','2'] ['0','.','0','5','4'] 15 ['1',',','5','8','d'],
  .full ['Y','b'] [] ['L','2','M','4'] [' ','8','4','0','3','.','6',' ',' ',' ',' ',' ',' ',' ',' ','1','.','4'] ['8','4','0','1','.','8','8'] ['0','.','4','2'] 16 ['1','d'],
  .full ['D','y'] [] ['L','2','N','4'] [' ','8','4','1','0','.','3',' ',' ',' ',' ',' ',' ',' ',' ','2','.','1'] ['8','4','1','8','.','9','4'] ['0','.','5','9'] 16 ['1','d'],
  .full ['T','m'] [] ['L','3','N','5'] [' ','8','4','6','7','.','6','5',' ',' ',' ',' ',' ',' ',' ','0','.','5','5'] ['8','4','6','8','.','7'] ['1','.','7'] 10 ['L','3','N','4',',','5',' ','1','d'],
  .full ['A','u'] [] ['L','3','M','1'] [' ','8','4','9','4','.','3',' ',' ',' ',' ',' ',' ',' ',' ','1','.','8'] ['8','4','9','4','.','0','3'] ['0','.','7','8'] 16 ['1','d'],
  .full ['Y','b'] [] ['L','1','M','3'] [' ','8','5','3','6','.','8',' ',' ',' ',' ',' ',' ',' ',' ','2','.','8'] ['8','5','3','6','.','7','9'] ['0','.','4','3'] 16 ['1','d'],
  .full ['R','e'] [] ['L','3','M','4'] [' ','8','5','8','6','.','2',' ',' ',' ',' ',' ',' ',' ',' ','1','.','2'] ['8','5','8','6','.','2','7'] ['0','.','4','4'] 16 ['1','d'],
  .full ['Z','n'] [] ['K','L','2'] [' ','8','6','1','6','.','2','2',' ',' ',' ',' ',' ',' ',' ','0','.','5','0'] ['8','6','1','5','.','8','2','3'] ['0','.','0','7','3'] 15 ['1',',','6','d'],
  .full ['Z','n'] [] ['K','L','3'] [' ','8','6','3','9','.','1','0',' ',' ',' ',' ',' ',' ',' ','0','.','4','5'] ['8','6','3','8','.','9','0','6'] ['0','.','0','7','3'] 15 ['1',',','6','d'],
  .short ['T','m'] [] ['L','3','N','7'] [' ','8','6','3','9','.','3','5',' ',' ',' ',' ',' ',' ',' ','0','.','6','7'],
  .full ['R','e'] [] ['L','3','M','5'] [' ','8','6','5','2','.','8',' ',' ',' ',' ',' ',' ',' ',' ','1','.','2'] ['8','6','5','2','.','5','5'] ['0','.','3','6'] 16 ['1','d'],
  .full ['L','u'] [] ['L','2','M','4'] [' ','8','7','0','9','.','1',' ',' ',' ',' ',' ',' ',' ',' ','1','.','3'] ['8','7','0','9','.','1','3'] ['0','.','2','7'] 16 ['1','d'],
  .full ['H','g'] [] ['L','3','M','1'] [' ','8','7','2','2','.','6',' ',' ',' ',' ',' ',' ',' ',' ','1','.','9'] ['8','7','2','1','.','3','2'] ['0','.','9','1'] 16 ['1','d'],
  .full ['H','o'] [] ['L','2','N','4'] [' ','8','7','4','1','.','0',' ',' ',' ',' ',' ',' ',' ',' ','1','.','8'] ['8','7','4','7','.','2'] ['1','.','8'] 17 ['1','d'],
  .full ['Y','b'] [] ['L','3','N','5'] [' ','8','7','5','5','.','6','9',' ',' ',' ',' ',' ',' ',' ','0','.','5','5'] ['8','7','5','8','.','9','1'] ['0','.','4','6'] 9 ['L','3','N','4',',','5',' ','1','d'],
  .full ['O','s'] [] ['L','3','M','4'] [' ','8','8','4','1','.','0',' ',' ',' ',' ',' ',' ',' ',' ','1','.','3'] ['8','8','4','1','.','1','0'] ['0','.','4','7'] 16 ['1','d'],
  .full ['L','u'] [] ['L','1','M','3'] [' ','8','8','4','5','.','6',' ',' ',' ',' ',' ',' ',' ',' ','2','.','7'] ['8','8','4','7','.','0','3'] ['0','.','4','7'] 16 ['1','d'],
  .full ['C','u'] [] ['K','M','2'] [' ','8','9','0','4','.','0',' ',' ',' ',' ',' ',' ',' ',' ','1','.','1'] ['8','9','0','5','.','4','1','3'] ['0','.','0','3','8'] 8 ['K','M','2',',','3',' ',' ','7','d'],
  .full ['C','u'] [] ['K','M','3'] [' ','8','9','0','6','.','9',' ',' ',' ',' ',' ',' ',' ',' ','1','.','2'] ['8','9','0','5','.','4','1','3'] ['0','.','0','3','8'] 8 ['K','M','2',',','3',' ',' ','7','d'],
  .full ['O','s'] [] ['L','3','M','5'] [' ','8','9','1','1','.','9',' ',' ',' ',' ',' ',' ',' ',' ','1','.','2'] ['8','9','1','1','.','8','3'] ['0','.','4','7'] 16 ['1','d'],
  .short ['Y','b'] [] ['L','3','N','7'] [' ','8','9','3','5','.','0','9',' ',' ',' ',' ',' ',' ',' ','0','.','6','8'],
  .full ['T','l'] [] ['L','3','M','1'] [' ','8','9','5','3','.','1',' ',' ',' ',' ',' ',' ',' ',' ','1','.','9'] ['8','9','5','3','.','2','8'] ['0','.','2','9'] 16 ['1','d'],
  .full ['C','u'] [] ['K','M','5'] [' ','8','9','7','7','.','8','2',' ',' ',' ',' ',' ',' ',' ','0','.','5','8'] ['8','9','7','7','.','1','4'] ['0','.','2','9'] 9 ['K','M','4',',','5',' ',' ','1','d'],
  .full ['H','f'] [] ['L','2','M','4'] [' ','9','0','2','2','.','4',' ',' ',' ',' ',' ',' ',' ',' ','1','.','3'] ['9','0','2','2','.','8','0'] ['0','.','4','9'] 16 ['1','d'],
  .full ['L','u'] [] ['L','3','N','5'] [' ','9','0','4','9','.','5','4',' ',' ',' ',' ',' ',' ',' ','0','.','5','6'] ['9','0','4','9','.','0','1'] ['0','.','2','9'] 16 ['1','d'],
  .full ['E','r'] [] ['L','2','N','4'] [' ','9','0','7','8','.','1',' ',' ',' ',' ',' ',' ',' ',' ','1','.','6'] ['9','0','8','8','.','9'] ['2','.','0'] 17 ['1','d'],
  .full ['I','r'] [] ['L','3','M','4'] [' ','9','0','9','9','.','7',' ',' ',' ',' ',' ',' ',' ',' ','1','.','3'] ['9','0','9','9','.','6','2'] ['0','.','4','9'] 16 ['1','d'],
  .full ['H','f'] [] ['L','1','M','3'] [' ','9','1','6','2','.','4',' ',' ',' ',' ',' ',' ',' ',' ','2','.','8'] ['9','1','6','3','.','5','1'] ['0','.','5','0'] 16 ['1','d'],
  .full ['I','r'] [] ['L','3','M','5'] [' ','9','1','7','5','.','2',' ',' ',' ',' ',' ',' ',' ',' ','1','.','3'] ['9','1','7','5','.','1','8'] ['0','.','3','0'] 16 ['1','d'],
  .full ['P','b'] [] ['L','3','M','1'] [' ','9','1','8','6','.','0',' ',' ',' ',' ',' ',' ',' ',' ','1','.','9'] ['9','1','8','4','.','5','6'] ['0','.','7','0'] 16 ['1','d'],
  .full ['G','a'] [] ['K','L','2'] [' ','9','2','2','5','.','1','0',' ',' ',' ',' ',' ',' ',' ','0','.','4','9'] ['9','2','2','4','.','8','3','5'] ['0','.','0','2','7'] 15 ['3','d'],
  .short ['L','u'] [] ['L','3','N','7'] [' ','9','2','3','6','.','6','4',' ',' ',' ',' ',' ',' ',' ','0','.','6','8'],
  .full ['G','a'] [] ['K','L','3'] [' ','9','2','5','1','.','8','9',' ',' ',' ',' ',' ',' ',' ','0','.','4','5'] ['9','2','5','1','.','6','7','4'] ['0','.','0','6','6'] 15 ['3','d'],
  .full ['T','a'] [] ['L','2','M','4'] [' ','9','3','4','3','.','4',' ',' ',' ',' ',' ',' ',' ',' ','1','.','3'] ['9','3','4','3','.','1','9'] ['0','.','3','1'] 16 ['1','d'],
  .full ['H','f'] [] ['L','3','N','5'] [' ','9','3','4','8','.','5','4',' ',' ',' ',' ',' ',' ',' ','0','.','5','5'] ['9','3','4','7','.','3','5'] ['0','.','5','2'] 16 ['1','d'],
  .full ['P','t'] [] ['L','3','M','4'] [' ','9','3','6','2','.','0',' ',' ',' ',' ',' ',' ',' ',' ','1','.','3'] ['9','3','6','1','.','9','6'] ['0','.','2','1'] 16 ['1','d'],
  .full ['B','i'] ['2','0','9'] ['L','3','M','1'] [' ','9','4','2','0','.','7',' ',' ',' ',' ',' ',' ',' ',' ','1','.','9'] ['9','4','2','0','.','4','3'] ['0','.','7','4'] 16 ['1','d'],
  .full ['T','m'] [] ['L','2','N','4'] [' ','9','4','2','3','.','9',' ',' ',' ',' ',' ',' ',' ',' ','1','.','3'] ['9','4','2','6','.','2'] ['2','.','1'] 17 ['1','d'],
  .full ['P','t'] [] ['L','3','M','5'] [' ','9','4','4','2','.','3',' ',' ',' ',' ',' ',' ',' ',' ','1','.','3'] ['9','4','4','2','.','3','9'] ['0','.','3','2'] 16 ['1','d'],
  .full ['T','a'] [] ['L','1','M','3'] [' ','9','4','8','7','.','1',' ',' ',' ',' ',' ',' ',' ',' ','2','.','8'] ['9','4','8','7','.','6','2'] ['0','.','3','2'] 16 ['1','d'],
  .full ['H','f'] [] ['L','3','N','7'] [' ','9','5','4','3','.','4','6',' ',' ',' ',' ',' ',' ',' ','0','.','6','9'] ['9','5','2','5','.','0','1'] ['0','.','9','7'] 9 ['L','3','N','6',',','7',' ','1','d'],
  .full ['Z','n'] [] ['K','M','2'] [' ','9','5','7','0','.','8',' ',' ',' ',' ',' ',' ',' ',' ','1','.','2'] ['9','5','7','2','.','0','3'] ['0','.','2','2'] 9 ['K','M','2',',','3',' ',' ','1','d']]

/-- the lines of nist_xray_data.dat L440-499 with a measured energy -/
def main7T : List (XLine ℚ) := [⟨['H','o'], ['L','3','N','5'], 7911.35, 0.25⟩,
  ⟨['E','r'], ['L','1','M','3'], 7939.007, 0.086⟩,
  ⟨['C','u'], ['K','L','2'], 8027.8416, 0.0026⟩,
  ⟨['I','r'], ['L','3','M','1'], 8045.89, 0.23⟩,
  ⟨['C','u'], ['K','L','3'], 8047.8227, 0.0026⟩,
  ⟨['T','a'], ['L','3','M','4'], 8087.93, 0.16⟩,
  ⟨['T','b'], ['L','2','N','4'], 8101.8, 1.6⟩,
  ⟨['T','m'], ['L','2','M','4'], 8102.265, 0.037⟩,
  ⟨['T','a'], ['L','3','M','5'], 8146.17, 0.16⟩,
  ⟨['E','r'], ['L','3','N','5'], 8189.11, 0.72⟩,
  ⟨['T','m'], ['L','1','M','3'], 8230.9, 1.6⟩,
  ⟨['N','i'], ['K','M','2'], 8264.775, 0.017⟩,
  ⟨['N','i'], ['K','M','3'], 8264.775, 0.017⟩,
  ⟨['P','t'], ['L','3','M','1'], 8268.2, 1.6⟩,
  ⟨['N','i'], ['K','M','5'], 8328.68, 0.33⟩,
  ⟨['W'], ['L','3','M','4'], 8335.34, 0.17⟩,
  ⟨['W'], ['L','3','M','5'], 8398.242, 0.054⟩,
  ⟨['Y','b'], ['L','2','M','4'], 8401.88, 0.42⟩,
  ⟨['D','y'], ['L','2','N','4'], 8418.94, 0.59⟩,
  ⟨['T','m'], ['L','3','N','5'], 8468.7, 1.7⟩,
  ⟨['A','u'], ['L','3','M','1'], 8494.03, 0.78⟩,
  ⟨['Y','b'], ['L','1','M','3'], 8536.79, 0.43⟩,
  ⟨['R','e'], ['L','3','M','4'], 8586.27, 0.44⟩,
  ⟨['Z','n'], ['K','L','2'], 8615.823, 0.073⟩,
  ⟨['Z','n'], ['K','L','3'], 8638.906, 0.073⟩,
  ⟨['R','e'], ['L','3','M','5'], 8652.55, 0.36⟩,
  ⟨['L','u'], ['L','2','M','4'], 8709.13, 0.27⟩,
  ⟨['H','g'], ['L','3','M','1'], 8721.32, 0.91⟩,
  ⟨['H','o'], ['L','2','N','4'], 8747.2, 1.8⟩,
  ⟨['Y','b'], ['L','3','N','5'], 8758.91, 0.46⟩,
  ⟨['O','s'], ['L','3','M','4'], 8841.10, 0.47⟩,
  ⟨['L','u'], ['L','1','M','3'], 8847.03, 0.47⟩,
  ⟨['C','u'], ['K','M','2'], 8905.413, 0.038⟩,
  ⟨['C','u'], ['K','M','3'], 8905.413, 0.038⟩,
  ⟨['O','s'], ['L','3','M','5'], 8911.83, 0.47⟩,
  ⟨['T','l'], ['L','3','M','1'], 8953.28, 0.29⟩,
  ⟨['C','u'], ['K','M','5'], 8977.14, 0.29⟩,
  ⟨['H','f'], ['L','2','M','4'], 9022.80, 0.49⟩,
  ⟨['L','u'], ['L','3','N','5'], 9049.01, 0.29⟩,
  ⟨['E','r'], ['L','2','N','4'], 9088.9, 2.0⟩,
  ⟨['I','r'], ['L','3','M','4'], 9099.62, 0.49⟩,
  ⟨['H','f'], ['L','1','M','3'], 9163.51, 0.50⟩,
  ⟨['I','r'], ['L','3','M','5'], 9175.18, 0.30⟩,
  ⟨['P','b'], ['L','3','M','1'], 9184.56, 0.70⟩,
  ⟨['G','a'], ['K','L','2'], 9224.835, 0.027⟩,
  ⟨['G','a'], ['K','L','3'], 9251.674, 0.066⟩,
  ⟨['T','a'], ['L','2','M','4'], 9343.19, 0.31⟩,
  ⟨['H','f'], ['L','3','N','5'], 9347.35, 0.52⟩,
  ⟨['P','t'], ['L','3','M','4'], 9361.96, 0.21⟩,
  ⟨['B','i'], ['L','3','M','1'], 9420.43, 0.74⟩,
  ⟨['T','m'], ['L','2','N','4'], 9426.2, 2.1⟩,
  ⟨['P','t'], ['L','3','M','5'], 9442.39, 0.32⟩,
  ⟨['T','a'], ['L','1','M','3'], 9487.62, 0.32⟩,
  ⟨['H','f'], ['L','3','N','7'], 9525.01, 0.97⟩,
  ⟨['Z','n'], ['K','M','2'], 9572.03, 0.22⟩]

/-- nist_xray_data.dat L500-559 -/
def main8 : List Row := [.full ['Z','n'] [] ['K','M','3'] [' ','9','5','7','3','.','6',' ',' ',' ',' ',' ',' ',' ',' ','1','.','2'] ['9','5','7','2','.','0','3'] ['0','.','2','2'] 9 ['K','M','2',',','3',' ',' ','1','d'],
  .full ['A','u'] [] ['L','3','M','4'] [' ','9','6','2','8','.','1',' ',' ',' ',' ',' ',' ',' ',' ','1','.','3'] ['9','6','2','8','.','0','5'] ['0','.','3','3'] 16 ['1','d'],
  .full ['Z','n'] [] ['K','M','5'] [' ','9','6','5','1','.','3','1',' ',' ',' ',' ',' ',' ',' ','0','.','5','9'] ['9','6','4','9','.','9'] ['1','.','1'] 10 ['K','M','4',',','5',' ',' ','1','d'],
  .full ['P','o'] ['2','0','9'] ['L','3','M','1'] [' ','9','6','5','7','.','6',' ',' ',' ',' ',' ',' ',' ',' ','2','.','0'] ['9','6','6','4','.','2'] ['5','.','6'] 17 ['1','d'],
  .full ['T','a'] [] ['L','3','N','5'] [' ','9','6','6','8','.','7','8',' ',' ',' ',' ',' ',' ',' ','0','.','5','6'] ['9','6','5','1','.','8','9'] ['0','.','2','2'] 16 ['1','d'],
  .full ['W'] [] ['L','2','M','4'] [' ','9','6','7','2','.','1',' ',' ',' ',' ',' ',' ',' ',' ','1','.','3'] ['9','6','7','2','.','5','7','5'] ['0','.','1','0','0'] 15 ['1',',','5','8','d'],
  .full ['A','u'] [] ['L','3','M','5'] [' ','9','7','1','3','.','3',' ',' ',' ',' ',' ',' ',' ',' ','1','.','2'] ['9','7','1','3','.','4','4'] ['0','.','3','4'] 16 ['1','d'],
  .full ['Y','b'] [] ['L','2','N','4'] [' ','9','7','7','8','.','2',' ',' ',' ',' ',' ',' ',' ',' ','1','.','0'] ['9','7','8','0','.','1','8'] ['0','.','5','7'] 16 ['1','d'],
  .full ['W'] [] ['L','1','M','3'] [' ','9','8','1','9','.','5',' ',' ',' ',' ',' ',' ',' ',' ','2','.','9'] ['9','8','1','8','.','9','1'] ['0','.','4','6'] 16 ['1',',','5','8','d'],
  .full ['G','e'] [] ['K','L','2'] [' ','9','8','5','5','.','6','7',' ',' ',' ',' ',' ',' ',' ','0','.','5','1'] ['9','8','5','5','.','4','2'] ['0','.','1','0'] 16 ['1','d'],
  .full ['T','a'] [] ['L','3','N','7'] [' ','9','8','7','1','.','5','2',' ',' ',' ',' ',' ',' ',' ','0','.','7','0'] ['9','8','5','7','.','2','3'] ['0','.','4','6'] 9 ['L','3','N','6',',','7',' ','1','d'],
  .full ['G','e'] [] ['K','L','3'] [' ','9','8','8','6','.','6','7',' ',' ',' ',' ',' ',' ',' ','0','.','4','6'] ['9','8','8','6','.','5','2'] ['0','.','1','1'] 16 ['1','d'],
  .short ['A','t'] ['2','1','0'] ['L','3','M','1'] [' ','9','8','9','6','.','4',' ',' ',' ',' ',' ',' ',' ',' ','2','.','0'],
  .full ['H','g'] [] ['L','3','M','4'] [' ','9','8','9','8','.','1',' ',' ',' ',' ',' ',' ',' ',' ','1','.','3'] ['9','8','9','7','.','6','8'] ['0','.','8','2'] 16 ['1','d'],
  .full ['W'] [] ['L','3','N','5'] [' ','9','9','6','2','.','9','9',' ',' ',' ',' ',' ',' ',' ','0','.','5','6'] ['9','9','6','4','.','1','3','3'] ['0','.','0','7','8'] 15 ['1',',','5','8','d'],
  .full ['H','g'] [] ['L','3','M','5'] [' ','9','9','8','8','.','6',' ',' ',' ',' ',' ',' ',' ',' ','1','.','2'] ['9','9','8','8','.','9','1'] ['0','.','6','0'] 16 ['1','d'],
  .full ['R','e'] [] ['L','2','M','4'] [' ','1','0','0','0','9','.','0',' ',' ',' ',' ',' ',' ',' ','1','.','4'] ['1','0','0','1','0','.','0','4'] ['0','.','2','4'] 16 ['1','d'],
  .short ['R','n'] ['2','2','2'] ['L','3','M','1'] [' ','1','0','1','3','7','.','2',' ',' ',' ',' ',' ',' ',' ','2','.','0'],
  .full ['L','u'] [] ['L','2','N','4'] [' ','1','0','1','4','1','.','2',' ',' ',' ',' ',' ',' ',' ','1','.','5'] ['1','0','1','4','3','.','5','3'] ['0','.','4','9'] 16 ['1','d'],
  .full ['R','e'] [] ['L','1','M','3'] [' ','1','0','1','6','0','.','4',' ',' ',' ',' ',' ',' ',' ','2','.','9'] ['1','0','1','5','9','.','9','0'] ['0','.','6','2'] 16 ['1','d'],
  .full ['T','l'] [] ['L','3','M','4'] [' ','1','0','1','7','1','.','8',' ',' ',' ',' ',' ',' ',' ','1','.','3'] ['1','0','1','7','2','.','9','1'] ['0','.','3','7'] 16 ['1','d'],
  .full ['W'] [] ['L','3','N','7'] [' ','1','0','1','7','3','.','1','8',' ',' ',' ',' ',' ',' ','0','.','6','8'] ['1','0','1','7','3','.','4','9'] ['0','.','6','2'] 9 ['L','3','N','6',',','7',' ','1','d'],
  .full ['G','a'] [] ['K','M','2'] [' ','1','0','2','6','1','.','8',' ',' ',' ',' ',' ',' ',' ','1','.','1'] ['1','0','2','6','0','.','2','8'] ['0','.','6','4'] 16 ['1',',','3','d'],
  .full ['G','a'] [] ['K','M','3'] [' ','1','0','2','6','5','.','8',' ',' ',' ',' ',' ',' ',' ','1','.','2'] ['1','0','2','6','4','.','1','9'] ['0','.','2','9'] 16 ['1',',','3','d'],
  .full ['T','l'] [] ['L','3','M','5'] [' ','1','0','2','6','7','.','9',' ',' ',' ',' ',' ',' ',' ','1','.','2'] ['1','0','2','6','8','.','6','2'] ['0','.','5','0'] 16 ['1','d'],
  .full ['R','e'] [] ['L','3','N','5'] [' ','1','0','2','7','6','.','4','6',' ',' ',' ',' ',' ',' ','0','.','5','7'] ['1','0','2','7','5','.','3','5'] ['0','.','5','0'] 16 ['1','d'],
  .full ['G','a'] [] ['K','M','5'] [' ','1','0','3','5','0','.','4','9',' ',' ',' ',' ',' ',' ','0','.','6','1'] ['1','0','3','4','8','.','2'] ['2','.','6'] 10 ['K','M','4',',','5',' ',' ','1','d'],
  .full ['O','s'] [] ['L','2','M','4'] [' ','1','0','3','5','4','.','3',' ',' ',' ',' ',' ',' ',' ','1','.','4'] ['1','0','3','5','5','.','4','2'] ['0','.','6','4'] 16 ['1','d'],
  .short ['F','r'] ['2','2','3'] ['L','3','M','1'] [' ','1','0','3','7','9','.','8',' ',' ',' ',' ',' ',' ',' ','2','.','0'],
  .full ['P','b'] [] ['L','3','M','4'] [' ','1','0','4','4','9','.','5',' ',' ',' ',' ',' ',' ',' ','1','.','3'] ['1','0','4','4','9','.','5','9'] ['0','.','6','5'] 16 ['1','d'],
  .full ['R','e'] [] ['L','3','N','7'] [' ','1','0','4','9','4','.','9',' ',' ',' ',' ',' ',' ',' ','1','.','3'] ['1','0','4','9','3','.','6'] ['1','.','3'] 10 ['L','3','N','6',',','7',' ','1','d'],
  .full ['A','s'] [] ['K','L','2'] [' ','1','0','5','0','7','.','8','4',' ',' ',' ',' ',' ',' ','0','.','5','1'] ['1','0','5','0','7','.','5','0'] ['0','.','1','5'] 16 ['3','d'],
  .full ['O','s'] [] ['L','1','M','3'] [' ','1','0','5','0','9','.','7',' ',' ',' ',' ',' ',' ',' ','3','.','0'] ['1','0','5','1','0','.','9','9'] ['0','.','9','2'] 16 ['1','d'],
  .full ['H','f'] [] ['L','2','N','4'] [' ','1','0','5','1','2','.','9',' ',' ',' ',' ',' ',' ',' ','1','.','6'] ['1','0','5','1','5','.','8','9'] ['0','.','6','6'] 16 ['1','d'],
  .full ['A','s'] [] ['K','L','3'] [' ','1','0','5','4','3','.','4','8',' ',' ',' ',' ',' ',' ','0','.','4','7'] ['1','0','5','4','3','.','2','6','7','4'] ['0','.','0','0','8','1'] 14 ['3','d'],
  .full ['P','b'] [] ['L','3','M','5'] [' ','1','0','5','5','1','.','2',' ',' ',' ',' ',' ',' ',' ','1','.','2'] ['1','0','5','5','1','.','6','0'] ['0','.','2','7'] 16 ['1','d'],
  .full ['O','s'] [] ['L','3','N','5'] [' ','1','0','5','9','6','.','0','8',' ',' ',' ',' ',' ',' ','0','.','5','6'] ['1','0','5','9','8','.','7'] ['1','.','1'] 17 ['1','d'],
  .full ['R','a'] ['2','2','6'] ['L','3','M','1'] [' ','1','0','6','2','4','.','1',' ',' ',' ',' ',' ',' ',' ','2','.','1'] ['1','0','6','2','2','.','2','9'] ['0','.','6','7'] 16 ['1','d'],
  .full ['I','r'] [] ['L','2','M','4'] [' ','1','0','7','0','8','.','0',' ',' ',' ',' ',' ',' ',' ','1','.','4'] ['1','0','7','0','8','.','3','5'] ['0','.','4','1'] 16 ['1','d'],
  .full ['B','i'] ['2','0','9'] ['L','3','M','4'] [' ','1','0','7','3','0','.','8',' ',' ',' ',' ',' ',' ',' ','1','.','3'] ['1','0','7','3','1','.','0','6'] ['0','.','1','4'] 16 ['1','d'],
  .full ['O','s'] [] ['L','3','N','7'] [' ','1','0','8','2','2','.','4',' ',' ',' ',' ',' ',' ',' ','1','.','3'] ['1','0','8','2','4','.','6','5'] ['0','.','9','8'] 9 ['L','3','N','6',',','7',' ','1','d'],
  .full ['B','i'] ['2','0','9'] ['L','3','M','5'] [' ','1','0','8','3','8','.','7',' ',' ',' ',' ',' ',' ',' ','1','.','2'] ['1','0','8','3','8','.','9','4'] ['0','.','2','8'] 16 ['1','d'],
  .full ['I','r'] [] ['L','1','M','3'] [' ','1','0','8','6','7','.','5',' ',' ',' ',' ',' ',' ',' ','3','.','0'] ['1','0','8','6','7','.','5','4'] ['0','.','4','2'] 16 ['1','d'],
  .short ['A','c'] ['2','2','7'] ['L','3','M','1'] [' ','1','0','8','7','0','.','1',' ',' ',' ',' ',' ',' ',' ','2','.','1'],
  .full ['I','r'] [] ['L','3','N','5'] [' ','1','0','9','1','5','.','9','1',' ',' ',' ',' ',' ',' ','0','.','6','9'] ['1','0','9','2','0','.','4','7'] ['0','.','4','3'] 16 ['1','d'],
  .full ['T','a'] [] ['L','2','N','4'] [' ','1','0','9','6','3','.','4',' ',' ',' ',' ',' ',' ',' ','1','.','7'] ['1','0','8','9','5','.','3','3'] ['0','.','4','3'] 16 ['1','d'],
  .full ['G','e'] [] ['K','M','2'] [' ','1','0','9','7','9','.','4',' ',' ',' ',' ',' ',' ',' ','1','.','3'] ['1','0','9','7','8','.','1'] ['1','.','3'] 17 ['1','d'],
  .full ['G','e'] [] ['K','M','3'] [' ','1','0','9','8','4','.','0',' ',' ',' ',' ',' ',' ',' ','1','.','3'] ['1','0','9','8','2','.','1','9'] ['0','.','2','9'] 16 ['1','d'],
  .full ['P','o'] ['2','0','9'] ['L','3','M','4'] [' ','1','1','0','1','6','.','1',' ',' ',' ',' ',' ',' ',' ','1','.','3'] ['1','1','0','1','5','.','9','5'] ['0','.','7','2'] 16 ['1','d'],
  .full ['P','t'] [] ['L','2','M','4'] [' ','1','1','0','7','0','.','5',' ',' ',' ',' ',' ',' ',' ','1','.','4'] ['1','1','0','7','0','.','8','4'] ['0','.','2','9'] 16 ['1','d'],
  .full ['G','e'] [] ['K','M','5'] [' ','1','1','0','7','5','.','3','3',' ',' ',' ',' ',' ',' ','0','.','6','3'] ['1','1','0','7','4','.','8'] ['1','.','5'] 10 ['K','M','4',',','5',' ',' ','1','d'],
  .full ['T','h'] ['2','3','2'] ['L','3','M','1'] [' ','1','1','1','1','7','.','7',' ',' ',' ',' ',' ',' ',' ','2','.','1'] ['1','1','1','1','8','.','0','6'] ['0','.','1','8'] 16 ['7','5','d'],
  .full ['P','o'] ['2','0','9'] ['L','3','M','5'] [' ','1','1','1','3','0','.','3',' ',' ',' ',' ',' ',' ',' ','1','.','2'] ['1','1','1','3','0','.','8','7'] ['0','.','5','9'] 16 ['1','d'],
  .full ['I','r'] [] ['L','3','N','7'] [' ','1','1','1','5','0','.','1',' ',' ',' ',' ',' ',' ',' ','1','.','4'] ['1','1','1','5','5','.','0','1'] ['0','.','5','9'] 9 ['L','3','N','6',',','7',' ','1','d'],
  .full ['S','e'] [] ['K','L','2'] [' ','1','1','1','8','1','.','8','2',' ',' ',' ',' ',' ',' ','0','.','5','2'] ['1','1','1','8','1','.','5','3'] ['0','.','3','1'] 16 ['3','d'],
  .full ['S','e'] [] ['K','L','3'] [' ','1','1','2','2','2','.','5','5',' ',' ',' ',' ',' ',' ','0','.','4','8'] ['1','1','2','2','2','.','5','2'] ['0','.','1','2'] 16 ['3','d'],
  .full ['P','t'] [] ['L','1','M','3'] [' ','1','1','2','3','4','.','4',' ',' ',' ',' ',' ',' ',' ','3','.','0'] ['1','1','2','3','0','.','8','9'] ['0','.','7','5'] 16 ['1','d'],
  .full ['P','t'] [] ['L','3','N','5'] [' ','1','1','2','5','0','.','7','7',' ',' ',' ',' ',' ',' ','0','.','6','4'] ['1','1','2','5','0','.','6','6'] ['0','.','4','5'] 16 ['1','d'],
  .full ['W'] [] ['L','2','N','4'] [' ','1','1','2','8','5','.','4',' ',' ',' ',' ',' ',' ',' ','2','.','1'] ['1','1','2','8','6','.','0','0'] ['0','.','4','6'] 16 ['1','d'],
  .full ['A','t'] ['2','1','0'] ['L','3','M','4'] [' ','1','1','3','0','5','.','2',' ',' ',' ',' ',' ',' ',' ','1','.','3'] ['1','1','3','0','4','.','9','3'] ['0','.','7','6'] 16 ['1','d']]

/-- the lines of nist_xray_data.dat L500-559 with a measured energy -/
def main8T : List (XLine ℚ) := [⟨['Z','n'], ['K','M','3'], 9572.03, 0.22⟩,
  ⟨['A','u'], ['L','3','M','4'], 9628.05, 0.33⟩,
  ⟨['Z','n'], ['K','M','5'], 9649.9, 1.1⟩,
  ⟨['P','o'], ['L','3','M','1'], 9664.2, 5.6⟩,
  ⟨['T','a'], ['L','3','N','5'], 9651.89, 0.22⟩,
  ⟨['W'], ['L','2','M','4'], 9672.575, 0.100⟩,
  ⟨['A','u'], ['L','3','M','5'], 9713.44, 0.34⟩,
  ⟨['Y','b'], ['L','2','N','4'], 9780.18, 0.57⟩,
  ⟨['W'], ['L','1','M','3'], 9818.91, 0.46⟩,
  ⟨['G','e'], ['K','L','2'], 9855.42, 0.10⟩,
  ⟨['T','a'], ['L','3','N','7'], 9857.23, 0.46⟩,
  ⟨['G','e'], ['K','L','3'], 9886.52, 0.11⟩,
  ⟨['H','g'], ['L','3','M','4'], 9897.68, 0.82⟩,
  ⟨['W'], ['L','3','N','5'], 9964.133, 0.078⟩,
  ⟨['H','g'], ['L','3','M','5'], 9988.91, 0.60⟩,
  ⟨['R','e'], ['L','2','M','4'], 10010.04, 0.24⟩,
  ⟨['L','u'], ['L','2','N','4'], 10143.53, 0.49⟩,
  ⟨['R','e'], ['L','1','M','3'], 10159.90, 0.62⟩,
  ⟨['T','l'], ['L','3','M','4'], 10172.91, 0.37⟩,
  ⟨['W'], ['L','3','N','7'], 10173.49, 0.62⟩,
  ⟨['G','a'], ['K','M','2'], 10260.28, 0.64⟩,
  ⟨['G','a'], ['K','M','3'], 10264.19, 0.29⟩,
  ⟨['T','l'], ['L','3','M','5'], 10268.62, 0.50⟩,
  ⟨['R','e'], ['L','3','N','5'], 10275.35, 0.50⟩,
  ⟨['G','a'], ['K','M','5'], 10348.2, 2.6⟩,
  ⟨['O','s'], ['L','2','M','4'], 10355.42, 0.64⟩,
  ⟨['P','b'], ['L','3','M','4'], 10449.59, 0.65⟩,
  ⟨['R','e'], ['L','3','N','7'], 10493.6, 1.3⟩,
  ⟨['A','s'], ['K','L','2'], 10507.50, 0.15⟩,
  ⟨['O','s'], ['L','1','M','3'], 10510.99, 0.92⟩,
  ⟨['H','f'], ['L','2','N','4'], 10515.89, 0.66⟩,
  ⟨['A','s'], ['K','L','3'], 10543.2674, 0.0081⟩,
  ⟨['P','b'], ['L','3','M','5'], 10551.60, 0.27⟩,
  ⟨['O','s'], ['L','3','N','5'], 10598.7, 1.1⟩,
  ⟨['R','a'], ['L','3','M','1'], 10622.29, 0.67⟩,
  ⟨['I','r'], ['L','2','M','4'], 10708.35, 0.41⟩,
  ⟨['B','i'], ['L','3','M','4'], 10731.06, 0.14⟩,
  ⟨['O','s'], ['L','3','N','7'], 10824.65, 0.98⟩,
  ⟨['B','i'], ['L','3','M','5'], 10838.94, 0.28⟩,
  ⟨['I','r'], ['L','1','M','3'], 10867.54, 0.42⟩,
  ⟨['I','r'], ['L','3','N','5'], 10920.47, 0.43⟩,
  ⟨['T','a'], ['L','2','N','4'], 10895.33, 0.43⟩,
  ⟨['G','e'], ['K','M','2'], 10978.1, 1.3⟩,
  ⟨['G','e'], ['K','M','3'], 10982.19, 0.29⟩,
  ⟨['P','o'], ['L','3','M','4'], 11015.95, 0.72⟩,
  ⟨['P','t'], ['L','2','M','4'], 11070.84, 0.29⟩,
  ⟨['G','e'], ['K','M','5'], 11074.8, 1.5⟩,
  ⟨['T','h'], ['L','3','M','1'], 11118.06, 0.18⟩,
  ⟨['P','o'], ['L','3','M','5'], 11130.87, 0.59⟩,
  ⟨['I','r'], ['L','3','N','7'], 11155.01, 0.59⟩,
  ⟨['S','e'], ['K','L','2'], 11181.53, 0.31⟩,
  ⟨['S','e'], ['K','L','3'], 11222.52, 0.12⟩,
  ⟨['P','t'], ['L','1','M','3'], 11230.89, 0.75⟩,
  ⟨['P','t'], ['L','3','N','5'], 11250.66, 0.45⟩,
  ⟨['W'], ['L','2','N','4'], 11286.00, 0.46⟩,
  ⟨['A','t'], ['L','3','M','4'], 11304.93, 0.76⟩]

/-- nist_xray_data.dat L560-619 -/
def main9 : List Row := [.full ['P','a'] ['2','3','1'] ['L','3','M','1'] [' ','1','1','3','6','7','.','6',' ',' ',' ',' ',' ',' ',' ','2','.','1'] ['1','1','3','6','6','.','2'] ['1','.','5'] 17 ['1','d'],
  .full ['A','t'] ['2','1','0'] ['L','3','M','5'] [' ','1','1','4','2','6','.','0',' ',' ',' ',' ',' ',' ',' ','1','.','3'] ['1','1','4','2','6','.','9','4'] ['0','.','7','8'] 16 ['1','d'],
  .full ['A','u'] [] ['L','2','M','4'] [' ','1','1','4','4','2','.','0',' ',' ',' ',' ',' ',' ',' ','1','.','4'] ['1','1','4','4','2','.','4','5'] ['0','.','4','7'] 16 ['1','d'],
  .full ['P','t'] [] ['L','3','N','7'] [' ','1','1','4','9','2','.','9',' ',' ',' ',' ',' ',' ',' ','1','.','3'] ['1','1','4','9','0','.','9','1'] ['0','.','7','9'] 9 ['L','3','N','6',',','7',' ','1','d'],
  .full ['A','u'] [] ['L','3','N','5'] [' ','1','1','5','8','2','.','1','2',' ',' ',' ',' ',' ',' ','0','.','5','7'] ['1','1','5','8','4','.','7','5'] ['0','.','4','8'] 16 ['1','d'],
  .full ['R','n'] ['2','2','2'] ['L','3','M','4'] [' ','1','1','5','9','8','.','1',' ',' ',' ',' ',' ',' ',' ','1','.','3'] ['1','1','5','9','8','.','0','8'] ['0','.','8','0'] 16 ['1','d'],
  .full ['A','u'] [] ['L','1','M','3'] [' ','1','1','6','1','0','.','5',' ',' ',' ',' ',' ',' ',' ','3','.','2'] ['1','1','6','1','0','.','5'] ['1','.','4'] 17 ['1','d'],
  .short ['U'] ['2','3','3'] ['L','3','M','1'] [' ','1','1','6','1','8','.','4',' ',' ',' ',' ',' ',' ',' ','2','.','1'],
  .full ['U'] ['2','3','8'] ['L','3','M','1'] [' ','1','1','6','1','8','.','5',' ',' ',' ',' ',' ',' ',' ','2','.','1'] ['1','1','6','1','8','.','4','1'] ['0','.','3','2'] 16 ['1','d'],
  .full ['R','e'] [] ['L','2','N','4'] [' ','1','1','6','8','3','.','8',' ',' ',' ',' ',' ',' ',' ','2','.','1'] ['1','1','6','8','5','.','5','3'] ['0','.','8','2'] 16 ['1','d'],
  .full ['A','s'] [] ['K','M','2'] [' ','1','1','7','2','1','.','6',' ',' ',' ',' ',' ',' ',' ','1','.','2'] ['1','1','7','1','9','.','8','6'] ['0','.','8','4'] 16 ['1',',','3','d'],
  .full ['R','n'] ['2','2','2'] ['L','3','M','5'] [' ','1','1','7','2','5','.','9',' ',' ',' ',' ',' ',' ',' ','1','.','2'] ['1','1','7','2','7','.','0','9'] ['0','.','8','2'] 16 ['1','d'],
  .full ['A','s'] [] ['K','M','3'] [' ','1','1','7','2','7','.','1',' ',' ',' ',' ',' ',' ',' ','1','.','2'] ['1','1','7','2','5','.','7','3'] ['0','.','3','7'] 16 ['1',',','3','d'],
  .full ['H','g'] [] ['L','2','M','4'] [' ','1','1','8','2','2','.','7',' ',' ',' ',' ',' ',' ',' ','1','.','4'] ['1','1','8','2','2','.','7','0'] ['0','.','8','3'] 16 ['1','d'],
  .full ['A','s'] [] ['K','M','5'] [' ','1','1','8','2','5','.','8','9',' ',' ',' ',' ',' ',' ','0','.','6','5'] ['1','1','8','2','1','.','4'] ['1','.','7'] 10 ['K','M','4',',','5',' ',' ','1','d'],
  .full ['A','u'] [] ['L','3','N','7'] [' ','1','1','8','3','2','.','3',' ',' ',' ',' ',' ',' ',' ','1','.','4'] ['1','1','8','3','5','.','8','0'] ['0','.','8','4'] 9 ['L','3','N','6',',','7',' ','1','d'],
  .full ['N','p'] ['2','3','7'] ['L','3','M','1'] [' ','1','1','8','7','0','.','8',' ',' ',' ',' ',' ',' ',' ','2','.','1'] ['1','1','8','8','5','.','6'] ['9','.','1'] 17 ['1',',','6','4','d'],
  .full ['B','r'] [] ['K','L','2'] [' ','1','1','8','7','7','.','6','9',' ',' ',' ',' ',' ',' ','0','.','5','3'] ['1','1','8','7','7','.','7','5'] ['0','.','3','4'] 16 ['1','d'],
  .full ['F','r'] ['2','2','3'] ['L','3','M','4'] [' ','1','1','8','9','5','.','0',' ',' ',' ',' ',' ',' ',' ','1','.','3'] ['1','1','8','9','5','.','0','7'] ['0','.','8','4'] 16 ['1','d'],
  .full ['B','r'] [] ['K','L','3'] [' ','1','1','9','2','4','.','0','2',' ',' ',' ',' ',' ',' ','0','.','4','8'] ['1','1','9','2','4','.','3','6'] ['0','.','3','4'] 16 ['1','d'],
  .full ['H','g'] [] ['L','3','N','5'] [' ','1','1','9','2','6','.','3','3',' ',' ',' ',' ',' ',' ','0','.','5','8'] ['1','1','9','2','4','.','2'] ['1','.','2'] 17 ['1','d'],
  .full ['H','g'] [] ['L','1','M','3'] [' ','1','1','9','9','5','.','6',' ',' ',' ',' ',' ',' ',' ','3','.','1'] ['1','1','9','9','5','.','4'] ['1','.','2'] 17 ['1','d'],
  .full ['F','r'] ['2','2','3'] ['L','3','M','5'] [' ','1','2','0','2','9','.','9',' ',' ',' ',' ',' ',' ',' ','1','.','3'] ['1','2','0','3','1','.','4','0'] ['0','.','8','6'] 16 ['1','d'],
  .full ['O','s'] [] ['L','2','N','4'] [' ','1','2','0','9','3','.','3',' ',' ',' ',' ',' ',' ',' ','2','.','2'] ['1','2','0','9','5','.','4','8'] ['0','.','8','7'] 16 ['1','d'],
  .full ['P','u'] ['2','3','9'] ['L','3','M','1'] [' ','1','2','1','2','4','.','6',' ',' ',' ',' ',' ',' ',' ','2','.','1'] ['1','2','1','2','4','.','2'] ['1','.','8'] 17 ['1','d'],
  .short ['P','u'] ['2','4','4'] ['L','3','M','1'] [' ','1','2','1','2','4','.','7',' ',' ',' ',' ',' ',' ',' ','2','.','1'],
  .full ['H','g'] [] ['L','3','N','7'] [' ','1','2','1','8','4','.','7',' ',' ',' ',' ',' ',' ',' ','1','.','4'] ['1','2','1','9','4','.','1'] ['1','.','2'] 17 ['1','d'],
  .full ['R','a'] ['2','2','6'] ['L','3','M','4'] [' ','1','2','1','9','5','.','7',' ',' ',' ',' ',' ',' ',' ','1','.','3'] ['1','2','1','9','6','.','2','6'] ['0','.','8','9'] 16 ['1','d'],
  .full ['T','l'] [] ['L','2','M','4'] [' ','1','2','2','1','2','.','9',' ',' ',' ',' ',' ',' ',' ','1','.','4'] ['1','2','2','1','3','.','4','4'] ['0','.','7','1'] 16 ['1','d'],
  .full ['T','l'] [] ['L','3','N','5'] [' ','1','2','2','7','2','.','1',' ',' ',' ',' ',' ',' ',' ','2','.','5'] ['1','2','2','7','1','.','7','1'] ['0','.','5','4'] 16 ['1','d'],
  .full ['R','a'] ['2','2','6'] ['L','3','M','5'] [' ','1','2','3','3','8','.','1',' ',' ',' ',' ',' ',' ',' ','1','.','3'] ['1','2','3','3','9','.','8','6'] ['0','.','9','1'] 16 ['1','d'],
  .full ['A','m'] ['2','4','1'] ['L','3','M','1'] [' ','1','2','3','7','9','.','0',' ',' ',' ',' ',' ',' ',' ','2','.','1'] ['1','2','3','7','8','.','2'] ['1','.','4'] 17 ['1',',','6','6','d'],
  .short ['A','m'] ['2','4','3'] ['L','3','M','1'] [' ','1','2','3','7','9','.','0',' ',' ',' ',' ',' ',' ',' ','2','.','1'],
  .full ['T','l'] [] ['L','1','M','3'] [' ','1','2','3','9','0','.','6',' ',' ',' ',' ',' ',' ',' ','3','.','2'] ['1','2','3','9','0','.','5','5'] ['0','.','5','5'] 16 ['1','d'],
  .full ['S','e'] [] ['K','M','2'] [' ','1','2','4','9','0','.','3',' ',' ',' ',' ',' ',' ',' ','1','.','2'] ['1','2','4','8','9','.','7','3'] ['1','.','0','0'] 16 ['1',',','3','d'],
  .full ['S','e'] [] ['K','M','3'] [' ','1','2','4','9','6','.','5',' ',' ',' ',' ',' ',' ',' ','1','.','2'] ['1','2','4','9','6','.','0','3'] ['0','.','6','7'] 16 ['1',',','3','d'],
  .full ['A','c'] ['2','2','7'] ['L','3','M','4'] [' ','1','2','5','0','0','.','2',' ',' ',' ',' ',' ',' ',' ','1','.','3'] ['1','2','5','0','0','.','9','9'] ['0','.','9','3'] 16 ['1','d'],
  .full ['I','r'] [] ['L','2','N','4'] [' ','1','2','5','0','7','.','6',' ',' ',' ',' ',' ',' ',' ','2','.','5'] ['1','2','5','1','2','.','7','2'] ['0','.','5','6'] 16 ['1','d'],
  .full ['T','l'] [] ['L','3','N','7'] [' ','1','2','5','3','8','.','3',' ',' ',' ',' ',' ',' ',' ','1','.','4'] ['1','2','5','3','8','.','7'] ['1','.','9'] 10 ['L','3','N','6',',','7',' ','1','d'],
  .full ['K','r'] [] ['K','L','2'] [' ','1','2','5','9','5','.','5','8',' ',' ',' ',' ',' ',' ','0','.','5','4'] ['1','2','5','9','5','.','4','2','4'] ['0','.','0','5','6'] 15 ['3','d'],
  .full ['S','e'] [] ['K','M','5'] [' ','1','2','6','0','2','.','4','2',' ',' ',' ',' ',' ',' ','0','.','6','7'] ['1','2','5','9','6','.','0'] ['1','.','9'] 10 ['K','M','4',',','5',' ',' ','1','d'],
  .full ['P','b'] [] ['L','2','M','4'] [' ','1','2','6','1','3','.','0',' ',' ',' ',' ',' ',' ',' ','1','.','5'] ['1','2','6','1','3','.','8','0'] ['0','.','5','7'] 16 ['1','d'],
  .full ['P','b'] [] ['L','3','N','5'] [' ','1','2','6','2','3','.','0',' ',' ',' ',' ',' ',' ',' ','2','.','4'] ['1','2','6','2','2','.','8'] ['1','.','3'] 17 ['1','d'],
  .short ['C','m'] ['2','4','5'] ['L','3','M','1'] [' ','1','2','6','3','3','.','8',' ',' ',' ',' ',' ',' ',' ','2','.','1'],
  .short ['C','m'] ['2','4','8'] ['L','3','M','1'] [' ','1','2','6','3','3','.','9',' ',' ',' ',' ',' ',' ',' ','2','.','1'],
  .full ['K','r'] [] ['K','L','3'] [' ','1','2','6','4','8','.','0','0',' ',' ',' ',' ',' ',' ','0','.','4','9'] ['1','2','6','4','8','.','0','0','2'] ['0','.','0','5','2'] 15 ['3','d'],
  .full ['A','c'] ['2','2','7'] ['L','3','M','5'] [' ','1','2','6','5','0','.','5',' ',' ',' ',' ',' ',' ',' ','1','.','3'] ['1','2','6','5','2','.','1','6'] ['0','.','9','6'] 16 ['1','d'],
  .full ['P','b'] [] ['L','1','M','3'] [' ','1','2','7','9','5','.','3',' ',' ',' ',' ',' ',' ',' ','3','.','2'] ['1','2','7','9','3','.','4'] ['1','.','4'] 17 ['1','d'],
  .full ['T','h'] ['2','3','2'] ['L','3','M','4'] [' ','1','2','8','0','8','.','5',' ',' ',' ',' ',' ',' ',' ','1','.','3'] ['1','2','8','0','9','.','4','9','8'] ['0','.','0','3','0'] 15 ['7','5','d'],
  .full ['B','k'] ['2','4','9'] ['L','3','M','1'] [' ','1','2','8','8','9','.','9',' ',' ',' ',' ',' ',' ',' ','2','.','1'] ['1','2','8','9','6'] ['4','3'] 18 ['7','0','d'],
  .short ['B','k'] ['2','5','0'] ['L','3','M','1'] [' ','1','2','8','8','9','.','9',' ',' ',' ',' ',' ',' ',' ','2','.','1'],
  .full ['P','b'] [] ['L','3','N','7'] [' ','1','2','8','9','7','.','5',' ',' ',' ',' ',' ',' ',' ','1','.','5'] ['1','2','8','9','7','.','0'] ['1','.','4'] 10 ['L','3','N','6',',','7',' ','1','d'],
  .full ['P','t'] [] ['L','2','N','4'] [' ','1','2','9','4','2','.','0',' ',' ',' ',' ',' ',' ',' ','2','.','5'] ['1','2','9','4','2','.','1','9'] ['0','.','6','0'] 16 ['1','d'],
  .full ['T','h'] ['2','3','2'] ['L','3','M','5'] [' ','1','2','9','6','7','.','0',' ',' ',' ',' ',' ',' ',' ','1','.','3'] ['1','2','9','6','7','.','9','3','7'] ['0','.','0','2','0'] 15 ['7','5','d'],
  .full ['B','i'] ['2','0','9'] ['L','3','N','5'] [' ','1','2','9','7','9','.','2',' ',' ',' ',' ',' ',' ',' ','2','.','5'] ['1','2','9','8','0','.','0','0'] ['0','.','8','0'] 16 ['1','d'],
  .full ['B','i'] ['2','0','9'] ['L','2','M','4'] [' ','1','3','0','2','2','.','9',' ',' ',' ',' ',' ',' ',' ','1','.','5'] ['1','3','0','2','3','.','6','5'] ['0','.','1','8'] 16 ['1','d'],
  .full ['P','a'] ['2','3','1'] ['L','3','M','4'] [' ','1','3','1','2','1','.','5',' ',' ',' ',' ',' ',' ',' ','1','.','3'] ['1','3','1','2','2','.','3'] ['1','.','0'] 17 ['1','d'],
  .full ['C','f'] ['2','5','1'] ['L','3','M','1'] [' ','1','3','1','5','4','.','1',' ',' ',' ',' ',' ',' ',' ','2','.','1'] ['1','3','1','4','1'] ['1','4'] 18 ['7','2','d'],
  .full ['C','f'] ['2','5','0'] ['L','3','M','1'] [' ','1','3','1','5','4','.','2',' ',' ',' ',' ',' ',' ',' ','2','.','1'] ['1','3','1','4','5'] ['1','4'] 18 ['7','1','d'],
  .short ['C','f'] ['2','4','9'] ['L','3','M','1'] [' ','1','3','1','5','4','.','4',' ',' ',' ',' ',' ',' ',' ','2','.','1']]

/-- the lines of nist_xray_data.dat L560-619 with a measured energy -/
def main9T : List (XLine ℚ) := [⟨['P','a'], ['L','3','M','1'], 11366.2, 1.5⟩,
  ⟨['A','t'], ['L','3','M','5'], 11426.94, 0.78⟩,
  ⟨['A','u'], ['L','2','M','4'], 11442.45, 0.47⟩,
  ⟨['P','t'], ['L','3','N','7'], 11490.91, 0.79⟩,
  ⟨['A','u'], ['L','3','N','5'], 11584.75, 0.48⟩,
  ⟨['R','n'], ['L','3','M','4'], 11598.08, 0.80⟩,
  ⟨['A','u'], ['L','1','M','3'], 11610.5, 1.4⟩,
  ⟨['U'], ['L','3','M','1'], 11618.41, 0.32⟩,
  ⟨['R','e'], ['L','2','N','4'], 11685.53, 0.82⟩,
  ⟨['A','s'], ['K','M','2'], 11719.86, 0.84⟩,
  ⟨['R','n'], ['L','3','M','5'], 11727.09, 0.82⟩,
  ⟨['A','s'], ['K','M','3'], 11725.73, 0.37⟩,
  ⟨['H','g'], ['L','2','M','4'], 11822.70, 0.83⟩,
  ⟨['A','s'], ['K','M','5'], 11821.4, 1.7⟩,
  ⟨['A','u'], ['L','3','N','7'], 11835.80, 0.84⟩,
  ⟨['N','p'], ['L','3','M','1'], 11885.6, 9.1⟩,
  ⟨['B','r'], ['K','L','2'], 11877.75, 0.34⟩,
  ⟨['F','r'], ['L','3','M','4'], 11895.07, 0.84⟩,
  ⟨['B','r'], ['K','L','3'], 11924.36, 0.34⟩,
  ⟨['H','g'], ['L','3','N','5'], 11924.2, 1.2⟩,
  ⟨['H','g'], ['L','1','M','3'], 11995.4, 1.2⟩,
  ⟨['F','r'], ['L','3','M','5'], 12031.40, 0.86⟩,
  ⟨['O','s'], ['L','2','N','4'], 12095.48, 0.87⟩,
  ⟨['P','u'], ['L','3','M','1'], 12124.2, 1.8⟩,
  ⟨['H','g'], ['L','3','N','7'], 12194.1, 1.2⟩,
  ⟨['R','a'], ['L','3','M','4'], 12196.26, 0.89⟩,
  ⟨['T','l'], ['L','2','M','4'], 12213.44, 0.71⟩,
  ⟨['T','l'], ['L','3','N','5'], 12271.71, 0.54⟩,
  ⟨['R','a'], ['L','3','M','5'], 12339.86, 0.91⟩,
  ⟨['A','m'], ['L','3','M','1'], 12378.2, 1.4⟩,
  ⟨['T','l'], ['L','1','M','3'], 12390.55, 0.55⟩,
  ⟨['S','e'], ['K','M','2'], 12489.73, 1.00⟩,
  ⟨['S','e'], ['K','M','3'], 12496.03, 0.67⟩,
  ⟨['A','c'], ['L','3','M','4'], 12500.99, 0.93⟩,
  ⟨['I','r'], ['L','2','N','4'], 12512.72, 0.56⟩,
  ⟨['T','l'], ['L','3','N','7'], 12538.7, 1.9⟩,
  ⟨['K','r'], ['K','L','2'], 12595.424, 0.056⟩,
  ⟨['S','e'], ['K','M','5'], 12596.0, 1.9⟩,
  ⟨['P','b'], ['L','2','M','4'], 12613.80, 0.57⟩,
  ⟨['P','b'], ['L','3','N','5'], 12622.8, 1.3⟩,
  ⟨['K','r'], ['K','L','3'], 12648.002, 0.052⟩,
  ⟨['A','c'], ['L','3','M','5'], 12652.16, 0.96⟩,
  ⟨['P','b'], ['L','1','M','3'], 12793.4, 1.4⟩,
  ⟨['T','h'], ['L','3','M','4'], 12809.498, 0.030⟩,
  ⟨['B','k'], ['L','3','M','1'], 12896, 43⟩,
  ⟨['P','b'], ['L','3','N','7'], 12897.0, 1.4⟩,
  ⟨['P','t'], ['L','2','N','4'], 12942.19, 0.60⟩,
  ⟨['T','h'], ['L','3','M','5'], 12967.937, 0.020⟩,
  ⟨['B','i'], ['L','3','N','5'], 12980.00, 0.80⟩,
  ⟨['B','i'], ['L','2','M','4'], 13023.65, 0.18⟩,
  ⟨['P','a'], ['L','3','M','4'], 13122.3, 1.0⟩,
  ⟨['C','f'], ['L','3','M','1'], 13141, 14⟩,
  ⟨['C','f'], ['L','3','M','1'], 13145, 14⟩]

/-- nist_xray_data.dat L620-679 -/
def main10 : List Row := [.full ['B','i'] ['2','0','9'] ['L','1','M','3'] [' ','1','3','2','1','0','.','4',' ',' ',' ',' ',' ',' ',' ','3','.','2'] ['1','3','2','0','9','.','9','9'] ['0','.','6','2'] 16 ['1','d'],
  .full ['B','i'] ['2','0','9'] ['L','3','N','7'] [' ','1','3','2','6','1','.','5',' ',' ',' ',' ',' ',' ',' ','1','.','5'] ['1','3','2','5','9','.','4'] ['1','.','0'] 10 ['L','3','N','6',',','7',' ','1','d'],
  .full ['B','r'] [] ['K','M','2'] [' ','1','3','2','8','4','.','8',' ',' ',' ',' ',' ',' ',' ','1','.','2'] ['1','3','2','8','4','.','7'] ['1','.','1'] 17 ['1','d'],
  .full ['P','a'] ['2','3','1'] ['L','3','M','5'] [' ','1','3','2','8','8','.','7',' ',' ',' ',' ',' ',' ',' ','1','.','3'] ['1','3','2','9','0','.','8'] ['1','.','1'] 17 ['1','d'],
  .full ['B','r'] [] ['K','M','3'] [' ','1','3','2','9','2','.','1',' ',' ',' ',' ',' ',' ',' ','1','.','2'] ['1','3','2','9','1','.','5','6'] ['0','.','4','2'] 16 ['1','d'],
  .full ['R','b'] [] ['K','L','2'] [' ','1','3','3','3','5','.','7','5',' ',' ',' ',' ',' ',' ','0','.','5','6'] ['1','3','3','3','5','.','8','8'] ['0','.','2','1'] 16 ['1','d'],
  .full ['P','o'] ['2','0','9'] ['L','3','N','5'] [' ','1','3','3','4','1','.','3',' ',' ',' ',' ',' ',' ',' ','2','.','5'] ['1','3','3','4','0','.','5'] ['1','.','1'] 17 ['1','d'],
  .full ['A','u'] [] ['L','2','N','4'] [' ','1','3','3','7','7','.','9',' ',' ',' ',' ',' ',' ',' ','2','.','6'] ['1','3','3','8','1','.','7','9'] ['0','.','6','4'] 16 ['1','d'],
  .full ['R','b'] [] ['K','L','3'] [' ','1','3','3','9','5','.','0','5',' ',' ',' ',' ',' ',' ','0','.','5','1'] ['1','3','3','9','5','.','4','9'] ['0','.','1','9'] 16 ['1','d'],
  .full ['B','r'] [] ['K','M','5'] [' ','1','3','4','0','5','.','0','4',' ',' ',' ',' ',' ',' ','0','.','7','0'] ['1','3','3','9','6','.','3'] ['2','.','1'] 10 ['K','M','4',',','5',' ',' ','1','d'],
  .short ['E','s'] ['2','5','1'] ['L','3','M','1'] [' ','1','3','4','1','1','.','7',' ',' ',' ',' ',' ',' ',' ','2','.','1'],
  .short ['U'] ['2','3','3'] ['L','3','M','4'] [' ','1','3','4','3','8','.','2',' ',' ',' ',' ',' ',' ',' ','1','.','4'],
  .full ['U'] ['2','3','8'] ['L','3','M','4'] [' ','1','3','4','3','8','.','2',' ',' ',' ',' ',' ',' ',' ','1','.','4'] ['1','3','4','3','8','.','9','7'] ['0','.','1','9'] 16 ['1','d'],
  .full ['P','o'] ['2','0','9'] ['L','2','M','4'] [' ','1','3','4','4','3','.','2',' ',' ',' ',' ',' ',' ',' ','1','.','5'] ['1','3','4','4','7','.','1'] ['4','.','3'] 17 ['1','d'],
  .short ['U'] ['2','3','3'] ['L','3','M','5'] [' ','1','3','6','1','4','.','5',' ',' ',' ',' ',' ',' ',' ','1','.','3'],
  .full ['U'] ['2','3','8'] ['L','3','M','5'] [' ','1','3','6','1','4','.','6',' ',' ',' ',' ',' ',' ',' ','1','.','3'] ['1','3','6','1','4','.','8','7'] ['0','.','2','0'] 16 ['1','d'],
  .short ['P','o'] ['2','0','9'] ['L','3','N','7'] [' ','1','3','6','3','1','.','7',' ',' ',' ',' ',' ',' ',' ','1','.','5'],
  .full ['P','o'] ['2','0','9'] ['L','1','M','3'] [' ','1','3','6','3','5','.','8',' ',' ',' ',' ',' ',' ',' ','3','.','3'] ['1','3','6','3','7','.','9'] ['6','.','7'] 17 ['1','d'],
  .full ['F','m'] ['2','5','4'] ['L','3','M','1'] [' ','1','3','6','6','8','.','8',' ',' ',' ',' ',' ',' ',' ','2','.','1'] ['1','3','6','6','8'] ['1','1'] 18 ['7','4','d'],
  .short ['A','t'] ['2','1','0'] ['L','3','N','5'] [' ','1','3','7','0','8','.','4',' ',' ',' ',' ',' ',' ',' ','2','.','6'],
  .full ['N','p'] ['2','3','7'] ['L','3','M','4'] [' ','1','3','7','5','7','.','2',' ',' ',' ',' ',' ',' ',' ','1','.','4'] ['1','3','7','5','9','.','8','4'] ['0','.','2','0'] 16 ['1','d'],
  .full ['H','g'] [] ['L','2','N','4'] [' ','1','3','8','3','1','.','7',' ',' ',' ',' ',' ',' ',' ','2','.','7'] ['1','3','8','3','0','.','2'] ['1','.','1'] 17 ['1','d'],
  .full ['A','t'] ['2','1','0'] ['L','2','M','4'] [' ','1','3','8','7','4','.','1',' ',' ',' ',' ',' ',' ',' ','1','.','5'] ['1','3','8','7','6','.','2'] ['2','.','1'] 17 ['1','d'],
  .full ['N','p'] ['2','3','7'] ['L','3','M','5'] [' ','1','3','9','4','3','.','0',' ',' ',' ',' ',' ',' ',' ','1','.','3'] ['1','3','9','4','4','.','2','6'] ['0','.','2','1'] 16 ['1','d'],
  .short ['A','t'] ['2','1','0'] ['L','3','N','7'] [' ','1','4','0','0','7','.','0',' ',' ',' ',' ',' ',' ',' ','1','.','6'],
  .full ['A','t'] ['2','1','0'] ['L','1','M','3'] [' ','1','4','0','7','2','.','0',' ',' ',' ',' ',' ',' ',' ','3','.','3'] ['1','4','0','6','7','.','3'] ['2','.','1'] 17 ['1','d'],
  .short ['R','n'] ['2','2','2'] ['L','3','N','5'] [' ','1','4','0','8','0','.','3',' ',' ',' ',' ',' ',' ',' ','2','.','4'],
  .full ['P','u'] ['2','3','9'] ['L','3','M','4'] [' ','1','4','0','8','3','.','4',' ',' ',' ',' ',' ',' ',' ','1','.','4'] ['1','4','0','8','4','.','4','2'] ['0','.','4','7'] 16 ['1','d'],
  .short ['P','u'] ['2','4','4'] ['L','3','M','4'] [' ','1','4','0','8','3','.','4',' ',' ',' ',' ',' ',' ',' ','1','.','4'],
  .full ['S','r'] [] ['K','L','2'] [' ','1','4','0','9','8','.','0','1',' ',' ',' ',' ',' ',' ','0','.','5','7'] ['1','4','0','9','8','.','0','3'] ['0','.','2','4'] 16 ['1','d'],
  .full ['K','r'] [] ['K','M','2'] [' ','1','4','1','0','5','.','7',' ',' ',' ',' ',' ',' ',' ','1','.','3'] ['1','4','1','0','4','.','9','6'] ['0','.','1','1'] 16 ['3','d'],
  .full ['K','r'] [] ['K','M','3'] [' ','1','4','1','1','3','.','3',' ',' ',' ',' ',' ',' ',' ','1','.','2'] ['1','4','1','1','2','.','8','1','5'] ['0','.','0','8','0'] 15 ['3','d'],
  .full ['S','r'] [] ['K','L','3'] [' ','1','4','1','6','4','.','8','0',' ',' ',' ',' ',' ',' ','0','.','5','1'] ['1','4','1','6','5','.','2','0'] ['0','.','2','4'] 16 ['1','d'],
  .full ['K','r'] [] ['K','M','5'] [' ','1','4','2','3','3','.','8','8',' ',' ',' ',' ',' ',' ','0','.','7','2'] ['1','4','2','3','7','.','7'] ['4','.','8'] 10 ['K','M','4',',','5',' ',' ','1','d'],
  .full ['P','u'] ['2','3','9'] ['L','3','M','5'] [' ','1','4','2','7','9','.','1',' ',' ',' ',' ',' ',' ',' ','1','.','3'] ['1','4','2','7','8','.','7','4'] ['0','.','4','9'] 16 ['1','d'],
  .short ['P','u'] ['2','4','4'] ['L','3','M','5'] [' ','1','4','2','7','9','.','1',' ',' ',' ',' ',' ',' ',' ','1','.','3'],
  .full ['T','l'] [] ['L','2','N','4'] [' ','1','4','2','9','2','.','7',' ',' ',' ',' ',' ',' ',' ','2','.','8'] ['1','4','2','9','1','.','5','8'] ['0','.','7','3'] 16 ['1','d'],
  .full ['R','n'] ['2','2','2'] ['L','2','M','4'] [' ','1','4','3','1','6','.','0',' ',' ',' ',' ',' ',' ',' ','1','.','5'] ['1','4','3','1','5','.','8'] ['2','.','2'] 17 ['1','d'],
  .short ['R','n'] ['2','2','2'] ['L','3','N','7'] [' ','1','4','3','8','7','.','6',' ',' ',' ',' ',' ',' ',' ','1','.','6'],
  .full ['A','m'] ['2','4','1'] ['L','3','M','4'] [' ','1','4','4','1','1','.','9',' ',' ',' ',' ',' ',' ',' ','1','.','4'] ['1','4','4','1','2','.','0','9'] ['0','.','2','2'] 16 ['1','d'],
  .short ['A','m'] ['2','4','3'] ['L','3','M','4'] [' ','1','4','4','1','1','.','9',' ',' ',' ',' ',' ',' ',' ','1','.','4'],
  .full ['F','r'] ['2','2','3'] ['L','3','N','5'] [' ','1','4','4','5','8','.','6',' ',' ',' ',' ',' ',' ',' ','2','.','6'] ['1','4','4','5','0'] ['5','0'] 18 ['1','d'],
  .full ['R','n'] ['2','2','2'] ['L','1','M','3'] [' ','1','4','5','1','8','.','9',' ',' ',' ',' ',' ',' ',' ','3','.','3'] ['1','4','5','1','1','.','7'] ['2','.','3'] 17 ['1','d'],
  .full ['A','m'] ['2','4','1'] ['L','3','M','5'] [' ','1','4','6','1','7','.','5',' ',' ',' ',' ',' ',' ',' ','1','.','4'] ['1','4','6','1','7','.','3','3'] ['0','.','2','3'] 16 ['1','d'],
  .short ['A','m'] ['2','4','3'] ['L','3','M','5'] [' ','1','4','6','1','7','.','5',' ',' ',' ',' ',' ',' ',' ','1','.','4'],
  .short ['C','m'] ['2','4','5'] ['L','3','M','4'] [' ','1','4','7','4','3','.','9',' ',' ',' ',' ',' ',' ',' ','1','.','4'],
  .short ['C','m'] ['2','4','8'] ['L','3','M','4'] [' ','1','4','7','4','3','.','9',' ',' ',' ',' ',' ',' ',' ','1','.','4'],
  .full ['P','b'] [] ['L','2','N','4'] [' ','1','4','7','6','4','.','4',' ',' ',' ',' ',' ',' ',' ','2','.','7'] ['1','4','7','6','4','.','5','5'] ['0','.','7','8'] 16 ['1','d'],
  .full ['F','r'] ['2','2','3'] ['L','2','M','4'] [' ','1','4','7','6','9','.','1',' ',' ',' ',' ',' ',' ',' ','1','.','5'] ['1','4','7','7','0','.','4'] ['2','.','3'] 17 ['1','d'],
  .short ['F','r'] ['2','2','3'] ['L','3','N','7'] [' ','1','4','7','7','3','.','6',' ',' ',' ',' ',' ',' ',' ','1','.','6'],
  .full ['R','a'] ['2','2','6'] ['L','3','N','5'] [' ','1','4','8','4','2','.','6',' ',' ',' ',' ',' ',' ',' ','2','.','8'] ['1','4','8','4','1','.','6'] ['1','.','3'] 17 ['1','d'],
  .full ['Y'] [] ['K','L','2'] [' ','1','4','8','8','3','.','0','0',' ',' ',' ',' ',' ',' ','0','.','5','8'] ['1','4','8','8','2','.','9','4'] ['0','.','2','6'] 16 ['1','d'],
  .full ['R','b'] [] ['K','M','2'] [' ','1','4','9','5','2','.','7',' ',' ',' ',' ',' ',' ',' ','1','.','3'] ['1','4','9','5','1','.','8','6'] ['0','.','8','0'] 16 ['1','d'],
  .full ['Y'] [] ['K','L','3'] [' ','1','4','9','5','8','.','1','4',' ',' ',' ',' ',' ',' ','0','.','5','3'] ['1','4','9','5','8','.','5','4'] ['0','.','2','7'] 16 ['1','d'],
  .short ['C','m'] ['2','4','5'] ['L','3','M','5'] [' ','1','4','9','5','9','.','9',' ',' ',' ',' ',' ',' ',' ','1','.','4'],
  .short ['C','m'] ['2','4','8'] ['L','3','M','5'] [' ','1','4','9','5','9','.','9',' ',' ',' ',' ',' ',' ',' ','1','.','4'],
  .full ['R','b'] [] ['K','M','3'] [' ','1','4','9','6','1','.','6',' ',' ',' ',' ',' ',' ',' ','1','.','2'] ['1','4','9','6','1','.','4','2'] ['0','.','5','3'] 16 ['1','d'],
  .full ['F','r'] ['2','2','3'] ['L','1','M','3'] [' ','1','4','9','7','7','.','9',' ',' ',' ',' ',' ',' ',' ','3','.','4'] ['1','4','9','7','5','.','7'] ['2','.','4'] 17 ['1','d'],
  .short ['B','k'] ['2','4','9'] ['L','3','M','4'] [' ','1','5','0','8','0','.','3',' ',' ',' ',' ',' ',' ',' ','1','.','4'],
  .short ['B','k'] ['2','5','0'] ['L','3','M','4'] [' ','1','5','0','8','0','.','3',' ',' ',' ',' ',' ',' ',' ','1','.','4']]

/-- the lines of nist_xray_data.dat L620-679 with a measured energy -/
def main10T : List (XLine ℚ) := [⟨['B','i'], ['L','1','M','3'], 13209.99, 0.62⟩,
  ⟨['B','i'], ['L','3','N','7'], 13259.4, 1.0⟩,
  ⟨['B','r'], ['K','M','2'], 13284.7, 1.1⟩,
  ⟨['P','a'], ['L','3','M','5'], 13290.8, 1.1⟩,
  ⟨['B','r'], ['K','M','3'], 13291.56, 0.42⟩,
  ⟨['R','b'], ['K','L','2'], 13335.88, 0.21⟩,
  ⟨['P','o'], ['L','3','N','5'], 13340.5, 1.1⟩,
  ⟨['A','u'], ['L','2','N','4'], 13381.79, 0.64⟩,
  ⟨['R','b'], ['K','L','3'], 13395.49, 0.19⟩,
  ⟨['B','r'], ['K','M','5'], 13396.3, 2.1⟩,
  ⟨['U'], ['L','3','M','4'], 13438.97, 0.19⟩,
  ⟨['P','o'], ['L','2','M','4'], 13447.1, 4.3⟩,
  ⟨['U'], ['L','3','M','5'], 13614.87, 0.20⟩,
  ⟨['P','o'], ['L','1','M','3'], 13637.9, 6.7⟩,
  ⟨['F','m'], ['L','3','M','1'], 13668, 11⟩,
  ⟨['N','p'], ['L','3','M','4'], 13759.84, 0.20⟩,
  ⟨['H','g'], ['L','2','N','4'], 13830.2, 1.1⟩,
  ⟨['A','t'], ['L','2','M','4'], 13876.2, 2.1⟩,
  ⟨['N','p'], ['L','3','M','5'], 13944.26, 0.21⟩,
  ⟨['A','t'], ['L','1','M','3'], 14067.3, 2.1⟩,
  ⟨['P','u'], ['L','3','M','4'], 14084.42, 0.47⟩,
  ⟨['S','r'], ['K','L','2'], 14098.03, 0.24⟩,
  ⟨['K','r'], ['K','M','2'], 14104.96, 0.11⟩,
  ⟨['K','r'], ['K','M','3'], 14112.815, 0.080⟩,
  ⟨['S','r'], ['K','L','3'], 14165.20, 0.24⟩,
  ⟨['K','r'], ['K','M','5'], 14237.7, 4.8⟩,
  ⟨['P','u'], ['L','3','M','5'], 14278.74, 0.49⟩,
  ⟨['T','l'], ['L','2','N','4'], 14291.58, 0.73⟩,
  ⟨['R','n'], ['L','2','M','4'], 14315.8, 2.2⟩,
  ⟨['A','m'], ['L','3','M','4'], 14412.09, 0.22⟩,
  ⟨['F','r'], ['L','3','N','5'], 14450, 50⟩,
  ⟨['R','n'], ['L','1','M','3'], 14511.7, 2.3⟩,
  ⟨['A','m'], ['L','3','M','5'], 14617.33, 0.23⟩,
  ⟨['P','b'], ['L','2','N','4'], 14764.55, 0.78⟩,
  ⟨['F','r'], ['L','2','M','4'], 14770.4, 2.3⟩,
  ⟨['R','a'], ['L','3','N','5'], 14841.6, 1.3⟩,
  ⟨['Y'], ['K','L','2'], 14882.94, 0.26⟩,
  ⟨['R','b'], ['K','M','2'], 14951.86, 0.80⟩,
  ⟨['Y'], ['K','L','3'], 14958.54, 0.27⟩,
  ⟨['R','b'], ['K','M','3'], 14961.42, 0.53⟩,
  ⟨['F','r'], ['L','1','M','3'], 14975.7, 2.4⟩]

/-- nist_xray_data.dat L680-739 -/
def main11 : List Row := [.full ['R','b'] [] ['K','M','5'] [' ','1','5','0','8','9','.','6','5',' ',' ',' ',' ',' ',' ','0','.','7','5'] ['1','5','0','8','4','.','8'] ['2','.','7'] 10 ['K','M','4',',','5',' ',' ','1','d'],
  .full ['R','a'] ['2','2','6'] ['L','3','N','7'] [' ','1','5','1','6','5','.','2',' ',' ',' ',' ',' ',' ',' ','1','.','6'] ['1','5','1','4','5','.','7'] ['2','.','7'] 10 ['L','3','N','6',',','7',' ','1','d'],
  .short ['A','c'] ['2','2','7'] ['L','3','N','5'] [' ','1','5','2','3','0','.','4',' ',' ',' ',' ',' ',' ',' ','2','.','6'],
  .full ['R','a'] ['2','2','6'] ['L','2','M','4'] [' ','1','5','2','3','4','.','0',' ',' ',' ',' ',' ',' ',' ','1','.','5'] ['1','5','2','3','5','.','9'] ['1','.','4'] 17 ['1','d'],
  .full ['B','i'] ['2','0','9'] ['L','2','N','4'] [' ','1','5','2','4','7','.','7',' ',' ',' ',' ',' ',' ',' ','2','.','8'] ['1','5','2','4','7','.','9','2'] ['0','.','5','6'] 16 ['1','d'],
  .short ['B','k'] ['2','4','9'] ['L','3','M','5'] [' ','1','5','3','0','6','.','9',' ',' ',' ',' ',' ',' ',' ','1','.','3'],
  .short ['B','k'] ['2','5','0'] ['L','3','M','5'] [' ','1','5','3','0','6','.','9',' ',' ',' ',' ',' ',' ',' ','1','.','3'],
  .full ['C','f'] ['2','5','1'] ['L','3','M','4'] [' ','1','5','4','2','8','.','3',' ',' ',' ',' ',' ',' ',' ','1','.','4'] ['1','5','4','3','4'] ['6','9'] 18 ['7','2','d'],
  .short ['C','f'] ['2','5','0'] ['L','3','M','4'] [' ','1','5','4','2','8','.','4',' ',' ',' ',' ',' ',' ',' ','1','.','4'],
  .short ['C','f'] ['2','4','9'] ['L','3','M','4'] [' ','1','5','4','2','8','.','6',' ',' ',' ',' ',' ',' ',' ','1','.','4'],
  .full ['R','a'] ['2','2','6'] ['L','1','M','3'] [' ','1','5','4','4','8','.','4',' ',' ',' ',' ',' ',' ',' ','3','.','4'] ['1','5','4','4','5','.','1'] ['1','.','4'] 17 ['1','d'],
  .short ['A','c'] ['2','2','7'] ['L','3','N','7'] [' ','1','5','5','6','2','.','1',' ',' ',' ',' ',' ',' ',' ','1','.','6'],
  .full ['T','h'] ['2','3','2'] ['L','3','N','5'] [' ','1','5','6','2','4','.','2',' ',' ',' ',' ',' ',' ',' ','2','.','6'] ['1','5','6','2','3','.','9','6','0'] ['0','.','0','3','0'] 15 ['7','5','d'],
  .full ['C','f'] ['2','5','1'] ['L','3','M','5'] [' ','1','5','6','6','5','.','8',' ',' ',' ',' ',' ',' ',' ','1','.','3'] ['1','5','6','5','4'] ['6','9'] 18 ['7','2','d'],
  .short ['C','f'] ['2','5','0'] ['L','3','M','5'] [' ','1','5','6','6','6','.','0',' ',' ',' ',' ',' ',' ',' ','1','.','3'],
  .short ['C','f'] ['2','4','9'] ['L','3','M','5'] [' ','1','5','6','6','6','.','2',' ',' ',' ',' ',' ',' ',' ','1','.','3'],
  .full ['Z','r'] [] ['K','L','2'] [' ','1','5','6','9','0','.','6','1',' ',' ',' ',' ',' ',' ','0','.','6','0'] ['1','5','6','9','0','.','6','4','5'] ['0','.','0','5','0'] 15 ['3','d'],
  .full ['A','c'] ['2','2','7'] ['L','2','M','4'] [' ','1','5','7','1','0','.','8',' ',' ',' ',' ',' ',' ',' ','1','.','6'] ['1','5','7','1','3','.','3'] ['2','.','7'] 17 ['1','d'],
  .full ['P','o'] ['2','0','9'] ['L','2','N','4'] [' ','1','5','7','4','3','.','2',' ',' ',' ',' ',' ',' ',' ','2','.','8'] ['1','5','7','4','4','.','2'] ['2','.','7'] 17 ['1','d'],
  .short ['E','s'] ['2','5','1'] ['L','3','M','4'] [' ','1','5','7','7','3','.','2',' ',' ',' ',' ',' ',' ',' ','1','.','4'],
  .full ['Z','r'] [] ['K','L','3'] [' ','1','5','7','7','4','.','8','7',' ',' ',' ',' ',' ',' ','0','.','5','4'] ['1','5','7','7','4','.','9','1','4'] ['0','.','0','5','4'] 15 ['3','d'],
  .full ['S','r'] [] ['K','M','2'] [' ','1','5','8','2','6','.','2',' ',' ',' ',' ',' ',' ',' ','1','.','3'] ['1','5','8','2','5','.','1','7'] ['0','.','9','0'] 16 ['1','d'],
  .full ['S','r'] [] ['K','M','3'] [' ','1','5','8','3','6','.','3',' ',' ',' ',' ',' ',' ',' ','1','.','2'] ['1','5','8','3','5','.','8','9'] ['0','.','6','0'] 16 ['1','d'],
  .full ['A','c'] ['2','2','7'] ['L','1','M','3'] [' ','1','5','9','3','1','.','1',' ',' ',' ',' ',' ',' ',' ','3','.','4'] ['1','5','9','3','1','.','5'] ['2','.','7'] 17 ['1','d'],
  .full ['S','r'] [] ['K','M','5'] [' ','1','5','9','7','1','.','9','0',' ',' ',' ',' ',' ',' ','0','.','7','6'] ['1','5','9','6','8','.','9'] ['3','.','0'] 10 ['K','M','4',',','5',' ',' ','1','d'],
  .full ['T','h'] ['2','3','2'] ['L','3','N','7'] [' ','1','5','9','7','4','.','8',' ',' ',' ',' ',' ',' ',' ','1','.','7'] ['1','5','9','6','5','.','8','8'] ['0','.','5','8'] 9 ['L','3','N','6',',','7',' ','7','5','d'],
  .short ['E','s'] ['2','5','1'] ['L','3','M','5'] [' ','1','6','0','2','2','.','0',' ',' ',' ',' ',' ',' ',' ','1','.','3'],
  .full ['P','a'] ['2','3','1'] ['L','3','N','5'] [' ','1','6','0','3','5','.','1',' ',' ',' ',' ',' ',' ',' ','2','.','6'] ['1','6','0','2','4','.','6'] ['3','.','1'] 17 ['1','d'],
  .full ['F','m'] ['2','5','4'] ['L','3','M','4'] [' ','1','6','1','2','1','.','2',' ',' ',' ',' ',' ',' ',' ','1','.','4'] ['1','6','1','2','2'] ['1','3'] 18 ['7','4','d'],
  .full ['T','h'] ['2','3','2'] ['L','2','M','4'] [' ','1','6','1','9','9','.','8',' ',' ',' ',' ',' ',' ',' ','1','.','6'] ['1','6','2','0','1','.','5','5','6'] ['0','.','0','3','0'] 15 ['7','5','d'],
  .full ['A','t'] ['2','1','0'] ['L','2','N','4'] [' ','1','6','2','5','0','.','2',' ',' ',' ',' ',' ',' ',' ','2','.','8'] ['1','6','2','5','1','.','7'] ['2','.','8'] 17 ['1','d'],
  .full ['F','m'] ['2','5','4'] ['L','3','M','5'] [' ','1','6','3','8','1','.','8',' ',' ',' ',' ',' ',' ',' ','1','.','3'] ['1','6','3','8','4'] ['1','3'] 18 ['7','4','d'],
  .short ['P','a'] ['2','3','1'] ['L','3','N','7'] [' ','1','6','3','8','3','.','6',' ',' ',' ',' ',' ',' ',' ','1','.','7'],
  .full ['T','h'] ['2','3','2'] ['L','1','M','3'] [' ','1','6','4','2','5','.','3',' ',' ',' ',' ',' ',' ',' ','3','.','5'] ['1','6','4','2','3','.','8','5','5'] ['0','.','0','7','0'] 15 ['7','5','d'],
  .short ['U'] ['2','3','3'] ['L','3','N','5'] [' ','1','6','4','2','9','.','7',' ',' ',' ',' ',' ',' ',' ','2','.','6'],
  .full ['U'] ['2','3','8'] ['L','3','N','5'] [' ','1','6','4','3','0','.','0',' ',' ',' ',' ',' ',' ',' ','2','.','6'] ['1','6','4','2','8','.','4','4'] ['0','.','2','9'] 16 ['1','d'],
  .full ['N','b'] [] ['K','L','2'] [' ','1','6','5','2','1','.','3','5',' ',' ',' ',' ',' ',' ','0','.','6','2'] ['1','6','5','2','1','.','2','8'] ['0','.','3','3'] 16 ['1','d'],
  .full ['N','b'] [] ['K','L','3'] [' ','1','6','6','1','5','.','6','5',' ',' ',' ',' ',' ',' ','0','.','5','6'] ['1','6','6','1','5','.','1','6'] ['0','.','3','3'] 16 ['1','d'],
  .full ['P','a'] ['2','3','1'] ['L','2','M','4'] [' ','1','6','7','0','2','.','7',' ',' ',' ',' ',' ',' ',' ','1','.','6'] ['1','6','7','0','2','.','0'] ['1','.','7'] 17 ['1','d'],
  .full ['Y'] [] ['K','M','2'] [' ','1','6','7','2','6','.','8',' ',' ',' ',' ',' ',' ',' ','1','.','3'] ['1','6','7','2','5','.','9'] ['1','.','0'] 17 ['1','d'],
  .full ['Y'] [] ['K','M','3'] [' ','1','6','7','3','8','.','4',' ',' ',' ',' ',' ',' ',' ','1','.','2'] ['1','6','7','3','8','.','0','8'] ['0','.','6','7'] 16 ['1','d'],
  .full ['R','n'] ['2','2','2'] ['L','2','N','4'] [' ','1','6','7','6','9','.','4',' ',' ',' ',' ',' ',' ',' ','2','.','7'] ['1','6','7','7','0','.','7'] ['3','.','0'] 17 ['1','d'],
  .short ['U'] ['2','3','3'] ['L','3','N','7'] [' ','1','6','7','8','6','.','8',' ',' ',' ',' ',' ',' ',' ','1','.','7'],
  .full ['U'] ['2','3','8'] ['L','3','N','7'] [' ','1','6','7','8','7','.','1',' ',' ',' ',' ',' ',' ',' ','1','.','7'] ['1','6','7','8','6','.','0','6'] ['0','.','3','0'] 9 ['L','3','N','6',',','7',' ','1','d'],
  .full ['N','p'] ['2','3','7'] ['L','3','N','5'] [' ','1','6','8','4','0','.','3',' ',' ',' ',' ',' ',' ',' ','2','.','6'] ['1','6','8','4','0','.','1','6'] ['0','.','3','0'] 16 ['1','d'],
  .full ['Y'] [] ['K','M','5'] [' ','1','6','8','8','1','.','3','9',' ',' ',' ',' ',' ',' ','0','.','7','9'] ['1','6','8','7','9','.','8'] ['3','.','4'] 10 ['K','M','4',',','5',' ',' ','1','d'],
  .full ['P','a'] ['2','3','1'] ['L','1','M','3'] [' ','1','6','9','3','4','.','3',' ',' ',' ',' ',' ',' ',' ','3','.','5'] ['1','6','9','3','0','.','5'] ['1','.','7'] 17 ['1','d'],
  .short ['N','p'] ['2','3','7'] ['L','3','N','7'] [' ','1','7','2','0','6','.','1',' ',' ',' ',' ',' ',' ',' ','1','.','7'],
  .short ['U'] ['2','3','3'] ['L','2','M','4'] [' ','1','7','2','1','8','.','7',' ',' ',' ',' ',' ',' ',' ','1','.','6'],
  .full ['U'] ['2','3','8'] ['L','2','M','4'] [' ','1','7','2','1','8','.','7',' ',' ',' ',' ',' ',' ',' ','1','.','6'] ['1','7','2','2','0','.','1','5'] ['0','.','2','8'] 16 ['1','d'],
  .full ['P','u'] ['2','3','9'] ['L','3','N','5'] [' ','1','7','2','5','6','.','6',' ',' ',' ',' ',' ',' ',' ','2','.','5'] ['1','7','2','5','5','.','4','8'] ['0','.','7','1'] 16 ['1','d'],
  .short ['P','u'] ['2','4','4'] ['L','3','N','5'] [' ','1','7','2','5','6','.','6',' ',' ',' ',' ',' ',' ',' ','2','.','5'],
  .full ['F','r'] ['2','2','3'] ['L','2','N','4'] [' ','1','7','3','0','1','.','7',' ',' ',' ',' ',' ',' ',' ','2','.','8'] ['1','7','3','0','3','.','4'] ['3','.','2'] 17 ['1','d'],
  .full ['M','o'] [] ['K','L','2'] [' ','1','7','3','7','4','.','1','8',' ',' ',' ',' ',' ',' ','0','.','6','2'] ['1','7','3','7','4','.','5','7','7'] ['0','.','0','0','6'] 15 ['5','d'],
  .full ['U'] ['2','3','8'] ['L','1','M','3'] [' ','1','7','4','5','6','.','5',' ',' ',' ',' ',' ',' ',' ','3','.','6'] ['1','7','4','5','5','.','1','7'] ['0','.','7','3'] 16 ['1','d'],
  .short ['U'] ['2','3','3'] ['L','1','M','3'] [' ','1','7','4','5','6','.','8',' ',' ',' ',' ',' ',' ',' ','3','.','6'],
  .full ['M','o'] [] ['K','L','3'] [' ','1','7','4','7','9','.','1','0',' ',' ',' ',' ',' ',' ','0','.','5','5'] ['1','7','4','7','9','.','3','8','9'] ['0','.','0','0','3'] 15 ['5','d'],
  .full ['P','u'] ['2','3','9'] ['L','3','N','7'] [' ','1','7','6','3','1','.','1',' ',' ',' ',' ',' ',' ',' ','1','.','8'] ['1','7','6','3','3','.','7'] ['3','.','7'] 10 ['L','3','N','6',',','7',' ','1','d'],
  .short ['P','u'] ['2','4','4'] ['L','3','N','7'] [' ','1','7','6','3','1','.','1',' ',' ',' ',' ',' ',' ',' ','1','.','8'],
  .full ['Z','r'] [] ['K','M','2'] [' ','1','7','6','5','4','.','1',' ',' ',' ',' ',' ',' ',' ','1','.','3'] ['1','7','6','5','2','.','6','2','8'] ['0','.','0','7','5'] 15 ['3','d']]

/-- the lines of nist_xray_data.dat L680-739 with a measured energy -/
def main11T : List (XLine ℚ) := [⟨['R','b'], ['K','M','5'], 15084.8, 2.7⟩,
  ⟨['R','a'], ['L','3','N','7'], 15145.7, 2.7⟩,
  ⟨['R','a'], ['L','2','M','4'], 15235.9, 1.4⟩,
  ⟨['B','i'], ['L','2','N','4'], 15247.92, 0.56⟩,
  ⟨['C','f'], ['L','3','M','4'], 15434, 69⟩,
  ⟨['R','a'], ['L','1','M','3'], 15445.1, 1.4⟩,
  ⟨['T','h'], ['L','3','N','5'], 15623.960, 0.030⟩,
  ⟨['C','f'], ['L','3','M','5'], 15654, 69⟩,
  ⟨['Z','r'], ['K','L','2'], 15690.645, 0.050⟩,
  ⟨['A','c'], ['L','2','M','4'], 15713.3, 2.7⟩,
  ⟨['P','o'], ['L','2','N','4'], 15744.2, 2.7⟩,
  ⟨['Z','r'], ['K','L','3'], 15774.914, 0.054⟩,
  ⟨['S','r'], ['K','M','2'], 15825.17, 0.90⟩,
  ⟨['S','r'], ['K','M','3'], 15835.89, 0.60⟩,
  ⟨['A','c'], ['L','1','M','3'], 15931.5, 2.7⟩,
  ⟨['S','r'], ['K','M','5'], 15968.9, 3.0⟩,
  ⟨['T','h'], ['L','3','N','7'], 15965.88, 0.58⟩,
  ⟨['P','a'], ['L','3','N','5'], 16024.6, 3.1⟩,
  ⟨['F','m'], ['L','3','M','4'], 16122, 13⟩,
  ⟨['T','h'], ['L','2','M','4'], 16201.556, 0.030⟩,
  ⟨['A','t'], ['L','2','N','4'], 16251.7, 2.8⟩,
  ⟨['F','m'], ['L','3','M','5'], 16384, 13⟩,
  ⟨['T','h'], ['L','1','M','3'], 16423.855, 0.070⟩,
  ⟨['U'], ['L','3','N','5'], 16428.44, 0.29⟩,
  ⟨['N','b'], ['K','L','2'], 16521.28, 0.33⟩,
  ⟨['N','b'], ['K','L','3'], 16615.16, 0.33⟩,
  ⟨['P','a'], ['L','2','M','4'], 16702.0, 1.7⟩,
  ⟨['Y'], ['K','M','2'], 16725.9, 1.0⟩,
  ⟨['Y'], ['K','M','3'], 16738.08, 0.67⟩,
  ⟨['R','n'], ['L','2','N','4'], 16770.7, 3.0⟩,
  ⟨['U'], ['L','3','N','7'], 16786.06, 0.30⟩,
  ⟨['N','p'], ['L','3','N','5'], 16840.16, 0.30⟩,
  ⟨['Y'], ['K','M','5'], 16879.8, 3.4⟩,
  ⟨['P','a'], ['L','1','M','3'], 16930.5, 1.7⟩,
  ⟨['U'], ['L','2','M','4'], 17220.15, 0.28⟩,
  ⟨['P','u'], ['L','3','N','5'], 17255.48, 0.71⟩,
  ⟨['F','r'], ['L','2','N','4'], 17303.4, 3.2⟩,
  ⟨['M','o'], ['K','L','2'], 17374.577, 0.006⟩,
  ⟨['U'], ['L','1','M','3'], 17455.17, 0.73⟩,
  ⟨['M','o'], ['K','L','3'], 17479.389, 0.003⟩,
  ⟨['P','u'], ['L','3','N','7'], 17633.7, 3.7⟩,
  ⟨['Z','r'], ['K','M','2'], 17652.628, 0.075⟩]

/-- nist_xray_data.dat L740-799 -/
def main12 : List Row := [.full ['Z','r'] [] ['K','M','3'] [' ','1','7','6','6','7','.','4',' ',' ',' ',' ',' ',' ',' ','1','.','2'] ['1','7','6','6','6','.','5','7','8'] ['0','.','0','7','6'] 15 ['3','d'],
  .full ['A','m'] ['2','4','1'] ['L','3','N','5'] [' ','1','7','6','7','8','.','2',' ',' ',' ',' ',' ',' ',' ','2','.','6'] ['1','7','6','7','6','.','6','6'] ['0','.','3','4'] 16 ['1','d'],
  .short ['A','m'] ['2','4','3'] ['L','3','N','5'] [' ','1','7','6','7','8','.','2',' ',' ',' ',' ',' ',' ',' ','2','.','6'],
  .full ['N','p'] ['2','3','7'] ['L','2','M','4'] [' ','1','7','7','4','6','.','9',' ',' ',' ',' ',' ',' ',' ','1','.','6'] ['1','7','7','5','0','.','3','6'] ['0','.','3','4'] 16 ['1','d'],
  .full ['Z','r'] [] ['K','M','5'] [' ','1','7','8','1','7','.','9','8',' ',' ',' ',' ',' ',' ','0','.','8','1'] ['1','7','8','1','6','.','1'] ['3','.','8'] 10 ['K','M','4',',','5',' ',' ','1','d'],
  .full ['R','a'] ['2','2','6'] ['L','2','N','4'] [' ','1','7','8','4','7','.','6',' ',' ',' ',' ',' ',' ',' ','3','.','0'] ['1','7','8','4','8','.','7'] ['1','.','9'] 17 ['1','d'],
  .full ['N','p'] ['2','3','7'] ['L','1','M','3'] [' ','1','7','9','9','0','.','8',' ',' ',' ',' ',' ',' ',' ','3','.','6'] ['1','7','9','8','9','.','3'] ['3','.','5'] 17 ['1','d'],
  .short ['A','m'] ['2','4','1'] ['L','3','N','7'] [' ','1','8','0','6','1','.','3',' ',' ',' ',' ',' ',' ',' ','1','.','8'],
  .short ['A','m'] ['2','4','3'] ['L','3','N','7'] [' ','1','8','0','6','1','.','3',' ',' ',' ',' ',' ',' ',' ','1','.','8'],
  .short ['C','m'] ['2','4','5'] ['L','3','N','5'] [' ','1','8','1','0','4','.','8',' ',' ',' ',' ',' ',' ',' ','2','.','6'],
  .short ['C','m'] ['2','4','8'] ['L','3','N','5'] [' ','1','8','1','0','4','.','8',' ',' ',' ',' ',' ',' ',' ','2','.','6'],
  .full ['T','c'] [] ['K','L','2'] [' ','1','8','2','5','1','.','2','8',' ',' ',' ',' ',' ',' ','0','.','6','5'] ['1','8','2','5','0','.','9'] ['1','.','2'] 17 ['1','d'],
  .full ['P','u'] ['2','3','9'] ['L','2','M','4'] [' ','1','8','2','9','2','.','8',' ',' ',' ',' ',' ',' ',' ','1','.','6'] ['1','8','2','9','4','.','0','3'] ['0','.','8','0'] 16 ['1','d'],
  .short ['P','u'] ['2','4','4'] ['L','2','M','4'] [' ','1','8','2','9','2','.','8',' ',' ',' ',' ',' ',' ',' ','1','.','6'],
  .full ['T','c'] [] ['K','L','3'] [' ','1','8','3','6','7','.','5','6',' ',' ',' ',' ',' ',' ','0','.','5','8'] ['1','8','3','6','7','.','2'] ['1','.','2'] 17 ['1','d'],
  .full ['A','c'] ['2','2','7'] ['L','2','N','4'] [' ','1','8','4','0','5','.','5',' ',' ',' ',' ',' ',' ',' ','2','.','8'] ['1','8','4','0','8','.','4'] ['3','.','6'] 17 ['1','d'],
  .short ['C','m'] ['2','4','5'] ['L','3','N','7'] [' ','1','8','4','9','6','.','6',' ',' ',' ',' ',' ',' ',' ','1','.','8'],
  .short ['C','m'] ['2','4','8'] ['L','3','N','7'] [' ','1','8','4','9','6','.','6',' ',' ',' ',' ',' ',' ',' ','1','.','8'],
  .short ['P','u'] ['2','4','4'] ['L','1','M','3'] [' ','1','8','5','4','2','.','5',' ',' ',' ',' ',' ',' ',' ','3','.','7'],
  .full ['P','u'] ['2','3','9'] ['L','1','M','3'] [' ','1','8','5','4','2','.','7',' ',' ',' ',' ',' ',' ',' ','3','.','7'] ['1','8','5','4','0','.','5','2'] ['0','.','8','1'] 16 ['1',',','6','5','d'],
  .short ['B','k'] ['2','4','9'] ['L','3','N','5'] [' ','1','8','5','4','2','.','8',' ',' ',' ',' ',' ',' ',' ','2','.','6'],
  .short ['B','k'] ['2','5','0'] ['L','3','N','5'] [' ','1','8','5','4','2','.','8',' ',' ',' ',' ',' ',' ',' ','2','.','6'],
  .full ['N','b'] [] ['K','M','2'] [' ','1','8','6','0','8','.','8',' ',' ',' ',' ',' ',' ',' ','1','.','4'] ['1','8','6','0','9','.','9'] ['0','.','5'] 0 [],
  .full ['N','b'] [] ['K','M','3'] [' ','1','8','6','2','4','.','0',' ',' ',' ',' ',' ',' ',' ','1','.','2'] ['1','8','6','2','5','.','4'] ['0','.','5'] 0 [],
  .short ['N','b'] [] ['K','M','5'] [' ','1','8','7','8','2','.','2','2',' ',' ',' ',' ',' ',' ','0','.','8','5'],
  .full ['A','m'] ['2','4','1'] ['L','2','M','4'] [' ','1','8','8','5','1','.','6',' ',' ',' ',' ',' ',' ',' ','1','.','7'] ['1','8','8','5','2','.','1','8'] ['0','.','3','8'] 16 ['1','d'],
  .short ['A','m'] ['2','4','3'] ['L','2','M','4'] [' ','1','8','8','5','1','.','6',' ',' ',' ',' ',' ',' ',' ','1','.','7'],
  .short ['B','k'] ['2','4','9'] ['L','3','N','7'] [' ','1','8','9','4','3','.','3',' ',' ',' ',' ',' ',' ',' ','1','.','8'],
  .short ['B','k'] ['2','5','0'] ['L','3','N','7'] [' ','1','8','9','4','3','.','3',' ',' ',' ',' ',' ',' ',' ','1','.','8'],
  .full ['T','h'] ['2','3','2'] ['L','2','N','4'] [' ','1','8','9','7','7','.','6',' ',' ',' ',' ',' ',' ',' ','2','.','8'] ['1','8','9','7','8','.','2','5','9'] ['0','.','0','2','0'] 15 ['7','5','d'],
  .short ['C','f'] ['2','5','1'] ['L','3','N','5'] [' ','1','8','9','9','0','.','4',' ',' ',' ',' ',' ',' ',' ','2','.','6'],
  .short ['C','f'] ['2','5','0'] ['L','3','N','5'] [' ','1','8','9','9','0','.','6',' ',' ',' ',' ',' ',' ',' ','2','.','6'],
  .short ['C','f'] ['2','4','9'] ['L','3','N','5'] [' ','1','8','9','9','0','.','7',' ',' ',' ',' ',' ',' ',' ','2','.','6'],
  .short ['A','m'] ['2','4','3'] ['L','1','M','3'] [' ','1','9','1','0','7','.','3',' ',' ',' ',' ',' ',' ',' ','3','.','7'],
  .full ['A','m'] ['2','4','1'] ['L','1','M','3'] [' ','1','9','1','0','7','.','4',' ',' ',' ',' ',' ',' ',' ','3','.','7'] ['1','9','1','0','6','.','2','4'] ['0','.','8','7'] 16 ['1','d'],
  .full ['R','u'] [] ['K','L','2'] [' ','1','9','1','5','0','.','6','7',' ',' ',' ',' ',' ',' ','0','.','6','6'] ['1','9','1','5','0','.','4','9'] ['0','.','1','8'] 16 ['1',',','5','d'],
  .full ['R','u'] [] ['K','L','3'] [' ','1','9','2','7','9','.','5','1',' ',' ',' ',' ',' ',' ','0','.','6','0'] ['1','9','2','7','9','.','1','6'] ['0','.','1','8'] 16 ['1',',','5','d'],
  .short ['C','f'] ['2','5','1'] ['L','3','N','7'] [' ','1','9','3','9','9','.','7',' ',' ',' ',' ',' ',' ',' ','1','.','9'],
  .short ['C','f'] ['2','5','0'] ['L','3','N','7'] [' ','1','9','3','9','9','.','9',' ',' ',' ',' ',' ',' ',' ','1','.','9'],
  .short ['C','f'] ['2','4','9'] ['L','3','N','7'] [' ','1','9','4','0','0','.','1',' ',' ',' ',' ',' ',' ',' ','1','.','9'],
  .short ['C','m'] ['2','4','5'] ['L','2','M','4'] [' ','1','9','4','2','5','.','2',' ',' ',' ',' ',' ',' ',' ','1','.','7'],
  .short ['C','m'] ['2','4','8'] ['L','2','M','4'] [' ','1','9','4','2','5','.','2',' ',' ',' ',' ',' ',' ',' ','1','.','7'],
  .short ['E','s'] ['2','5','1'] ['L','3','N','5'] [' ','1','9','4','2','6','.','3',' ',' ',' ',' ',' ',' ',' ','2','.','5'],
  .full ['P','a'] ['2','3','1'] ['L','2','N','4'] [' ','1','9','5','7','5','.','9',' ',' ',' ',' ',' ',' ',' ','2','.','8'] ['1','9','5','6','8','.','5'] ['4','.','1'] 17 ['1','d'],
  .full ['M','o'] [] ['K','M','2'] [' ','1','9','5','8','9','.','9',' ',' ',' ',' ',' ',' ',' ','1','.','4'] ['1','9','5','8','9','.','2','4','6'] ['0','.','0','6'] 16 ['1',',','5','d'],
  .full ['M','o'] [] ['K','M','3'] [' ','1','9','6','0','7','.','1',' ',' ',' ',' ',' ',' ',' ','1','.','2'] ['1','9','6','0','6','.','7','4','6'] ['0','.','0','3','5'] 15 ['1',',','5','d'],
  .short ['C','m'] ['2','4','8'] ['L','1','M','3'] [' ','1','9','6','8','6','.','7',' ',' ',' ',' ',' ',' ',' ','3','.','8'],
  .short ['C','m'] ['2','4','5'] ['L','1','M','3'] [' ','1','9','6','8','6','.','9',' ',' ',' ',' ',' ',' ',' ','3','.','8'],
  .full ['M','o'] [] ['K','M','5'] [' ','1','9','7','7','2','.','8','1',' ',' ',' ',' ',' ',' ','0','.','8','5'] ['1','9','7','7','6','.','4'] ['2','.','3'] 17 ['1','d'],
  .short ['E','s'] ['2','5','1'] ['L','3','N','7'] [' ','1','9','8','4','4','.','6',' ',' ',' ',' ',' ',' ',' ','1','.','9'],
  .full ['F','m'] ['2','5','4'] ['L','3','N','5'] [' ','1','9','8','7','4','.','8',' ',' ',' ',' ',' ',' ',' ','2','.','6'] ['1','9','8','7','9'] ['1','3'] 18 ['7','4','d'],
  .short ['B','k'] ['2','4','9'] ['L','2','M','4'] [' ','2','0','0','1','5','.','2',' ',' ',' ',' ',' ',' ',' ','1','.','7'],
  .short ['B','k'] ['2','5','0'] ['L','2','M','4'] [' ','2','0','0','1','5','.','2',' ',' ',' ',' ',' ',' ',' ','1','.','7'],
  .full ['R','h'] [] ['K','L','2'] [' ','2','0','0','7','3','.','4','8',' ',' ',' ',' ',' ',' ','0','.','6','7'] ['2','0','0','7','3','.','6','7'] ['0','.','2','0'] 16 ['1',',','5','d'],
  .short ['U'] ['2','3','3'] ['L','2','N','4'] [' ','2','0','1','6','7','.','3',' ',' ',' ',' ',' ',' ',' ','2','.','8'],
  .full ['U'] ['2','3','8'] ['L','2','N','4'] [' ','2','0','1','6','7','.','5',' ',' ',' ',' ',' ',' ',' ','2','.','8'] ['2','0','1','6','7','.','2','7'] ['0','.','4','4'] 16 ['1','d'],
  .full ['R','h'] [] ['K','L','3'] [' ','2','0','2','1','5','.','7','5',' ',' ',' ',' ',' ',' ','0','.','6','0'] ['2','0','2','1','6','.','1','2'] ['0','.','2','0'] 16 ['1',',','5','d'],
  .short ['B','k'] ['2','5','0'] ['L','1','M','3'] [' ','2','0','2','8','2','.','5',' ',' ',' ',' ',' ',' ',' ','3','.','8'],
  .full ['B','k'] ['2','4','9'] ['L','1','M','3'] [' ','2','0','2','8','2','.','6',' ',' ',' ',' ',' ',' ',' ','3','.','8'] ['2','0','2','9','8'] ['5','3'] 18 ['7','0','d'],
  .full ['F','m'] ['2','5','4'] ['L','3','N','7'] [' ','2','0','3','0','2','.','1',' ',' ',' ',' ',' ',' ',' ','2','.','0'] ['2','0','2','2','9'] ['1','7'] 11 ['L','3','N','6',',','7',' ','7','4','d']]

/-- the lines of nist_xray_data.dat L740-799 with a measured energy -/
def main12T : List (XLine ℚ) := [⟨['Z','r'], ['K','M','3'], 17666.578, 0.076⟩,
  ⟨['A','m'], ['L','3','N','5'], 17676.66, 0.34⟩,
  ⟨['N','p'], ['L','2','M','4'], 17750.36, 0.34⟩,
  ⟨['Z','r'], ['K','M','5'], 17816.1, 3.8⟩,
  ⟨['R','a'], ['L','2','N','4'], 17848.7, 1.9⟩,
  ⟨['N','p'], ['L','1','M','3'], 17989.3, 3.5⟩,
  ⟨['T','c'], ['K','L','2'], 18250.9, 1.2⟩,
  ⟨['P','u'], ['L','2','M','4'], 18294.03, 0.80⟩,
  ⟨['T','c'], ['K','L','3'], 18367.2, 1.2⟩,
  ⟨['A','c'], ['L','2','N','4'], 18408.4, 3.6⟩,
  ⟨['P','u'], ['L','1','M','3'], 18540.52, 0.81⟩,
  ⟨['N','b'], ['K','M','2'], 18609.9, 0.5⟩,
  ⟨['N','b'], ['K','M','3'], 18625.4, 0.5⟩,
  ⟨['A','m'], ['L','2','M','4'], 18852.18, 0.38⟩,
  ⟨['T','h'], ['L','2','N','4'], 18978.259, 0.020⟩,
  ⟨['A','m'], ['L','1','M','3'], 19106.24, 0.87⟩,
  ⟨['R','u'], ['K','L','2'], 19150.49, 0.18⟩,
  ⟨['R','u'], ['K','L','3'], 19279.16, 0.18⟩,
  ⟨['P','a'], ['L','2','N','4'], 19568.5, 4.1⟩,
  ⟨['M','o'], ['K','M','2'], 19589.246, 0.06⟩,
  ⟨['M','o'], ['K','M','3'], 19606.746, 0.035⟩,
  ⟨['M','o'], ['K','M','5'], 19776.4, 2.3⟩,
  ⟨['F','m'], ['L','3','N','5'], 19879, 13⟩,
  ⟨['R','h'], ['K','L','2'], 20073.67, 0.20⟩,
  ⟨['U'], ['L','2','N','4'], 20167.27, 0.44⟩,
  ⟨['R','h'], ['K','L','3'], 20216.12, 0.20⟩,
  ⟨['B','k'], ['L','1','M','3'], 20298, 53⟩,
  ⟨['F','m'], ['L','3','N','7'], 20229, 17⟩]

/-- nist_xray_data.dat L800-859 -/
def main13 : List Row := [.full ['T','c'] [] ['K','M','2'] [' ','2','0','5','9','9','.','4',' ',' ',' ',' ',' ',' ',' ','1','.','4'] ['2','0','5','9','9','.','2'] ['2','.','0'] 17 ['1','d'],
  .full ['T','c'] [] ['K','M','3'] [' ','2','0','6','1','8','.','7',' ',' ',' ',' ',' ',' ',' ','1','.','2'] ['2','0','6','1','9','.','0'] ['2','.','0'] 17 ['1','d'],
  .full ['C','f'] ['2','5','1'] ['L','2','M','4'] [' ','2','0','6','2','9','.','3',' ',' ',' ',' ',' ',' ',' ','1','.','7'] ['2','0','6','5','6'] ['7','0'] 18 ['7','2','d'],
  .short ['C','f'] ['2','5','0'] ['L','2','M','4'] [' ','2','0','6','2','9','.','5',' ',' ',' ',' ',' ',' ',' ','1','.','7'],
  .short ['C','f'] ['2','4','9'] ['L','2','M','4'] [' ','2','0','6','2','9','.','7',' ',' ',' ',' ',' ',' ',' ','1','.','7'],
  .full ['N','p'] ['2','3','7'] ['L','2','N','4'] [' ','2','0','7','8','4','.','5',' ',' ',' ',' ',' ',' ',' ','2','.','8'] ['2','0','7','8','5','.','0','4'] ['0','.','4','6'] 16 ['1','d'],
  .short ['T','c'] [] ['K','M','5'] [' ','2','0','7','9','2','.','0','2',' ',' ',' ',' ',' ',' ','0','.','8','9'],
  .full ['C','f'] ['2','5','1'] ['L','1','M','3'] [' ','2','0','9','0','2','.','3',' ',' ',' ',' ',' ',' ',' ','3','.','9'] ['2','0','9','0','2'] ['5','8'] 18 ['7','2','d'],
  .full ['C','f'] ['2','5','0'] ['L','1','M','3'] [' ','2','0','9','0','2','.','7',' ',' ',' ',' ',' ',' ',' ','3','.','9'] ['2','0','8','9','2','.','0'] ['9','.','4'] 17 ['7','1','d'],
  .short ['C','f'] ['2','4','9'] ['L','1','M','3'] [' ','2','0','9','0','2','.','9',' ',' ',' ',' ',' ',' ',' ','3','.','9'],
  .full ['P','d'] [] ['K','L','2'] [' ','2','1','0','2','0','.','6','1',' ',' ',' ',' ',' ',' ','0','.','7','0'] ['2','1','0','2','0','.','1','5'] ['0','.','2','2'] 16 ['1',',','5','d'],
  .full ['P','d'] [] ['K','L','3'] [' ','2','1','1','7','7','.','2','5',' ',' ',' ',' ',' ',' ','0','.','6','4'] ['2','1','1','7','7','.','0','8'] ['0','.','1','7'] 16 ['1',',','5','d'],
  .short ['E','s'] ['2','5','1'] ['L','2','M','4'] [' ','2','1','2','5','3','.','7',' ',' ',' ',' ',' ',' ',' ','1','.','8'],
  .full ['P','u'] ['2','3','9'] ['L','2','N','4'] [' ','2','1','4','1','7','.','7',' ',' ',' ',' ',' ',' ',' ','2','.','8'] ['2','1','4','1','7','.','5','5'] ['0','.','4','9'] 16 ['1','d'],
  .short ['P','u'] ['2','4','4'] ['L','2','N','4'] [' ','2','1','4','1','7','.','7',' ',' ',' ',' ',' ',' ',' ','2','.','8'],
  .short ['E','s'] ['2','5','1'] ['L','1','M','3'] [' ','2','1','5','3','2','.','3',' ',' ',' ',' ',' ',' ',' ','3','.','9'],
  .full ['R','u'] [] ['K','M','2'] [' ','2','1','6','3','5','.','7',' ',' ',' ',' ',' ',' ',' ','1','.','4'] ['2','1','6','3','4','.','6','5'] ['0','.','1','6'] 16 ['1',',','5','d'],
  .full ['R','u'] [] ['K','M','3'] [' ','2','1','6','5','7','.','5',' ',' ',' ',' ',' ',' ',' ','1','.','2'] ['2','1','6','5','6','.','7','5'] ['0','.','1','6'] 16 ['1',',','5','d'],
  .full ['R','u'] [] ['K','M','5'] [' ','2','1','8','3','8','.','5','7',' ',' ',' ',' ',' ',' ','0','.','9','2'] ['2','1','8','3','3','.','6'] ['5','.','1'] 17 ['1','d'],
  .full ['F','m'] ['2','5','4'] ['L','2','M','4'] [' ','2','1','8','9','4','.','8',' ',' ',' ',' ',' ',' ',' ','1','.','8'] ['2','1','8','9','8'] ['1','3'] 18 ['7','4','d'],
  .full ['A','g'] [] ['K','L','2'] [' ','2','1','9','9','0','.','6','7',' ',' ',' ',' ',' ',' ','0','.','7','2'] ['2','1','9','9','0','.','3','0'] ['0','.','1','0'] 16 ['5','d'],
  .full ['A','m'] ['2','4','1'] ['L','2','N','4'] [' ','2','2','0','6','7','.','0',' ',' ',' ',' ',' ',' ',' ','2','.','9'] ['2','2','0','6','5','.','3','9'] ['0','.','5','2'] 16 ['1','d'],
  .short ['A','m'] ['2','4','3'] ['L','2','N','4'] [' ','2','2','0','6','7','.','0',' ',' ',' ',' ',' ',' ',' ','2','.','9'],
  .full ['A','g'] [] ['K','L','3'] [' ','2','2','1','6','2','.','9','9',' ',' ',' ',' ',' ',' ','0','.','6','6'] ['2','2','1','6','2','.','9','1','7'] ['0','.','0','3','0'] 15 ['5','d'],
  .full ['F','m'] ['2','5','4'] ['L','1','M','3'] [' ','2','2','1','7','8','.','7',' ',' ',' ',' ',' ',' ',' ','4','.','0'] ['2','2','1','6','5'] ['1','1'] 18 ['7','4','d'],
  .full ['R','h'] [] ['K','M','2'] [' ','2','2','6','9','9','.','8',' ',' ',' ',' ',' ',' ',' ','1','.','4'] ['2','2','6','9','8','.','8','3'] ['0','.','1','7'] 16 ['1',',','5','d'],
  .full ['R','h'] [] ['K','M','3'] [' ','2','2','7','2','4','.','1',' ',' ',' ',' ',' ',' ',' ','1','.','2'] ['2','2','7','2','3','.','5','9'] ['0','.','1','7'] 16 ['1',',','5','d'],
  .short ['C','m'] ['2','4','5'] ['L','2','N','4'] [' ','2','2','7','3','2','.','4',' ',' ',' ',' ',' ',' ',' ','3','.','0'],
  .short ['C','m'] ['2','4','8'] ['L','2','N','4'] [' ','2','2','7','3','2','.','4',' ',' ',' ',' ',' ',' ',' ','3','.','0'],
  .full ['R','h'] [] ['K','M','5'] [' ','2','2','9','1','3','.','0','4',' ',' ',' ',' ',' ',' ','0','.','9','4'] ['2','2','9','1','6','.','8'] ['5','.','6'] 17 ['1','d'],
  .full ['C','d'] [] ['K','L','2'] [' ','2','2','9','8','4','.','4','8',' ',' ',' ',' ',' ',' ','0','.','7','5'] ['2','2','9','8','4','.','0','5'] ['0','.','2','0'] 16 ['1',',','5','d'],
  .full ['C','d'] [] ['K','L','3'] [' ','2','3','1','7','3','.','7','3',' ',' ',' ',' ',' ',' ','0','.','6','7'] ['2','3','1','7','3','.','9','8'] ['0','.','2','0'] 16 ['1',',','5','d'],
  .short ['B','k'] ['2','4','9'] ['L','2','N','4'] [' ','2','3','4','2','1','.','3',' ',' ',' ',' ',' ',' ',' ','3','.','0'],
  .short ['B','k'] ['2','5','0'] ['L','2','N','4'] [' ','2','3','4','2','1','.','3',' ',' ',' ',' ',' ',' ',' ','3','.','0'],
  .full ['P','d'] [] ['K','M','2'] [' ','2','3','7','9','2','.','0',' ',' ',' ',' ',' ',' ',' ','1','.','3'] ['2','3','7','9','1','.','1','2'] ['0','.','1','9'] 16 ['1',',','5','d'],
  .full ['P','d'] [] ['K','M','3'] [' ','2','3','8','1','9','.','5',' ',' ',' ',' ',' ',' ',' ','1','.','2'] ['2','3','8','1','8','.','6','9'] ['0','.','1','9'] 16 ['1',',','5','d'],
  .full ['I','n'] [] ['K','L','2'] [' ','2','4','0','0','2','.','3','1',' ',' ',' ',' ',' ',' ','0','.','7','7'] ['2','4','0','0','2','.','0','3'] ['0','.','2','8'] 16 ['1',',','5','d'],
  .full ['P','d'] [] ['K','M','5'] [' ','2','4','0','1','6','.','2','2',' ',' ',' ',' ',' ',' ','0','.','9','9'] ['2','3','9','9','5','.','0'] ['6','.','2'] 10 ['K','M','4',',','5',' ',' ','1','d'],
  .short ['C','f'] ['2','5','1'] ['L','2','N','4'] [' ','2','4','1','3','2','.','0',' ',' ',' ',' ',' ',' ',' ','3','.','2'],
  .short ['C','f'] ['2','5','0'] ['L','2','N','4'] [' ','2','4','1','3','2','.','3',' ',' ',' ',' ',' ',' ',' ','3','.','2'],
  .short ['C','f'] ['2','4','9'] ['L','2','N','4'] [' ','2','4','1','3','2','.','4',' ',' ',' ',' ',' ',' ',' ','3','.','2'],
  .full ['I','n'] [] ['K','L','3'] [' ','2','4','2','0','9','.','7','8',' ',' ',' ',' ',' ',' ','0','.','6','9'] ['2','4','2','0','9','.','7','5'] ['0','.','2','2'] 16 ['1',',','5','d'],
  .short ['E','s'] ['2','5','1'] ['L','2','N','4'] [' ','2','4','8','4','4','.','3',' ',' ',' ',' ',' ',' ',' ','3','.','2'],
  .full ['A','g'] [] ['K','M','2'] [' ','2','4','9','1','2','.','8',' ',' ',' ',' ',' ',' ',' ','1','.','5'] ['2','4','9','1','1','.','5','4'] ['0','.','3','0'] 16 ['1',',','5','d'],
  .full ['A','g'] [] ['K','M','3'] [' ','2','4','9','4','3','.','1',' ',' ',' ',' ',' ',' ',' ','1','.','3'] ['2','4','9','4','2','.','4','2'] ['0','.','3','0'] 16 ['1',',','5','d'],
  .full ['S','n'] [] ['K','L','2'] [' ','2','5','0','4','4','.','3','0',' ',' ',' ',' ',' ',' ','0','.','7','9'] ['2','5','0','4','4','.','0','4'] ['0','.','2','3'] 16 ['1',',','5','d'],
  .full ['A','g'] [] ['K','M','5'] [' ','2','5','1','4','7','.','6',' ',' ',' ',' ',' ',' ',' ','1','.','0'] ['2','5','1','4','5','.','5'] ['1','.','5'] 10 ['K','M','4',',','5',' ',' ','1','d'],
  .full ['S','n'] [] ['K','L','3'] [' ','2','5','2','7','1','.','3','4',' ',' ',' ',' ',' ',' ','0','.','7','2'] ['2','5','2','7','1','.','3','6'] ['0','.','2','3'] 16 ['1',',','5','d'],
  .full ['F','m'] ['2','5','4'] ['L','2','N','4'] [' ','2','5','5','8','2','.','6',' ',' ',' ',' ',' ',' ',' ','3','.','2'] ['2','5','5','8','5'] ['1','3'] 18 ['7','4','d'],
  .full ['C','d'] [] ['K','M','2'] [' ','2','6','0','6','1','.','4',' ',' ',' ',' ',' ',' ',' ','1','.','5'] ['2','6','0','6','1','.','3','2'] ['0','.','3','9'] 16 ['1',',','5','d'],
  .full ['C','d'] [] ['K','M','3'] [' ','2','6','0','9','5','.','1',' ',' ',' ',' ',' ',' ',' ','1','.','3'] ['2','6','0','9','5','.','4','4'] ['0','.','3','9'] 16 ['1',',','5','d'],
  .full ['S','b'] [] ['K','L','2'] [' ','2','6','1','1','0','.','7','3',' ',' ',' ',' ',' ',' ','0','.','8','2'] ['2','6','1','1','0','.','7','8'] ['0','.','2','5'] 16 ['1',',','5','d'],
  .short ['C','d'] [] ['K','M','5'] [' ','2','6','3','0','7','.','8',' ',' ',' ',' ',' ',' ',' ','1','.','1'],
  .full ['S','b'] [] ['K','L','3'] [' ','2','6','3','5','8','.','6','9',' ',' ',' ',' ',' ',' ','0','.','7','4'] ['2','6','3','5','8','.','8','6'] ['0','.','2','5'] 16 ['1',',','5','d'],
  .full ['T','e'] [] ['K','L','2'] [' ','2','7','2','0','1','.','7','3',' ',' ',' ',' ',' ',' ','0','.','8','5'] ['2','7','2','0','1','.','9','9'] ['0','.','2','6'] 16 ['1','d'],
  .full ['I','n'] [] ['K','M','2'] [' ','2','7','2','3','8','.','6',' ',' ',' ',' ',' ',' ',' ','1','.','5'] ['2','7','2','3','7','.','5','0'] ['0','.','2','5'] 16 ['1',',','5','d'],
  .full ['I','n'] [] ['K','M','3'] [' ','2','7','2','7','6','.','1',' ',' ',' ',' ',' ',' ',' ','1','.','3'] ['2','7','2','7','5','.','5','5'] ['0','.','2','5'] 16 ['1',',','5','d'],
  .full ['T','e'] [] ['K','L','3'] [' ','2','7','4','7','2','.','0','9',' ',' ',' ',' ',' ',' ','0','.','7','7'] ['2','7','4','7','2','.','5','7'] ['0','.','2','7'] 16 ['1','d'],
  .full ['I','n'] [] ['K','M','5'] [' ','2','7','4','9','7','.','1',' ',' ',' ',' ',' ',' ',' ','1','.','1'] ['2','7','4','9','9','.','1'] ['1','.','8'] 17 ['1','d'],
  .full ['I'] [] ['K','L','2'] [' ','2','8','3','1','7','.','6','2',' ',' ',' ',' ',' ',' ','0','.','8','7'] ['2','8','3','1','7','.','5','2'] ['0','.','6','7'] 16 ['1','d']]

/-- the lines of nist_xray_data.dat L800-859 with a measured energy -/
def main13T : List (XLine ℚ) := [⟨['T','c'], ['K','M','2'], 20599.2, 2.0⟩,
  ⟨['T','c'], ['K','M','3'], 20619.0, 2.0⟩,
  ⟨['C','f'], ['L','2','M','4'], 20656, 70⟩,
  ⟨['N','p'], ['L','2','N','4'], 20785.04, 0.46⟩,
  ⟨['C','f'], ['L','1','M','3'], 20902, 58⟩,
  ⟨['C','f'], ['L','1','M','3'], 20892.0, 9.4⟩,
  ⟨['P','d'], ['K','L','2'], 21020.15, 0.22⟩,
  ⟨['P','d'], ['K','L','3'], 21177.08, 0.17⟩,
  ⟨['P','u'], ['L','2','N','4'], 21417.55, 0.49⟩,
  ⟨['R','u'], ['K','M','2'], 21634.65, 0.16⟩,
  ⟨['R','u'], ['K','M','3'], 21656.75, 0.16⟩,
  ⟨['R','u'], ['K','M','5'], 21833.6, 5.1⟩,
  ⟨['F','m'], ['L','2','M','4'], 21898, 13⟩,
  ⟨['A','g'], ['K','L','2'], 21990.30, 0.10⟩,
  ⟨['A','m'], ['L','2','N','4'], 22065.39, 0.52⟩,
  ⟨['A','g'], ['K','L','3'], 22162.917, 0.030⟩,
  ⟨['F','m'], ['L','1','M','3'], 22165, 11⟩,
  ⟨['R','h'], ['K','M','2'], 22698.83, 0.17⟩,
  ⟨['R','h'], ['K','M','3'], 22723.59, 0.17⟩,
  ⟨['R','h'], ['K','M','5'], 22916.8, 5.6⟩,
  ⟨['C','d'], ['K','L','2'], 22984.05, 0.20⟩,
  ⟨['C','d'], ['K','L','3'], 23173.98, 0.20⟩,
  ⟨['P','d'], ['K','M','2'], 23791.12, 0.19⟩,
  ⟨['P','d'], ['K','M','3'], 23818.69, 0.19⟩,
  ⟨['I','n'], ['K','L','2'], 24002.03, 0.28⟩,
  ⟨['P','d'], ['K','M','5'], 23995.0, 6.2⟩,
  ⟨['I','n'], ['K','L','3'], 24209.75, 0.22⟩,
  ⟨['A','g'], ['K','M','2'], 24911.54, 0.30⟩,
  ⟨['A','g'], ['K','M','3'], 24942.42, 0.30⟩,
  ⟨['S','n'], ['K','L','2'], 25044.04, 0.23⟩,
  ⟨['A','g'], ['K','M','5'], 25145.5, 1.5⟩,
  ⟨['S','n'], ['K','L','3'], 25271.36, 0.23⟩,
  ⟨['F','m'], ['L','2','N','4'], 25585, 13⟩,
  ⟨['C','d'], ['K','M','2'], 26061.32, 0.39⟩,
  ⟨['C','d'], ['K','M','3'], 26095.44, 0.39⟩,
  ⟨['S','b'], ['K','L','2'], 26110.78, 0.25⟩,
  ⟨['S','b'], ['K','L','3'], 26358.86, 0.25⟩,
  ⟨['T','e'], ['K','L','2'], 27201.99, 0.26⟩,
  ⟨['I','n'], ['K','M','2'], 27237.50, 0.25⟩,
  ⟨['I','n'], ['K','M','3'], 27275.55, 0.25⟩,
  ⟨['T','e'], ['K','L','3'], 27472.57, 0.27⟩,
  ⟨['I','n'], ['K','M','5'], 27499.1, 1.8⟩,
  ⟨['I'], ['K','L','2'], 28317.52, 0.67⟩]

/-- nist_xray_data.dat L860-919 -/
def main14 : List Row := [.full ['S','n'] [] ['K','M','2'] [' ','2','8','4','4','4','.','7',' ',' ',' ',' ',' ',' ',' ','1','.','6'] ['2','8','4','4','4','.','4','3'] ['0','.','3','3'] 16 ['1',',','5','d'],
  .full ['S','n'] [] ['K','M','3'] [' ','2','8','4','8','6','.','4',' ',' ',' ',' ',' ',' ',' ','1','.','3'] ['2','8','4','8','6','.','2','6'] ['0','.','3','3'] 16 ['1',',','5','d'],
  .full ['I'] [] ['K','L','3'] [' ','2','8','6','1','1','.','9','4',' ',' ',' ',' ',' ',' ','0','.','7','9'] ['2','8','6','1','2','.','3','2'] ['0','.','4','9'] 16 ['1','d'],
  .full ['S','n'] [] ['K','M','5'] [' ','2','8','7','1','5','.','6',' ',' ',' ',' ',' ',' ',' ','1','.','1'] ['2','8','7','1','6','.','2'] ['3','.','0'] 17 ['1','d'],
  .full ['X','e'] [] ['K','L','2'] [' ','2','9','4','5','8','.','4',' ',' ',' ',' ',' ',' ',' ','3','.','0'] ['2','9','4','5','8','.','2','5','0'] ['0','.','0','5','0'] 15 ['5','d'],
  .full ['S','b'] [] ['K','M','2'] [' ','2','9','6','8','0','.','0',' ',' ',' ',' ',' ',' ',' ','1','.','6'] ['2','9','6','7','9','.','2','0'] ['0','.','2','9'] 16 ['1',',','5','d'],
  .full ['S','b'] [] ['K','M','3'] [' ','2','9','7','2','6','.','0',' ',' ',' ',' ',' ',' ',' ','1','.','4'] ['2','9','7','2','5','.','5','3'] ['0','.','2','2'] 16 ['1',',','5','d'],
  .full ['X','e'] [] ['K','L','3'] [' ','2','9','7','7','8','.','3',' ',' ',' ',' ',' ',' ',' ','2','.','9'] ['2','9','7','7','8','.','7','8'] ['0','.','1','0'] 16 ['5','d'],
  .full ['S','b'] [] ['K','M','5'] [' ','2','9','9','6','3','.','8',' ',' ',' ',' ',' ',' ',' ','1','.','2'] ['2','9','9','6','3','.','3'] ['1','.','1'] 17 ['1','d'],
  .full ['C','s'] [] ['K','L','2'] [' ','3','0','6','2','4','.','8','7',' ',' ',' ',' ',' ',' ','0','.','9','5'] ['3','0','6','2','5','.','4','0'] ['0','.','4','5'] 16 ['1','d'],
  .full ['T','e'] [] ['K','M','2'] [' ','3','0','9','4','4','.','7',' ',' ',' ',' ',' ',' ',' ','1','.','6'] ['3','0','9','4','4','.','6','0'] ['0','.','4','6'] 16 ['1','d'],
  .full ['C','s'] [] ['K','L','3'] [' ','3','0','9','7','2','.','0','5',' ',' ',' ',' ',' ',' ','0','.','8','6'] ['3','0','9','7','3','.','1','3'] ['0','.','4','6'] 16 ['1','d'],
  .full ['T','e'] [] ['K','M','3'] [' ','3','0','9','9','5','.','5',' ',' ',' ',' ',' ',' ',' ','1','.','4'] ['3','0','9','9','5','.','9','7'] ['0','.','3','4'] 16 ['1','d'],
  .short ['T','e'] [] ['K','M','5'] [' ','3','1','2','4','1','.','8',' ',' ',' ',' ',' ',' ',' ','1','.','2'],
  .full ['B','a'] [] ['K','L','2'] [' ','3','1','8','1','6','.','5','6',' ',' ',' ',' ',' ',' ','0','.','9','7'] ['3','1','8','1','6','.','6','1','5'] ['0','.','0','6','0'] 15 ['5','d'],
  .full ['B','a'] [] ['K','L','3'] [' ','3','2','1','9','2','.','8','7',' ',' ',' ',' ',' ',' ','0','.','8','8'] ['3','2','1','9','3','.','2','6','2'] ['0','.','0','7','0'] 15 ['5','d'],
  .full ['I'] [] ['K','M','2'] [' ','3','2','2','3','9','.','2',' ',' ',' ',' ',' ',' ',' ','1','.','6'] ['3','2','2','3','9','.','7','1'] ['0','.','5','0'] 16 ['1','d'],
  .full ['I'] [] ['K','M','3'] [' ','3','2','2','9','5','.','1',' ',' ',' ',' ',' ',' ',' ','1','.','4'] ['3','2','2','9','5','.','0','5'] ['0','.','5','0'] 16 ['1','d'],
  .short ['I'] [] ['K','M','5'] [' ','3','2','5','5','0','.','1',' ',' ',' ',' ',' ',' ',' ','1','.','2'],
  .full ['L','a'] [] ['K','L','2'] [' ','3','3','0','3','4','.','2',' ',' ',' ',' ',' ',' ',' ','1','.','0'] ['3','3','0','3','4','.','3','8'] ['0','.','2','6'] 16 ['1','d'],
  .full ['L','a'] [] ['K','L','3'] [' ','3','3','4','4','1','.','6','2',' ',' ',' ',' ',' ',' ','0','.','9','1'] ['3','3','4','4','2','.','1','2'] ['0','.','2','7'] 16 ['1','d'],
  .full ['X','e'] [] ['K','M','2'] [' ','3','3','5','6','3','.','0',' ',' ',' ',' ',' ',' ',' ','3','.','6'] ['3','3','5','6','3','.','2','0'] ['0','.','1','2'] 16 ['5','d'],
  .full ['X','e'] [] ['K','M','3'] [' ','3','3','6','2','4','.','6',' ',' ',' ',' ',' ',' ',' ','3','.','5'] ['3','3','6','2','4','.','2','3'] ['0','.','1','2'] 16 ['5','d'],
  .short ['X','e'] [] ['K','M','5'] [' ','3','3','8','8','8','.','6',' ',' ',' ',' ',' ',' ',' ','3','.','3'],
  .full ['C','e'] [] ['K','L','2'] [' ','3','4','2','7','9','.','6',' ',' ',' ',' ',' ',' ',' ','1','.','0'] ['3','4','2','7','9','.','2','8'] ['0','.','2','8'] 16 ['1','d'],
  .full ['C','e'] [] ['K','L','3'] [' ','3','4','7','2','0','.','0','9',' ',' ',' ',' ',' ',' ','0','.','9','4'] ['3','4','7','2','0','.','0','0'] ['0','.','2','9'] 16 ['1','d'],
  .full ['C','s'] [] ['K','M','2'] [' ','3','4','9','1','8','.','5',' ',' ',' ',' ',' ',' ',' ','1','.','7'] ['3','4','9','1','9','.','6','8'] ['0','.','5','8'] 16 ['1','d'],
  .full ['C','s'] [] ['K','M','3'] [' ','3','4','9','8','5','.','8',' ',' ',' ',' ',' ',' ',' ','1','.','5'] ['3','4','9','8','7','.','3'] ['1','.','0'] 17 ['1','d'],
  .short ['C','s'] [] ['K','M','5'] [' ','3','5','2','5','8','.','6',' ',' ',' ',' ',' ',' ',' ','1','.','3'],
  .full ['P','r'] [] ['K','L','2'] [' ','3','5','5','5','0','.','5',' ',' ',' ',' ',' ',' ',' ','1','.','1'] ['3','5','5','5','0','.','5','9'] ['0','.','3','0'] 16 ['1','d'],
  .full ['P','r'] [] ['K','L','3'] [' ','3','6','0','2','6','.','2','7',' ',' ',' ',' ',' ',' ','0','.','9','8'] ['3','6','0','2','6','.','7','1'] ['0','.','3','1'] 16 ['1','d'],
  .full ['B','a'] [] ['K','M','2'] [' ','3','6','3','0','3','.','9',' ',' ',' ',' ',' ',' ',' ','1','.','7'] ['3','6','3','0','3','.','3','5'] ['0','.','1','2'] 16 ['5','d'],
  .full ['B','a'] [] ['K','M','3'] [' ','3','6','3','7','7','.','5',' ',' ',' ',' ',' ',' ',' ','1','.','6'] ['3','6','3','7','7','.','4','4','5'] ['0','.','0','8','0'] 15 ['5','d'],
  .full ['B','a'] [] ['K','M','5'] [' ','3','6','6','5','9','.','5',' ',' ',' ',' ',' ',' ',' ','1','.','4'] ['3','6','6','6','6','.','0'] ['3','.','2'] 17 ['1','d'],
  .full ['N','d'] [] ['K','L','2'] [' ','3','6','8','4','8','.','2',' ',' ',' ',' ',' ',' ',' ','1','.','1'] ['3','6','8','4','7','.','5','0','2'] ['0','.','0','8','0'] 15 ['5','d'],
  .full ['N','d'] [] ['K','L','3'] [' ','3','7','3','6','1','.','4',' ',' ',' ',' ',' ',' ',' ','1','.','0'] ['3','7','3','6','0','.','7','3','9'] ['0','.','0','7','0'] 15 ['5','d'],
  .full ['L','a'] [] ['K','M','2'] [' ','3','7','7','2','0','.','5',' ',' ',' ',' ',' ',' ',' ','1','.','8'] ['3','7','7','2','0','.','6','0'] ['0','.','6','8'] 16 ['1','d'],
  .full ['L','a'] [] ['K','M','3'] [' ','3','7','8','0','0','.','9',' ',' ',' ',' ',' ',' ',' ','1','.','6'] ['3','7','8','0','1','.','4','5'] ['0','.','5','1'] 16 ['1','d'],
  .full ['L','a'] [] ['K','M','5'] [' ','3','8','0','9','2','.','1',' ',' ',' ',' ',' ',' ',' ','1','.','4'] ['3','8','0','9','4','.','5'] ['3','.','5'] 17 ['1','d'],
  .full ['P','m'] [] ['K','L','2'] [' ','3','8','1','7','2','.','7',' ',' ',' ',' ',' ',' ',' ','1','.','2'] ['3','8','1','7','1','.','5','5'] ['0','.','7','0'] 16 ['1','d'],
  .full ['P','m'] [] ['K','L','3'] [' ','3','8','7','2','5','.','6',' ',' ',' ',' ',' ',' ',' ','1','.','1'] ['3','8','7','2','5','.','1','1'] ['0','.','7','2'] 16 ['1','d'],
  .full ['C','e'] [] ['K','M','2'] [' ','3','9','1','7','2','.','7',' ',' ',' ',' ',' ',' ',' ','1','.','8'] ['3','9','1','7','0','.','4','6'] ['0','.','7','3'] 16 ['1','d'],
  .full ['C','e'] [] ['K','M','3'] [' ','3','9','2','6','0','.','9',' ',' ',' ',' ',' ',' ',' ','1','.','7'] ['3','9','2','5','7','.','7','7'] ['0','.','3','7'] 16 ['1','d'],
  .full ['S','m'] [] ['K','L','2'] [' ','3','9','5','2','4','.','3',' ',' ',' ',' ',' ',' ',' ','1','.','2'] ['3','9','5','2','3','.','3','9'] ['0','.','1','0'] 16 ['5','d'],
  .full ['C','e'] [] ['K','M','5'] [' ','3','9','5','6','1','.','2',' ',' ',' ',' ',' ',' ',' ','1','.','4'] ['3','9','5','5','7','.','9'] ['3','.','7'] 17 ['1','d'],
  .full ['S','m'] [] ['K','L','3'] [' ','4','0','1','1','9','.','4',' ',' ',' ',' ',' ',' ',' ','1','.','1'] ['4','0','1','1','8','.','4','8','1'] ['0','.','0','6','0'] 15 ['5','d'],
  .full ['P','r'] [] ['K','M','2'] [' ','4','0','6','5','4','.','5',' ',' ',' ',' ',' ',' ',' ','1','.','9'] ['4','0','6','5','3','.','2','7'] ['0','.','9','9'] 16 ['1','d'],
  .full ['P','r'] [] ['K','M','3'] [' ','4','0','7','5','0','.','9',' ',' ',' ',' ',' ',' ',' ','1','.','8'] ['4','0','7','4','8','.','6','7'] ['0','.','7','9'] 16 ['1','d'],
  .full ['E','u'] [] ['K','L','2'] [' ','4','0','9','0','3','.','5',' ',' ',' ',' ',' ',' ',' ','1','.','2'] ['4','0','9','0','2','.','3','3'] ['0','.','4','0'] 16 ['1','d'],
  .short ['P','r'] [] ['K','M','5'] [' ','4','1','0','6','0','.','5',' ',' ',' ',' ',' ',' ',' ','1','.','5'],
  .full ['E','u'] [] ['K','L','3'] [' ','4','1','5','4','3','.','3',' ',' ',' ',' ',' ',' ',' ','1','.','1'] ['4','1','5','4','2','.','6','3'] ['0','.','4','1'] 16 ['1','d'],
  .full ['N','d'] [] ['K','M','2'] [' ','4','2','1','6','8','.','5',' ',' ',' ',' ',' ',' ',' ','1','.','9'] ['4','2','1','6','6','.','2','4'] ['0','.','5','7'] 16 ['5','d'],
  .full ['N','d'] [] ['K','M','3'] [' ','4','2','2','7','3','.','6',' ',' ',' ',' ',' ',' ',' ','1','.','8'] ['4','2','2','7','0','.','9','0'] ['0','.','5','7'] 16 ['5','d'],
  .full ['G','d'] [] ['K','L','2'] [' ','4','2','3','0','9','.','7',' ',' ',' ',' ',' ',' ',' ','1','.','3'] ['4','2','3','0','9','.','3','0'] ['0','.','4','3'] 16 ['1','d'],
  .short ['N','d'] [] ['K','M','5'] [' ','4','2','5','9','2','.','8',' ',' ',' ',' ',' ',' ',' ','1','.','5'],
  .full ['G','d'] [] ['K','L','3'] [' ','4','2','9','9','6','.','8',' ',' ',' ',' ',' ',' ',' ','1','.','2'] ['4','2','9','9','6','.','7','2'] ['0','.','4','4'] 16 ['1','d'],
  .full ['P','m'] [] ['K','M','2'] [' ','4','3','7','1','4','.','8',' ',' ',' ',' ',' ',' ',' ','2','.','0'] ['4','3','7','1','2','.','7'] ['9','.','1'] 17 ['1','d'],
  .full ['T','b'] [] ['K','L','2'] [' ','4','3','7','4','5','.','6',' ',' ',' ',' ',' ',' ',' ','1','.','3'] ['4','3','7','4','4','.','6','2'] ['0','.','4','6'] 16 ['1','d'],
  .full ['P','m'] [] ['K','M','3'] [' ','4','3','8','2','9','.','2',' ',' ',' ',' ',' ',' ',' ','1','.','9'] ['4','3','8','2','5','.','5'] ['6','.','9'] 17 ['1','d'],
  .short ['P','m'] [] ['K','M','5'] [' ','4','4','1','5','8','.','1',' ',' ',' ',' ',' ',' ',' ','1','.','6']]

/-- the lines of nist_xray_data.dat L860-919 with a measured energy -/
def main14T : List (XLine ℚ) := [⟨['S','n'], ['K','M','2'], 28444.43, 0.33⟩,
  ⟨['S','n'], ['K','M','3'], 28486.26, 0.33⟩,
  ⟨['I'], ['K','L','3'], 28612.32, 0.49⟩,
  ⟨['S','n'], ['K','M','5'], 28716.2, 3.0⟩,
  ⟨['X','e'], ['K','L','2'], 29458.250, 0.050⟩,
  ⟨['S','b'], ['K','M','2'], 29679.20, 0.29⟩,
  ⟨['S','b'], ['K','M','3'], 29725.53, 0.22⟩,
  ⟨['X','e'], ['K','L','3'], 29778.78, 0.10⟩,
  ⟨['S','b'], ['K','M','5'], 29963.3, 1.1⟩,
  ⟨['C','s'], ['K','L','2'], 30625.40, 0.45⟩,
  ⟨['T','e'], ['K','M','2'], 30944.60, 0.46⟩,
  ⟨['C','s'], ['K','L','3'], 30973.13, 0.46⟩,
  ⟨['T','e'], ['K','M','3'], 30995.97, 0.34⟩,
  ⟨['B','a'], ['K','L','2'], 31816.615, 0.060⟩,
  ⟨['B','a'], ['K','L','3'], 32193.262, 0.070⟩,
  ⟨['I'], ['K','M','2'], 32239.71, 0.50⟩,
  ⟨['I'], ['K','M','3'], 32295.05, 0.50⟩,
  ⟨['L','a'], ['K','L','2'], 33034.38, 0.26⟩,
  ⟨['L','a'], ['K','L','3'], 33442.12, 0.27⟩,
  ⟨['X','e'], ['K','M','2'], 33563.20, 0.12⟩,
  ⟨['X','e'], ['K','M','3'], 33624.23, 0.12⟩,
  ⟨['C','e'], ['K','L','2'], 34279.28, 0.28⟩,
  ⟨['C','e'], ['K','L','3'], 34720.00, 0.29⟩,
  ⟨['C','s'], ['K','M','2'], 34919.68, 0.58⟩,
  ⟨['C','s'], ['K','M','3'], 34987.3, 1.0⟩,
  ⟨['P','r'], ['K','L','2'], 35550.59, 0.30⟩,
  ⟨['P','r'], ['K','L','3'], 36026.71, 0.31⟩,
  ⟨['B','a'], ['K','M','2'], 36303.35, 0.12⟩,
  ⟨['B','a'], ['K','M','3'], 36377.445, 0.080⟩,
  ⟨['B','a'], ['K','M','5'], 36666.0, 3.2⟩,
  ⟨['N','d'], ['K','L','2'], 36847.502, 0.080⟩,
  ⟨['N','d'], ['K','L','3'], 37360.739, 0.070⟩,
  ⟨['L','a'], ['K','M','2'], 37720.60, 0.68⟩,
  ⟨['L','a'], ['K','M','3'], 37801.45, 0.51⟩,
  ⟨['L','a'], ['K','M','5'], 38094.5, 3.5⟩,
  ⟨['P','m'], ['K','L','2'], 38171.55, 0.70⟩,
  ⟨['P','m'], ['K','L','3'], 38725.11, 0.72⟩,
  ⟨['C','e'], ['K','M','2'], 39170.46, 0.73⟩,
  ⟨['C','e'], ['K','M','3'], 39257.77, 0.37⟩,
  ⟨['S','m'], ['K','L','2'], 39523.39, 0.10⟩,
  ⟨['C','e'], ['K','M','5'], 39557.9, 3.7⟩,
  ⟨['S','m'], ['K','L','3'], 40118.481, 0.060⟩,
  ⟨['P','r'], ['K','M','2'], 40653.27, 0.99⟩,
  ⟨['P','r'], ['K','M','3'], 40748.67, 0.79⟩,
  ⟨['E','u'], ['K','L','2'], 40902.33, 0.40⟩,
  ⟨['E','u'], ['K','L','3'], 41542.63, 0.41⟩,
  ⟨['N','d'], ['K','M','2'], 42166.24, 0.57⟩,
  ⟨['N','d'], ['K','M','3'], 42270.90, 0.57⟩,
  ⟨['G','d'], ['K','L','2'], 42309.30, 0.43⟩,
  ⟨['G','d'], ['K','L','3'], 42996.72, 0.44⟩,
  ⟨['P','m'], ['K','M','2'], 43712.7, 9.1⟩,
  ⟨['T','b'], ['K','L','2'], 43744.62, 0.46⟩,
  ⟨['P','m'], ['K','M','3'], 43825.5, 6.9⟩]

/-- nist_xray_data.dat L920-979 -/
def main15 : List Row := [.full ['T','b'] [] ['K','L','3'] [' ','4','4','4','8','2','.','9',' ',' ',' ',' ',' ',' ',' ','1','.','2'] ['4','4','4','8','2','.','7','5'] ['0','.','4','7'] 16 ['1','d'],
  .full ['D','y'] [] ['K','L','2'] [' ','4','5','2','0','9','.','1',' ',' ',' ',' ',' ',' ',' ','1','.','4'] ['4','5','2','0','8','.','2','7'] ['0','.','4','9'] 16 ['1','d'],
  .full ['S','m'] [] ['K','M','2'] [' ','4','5','2','9','3','.','9',' ',' ',' ',' ',' ',' ',' ','2','.','0'] ['4','5','2','8','8','.','6'] ['4','.','9'] 17 ['5','d'],
  .full ['S','m'] [] ['K','M','3'] [' ','4','5','4','1','8','.','1',' ',' ',' ',' ',' ',' ',' ','1','.','9'] ['4','5','4','1','3','.','0'] ['4','.','9'] 17 ['5','d'],
  .full ['S','m'] [] ['K','M','5'] [' ','4','5','7','5','6','.','9',' ',' ',' ',' ',' ',' ',' ','1','.','6'] ['4','5','7','3','1','.','4'] ['7','.','5'] 10 ['K','M','4',',','5',' ',' ','1','d'],
  .full ['D','y'] [] ['K','L','3'] [' ','4','5','9','9','9','.','4',' ',' ',' ',' ',' ',' ',' ','1','.','3'] ['4','5','9','9','8','.','9','4'] ['0','.','5','1'] 16 ['1','d'],
  .full ['H','o'] [] ['K','L','2'] [' ','4','6','7','0','1','.','0',' ',' ',' ',' ',' ',' ',' ','1','.','4'] ['4','6','6','9','9','.','9','8'] ['0','.','1','5'] 16 ['8','d'],
  .full ['E','u'] [] ['K','M','2'] [' ','4','6','9','0','6','.','5',' ',' ',' ',' ',' ',' ',' ','2','.','1'] ['4','6','9','0','4','.','0'] ['1','.','3'] 17 ['1','d'],
  .full ['E','u'] [] ['K','M','3'] [' ','4','7','0','4','0','.','8',' ',' ',' ',' ',' ',' ',' ','2','.','0'] ['4','7','0','3','8','.','4'] ['1','.','3'] 17 ['1','d'],
  .short ['E','u'] [] ['K','M','5'] [' ','4','7','3','8','9','.','4',' ',' ',' ',' ',' ',' ',' ','1','.','7'],
  .full ['H','o'] [] ['K','L','3'] [' ','4','7','5','4','7','.','5',' ',' ',' ',' ',' ',' ',' ','1','.','3'] ['4','7','5','4','7','.','1','0'] ['0','.','7','7'] 16 ['8','d'],
  .full ['E','r'] [] ['K','L','2'] [' ','4','8','2','2','3','.','0',' ',' ',' ',' ',' ',' ',' ','1','.','5'] ['4','8','2','2','1','.','6','1'] ['0','.','2','0'] 16 ['5','d'],
  .full ['G','d'] [] ['K','M','2'] [' ','4','8','5','5','0','.','5',' ',' ',' ',' ',' ',' ',' ','2','.','1'] ['4','8','5','5','5','.','8'] ['5','.','6'] 17 ['1','d'],
  .full ['G','d'] [] ['K','M','3'] [' ','4','8','6','9','5','.','7',' ',' ',' ',' ',' ',' ',' ','2','.','1'] ['4','8','6','9','6','.','9'] ['5','.','7'] 17 ['1','d'],
  .full ['G','d'] [] ['K','M','5'] [' ','4','9','0','5','4','.','6',' ',' ',' ',' ',' ',' ',' ','1','.','7'] ['4','9','0','5','3','.','3'] ['8','.','6'] 10 ['K','M','4',',','5',' ',' ','1','d'],
  .full ['E','r'] [] ['K','L','3'] [' ','4','9','1','2','8','.','7',' ',' ',' ',' ',' ',' ',' ','1','.','4'] ['4','9','1','2','7','.','2','4'] ['0','.','1','2'] 16 ['5','d'],
  .full ['T','m'] [] ['K','L','2'] [' ','4','9','7','7','3','.','8',' ',' ',' ',' ',' ',' ',' ','1','.','5'] ['4','9','7','7','2','.','6','7'] ['0','.','1','2'] 16 ['9','d'],
  .full ['T','b'] [] ['K','M','2'] [' ','5','0','2','3','3','.','0',' ',' ',' ',' ',' ',' ',' ','2','.','2'] ['5','0','2','2','9','.','8'] ['6','.','0'] 17 ['1','d'],
  .full ['T','b'] [] ['K','M','3'] [' ','5','0','3','8','9','.','1',' ',' ',' ',' ',' ',' ',' ','2','.','2'] ['5','0','3','8','2','.','9'] ['6','.','1'] 17 ['1','d'],
  .full ['T','m'] [] ['K','L','3'] [' ','5','0','7','4','2','.','2',' ',' ',' ',' ',' ',' ',' ','1','.','4'] ['5','0','7','4','1','.','4','7','5'] ['0','.','0','9','2'] 15 ['9','d'],
  .short ['T','b'] [] ['K','M','5'] [' ','5','0','7','5','7','.','8',' ',' ',' ',' ',' ',' ',' ','1','.','8'],
  .full ['Y','b'] [] ['K','L','2'] [' ','5','1','3','5','4','.','7',' ',' ',' ',' ',' ',' ',' ','1','.','6'] ['5','1','3','5','4','.','6','0'] ['0','.','6','3'] 16 ['1','d'],
  .full ['D','y'] [] ['K','M','2'] [' ','5','1','9','4','7','.','7',' ',' ',' ',' ',' ',' ',' ','2','.','3'] ['5','1','9','5','8','.','1'] ['6','.','4'] 17 ['1','d'],
  .full ['D','y'] [] ['K','M','3'] [' ','5','2','1','1','5','.','7',' ',' ',' ',' ',' ',' ',' ','2','.','3'] ['5','2','1','1','9','.','7'] ['6','.','5'] 17 ['1','d'],
  .full ['Y','b'] [] ['K','L','3'] [' ','5','2','3','8','9','.','1',' ',' ',' ',' ',' ',' ',' ','1','.','5'] ['5','2','3','8','9','.','4','8'] ['0','.','6','6'] 16 ['1','d'],
  .full ['D','y'] [] ['K','M','5'] [' ','5','2','4','9','4','.','8',' ',' ',' ',' ',' ',' ',' ','1','.','9'] ['5','2','4','9','4','.','8'] ['9','.','9'] 10 ['K','M','4',',','5',' ',' ','1','d'],
  .full ['L','u'] [] ['K','L','2'] [' ','5','2','9','6','5','.','3',' ',' ',' ',' ',' ',' ',' ','1','.','7'] ['5','2','9','6','5','.','5','7'] ['0','.','6','7'] 16 ['1','d'],
  .full ['H','o'] [] ['K','M','2'] [' ','5','3','6','9','6','.','9',' ',' ',' ',' ',' ',' ',' ','2','.','3'] ['5','3','7','1','1','.','3'] ['6','.','9'] 17 ['8','d'],
  .full ['H','o'] [] ['K','M','3'] [' ','5','3','8','7','7','.','5',' ',' ',' ',' ',' ',' ',' ','2','.','4'] ['5','3','8','7','7','.','1'] ['7','.','0'] 17 ['8','d'],
  .full ['L','u'] [] ['K','L','3'] [' ','5','4','0','6','9','.','5',' ',' ',' ',' ',' ',' ',' ','1','.','5'] ['5','4','0','7','0','.','3','9'] ['0','.','7','0'] 16 ['1','d'],
  .full ['H','o'] [] ['K','M','5'] [' ','5','4','2','6','7','.','1',' ',' ',' ',' ',' ',' ',' ','1','.','9'] ['5','4','2','4','7'] ['1','1'] 11 ['K','M','4',',','5',' ',' ','1','d'],
  .full ['H','f'] [] ['K','L','2'] [' ','5','4','6','0','6','.','4',' ',' ',' ',' ',' ',' ',' ','1','.','7'] ['5','4','6','1','2','.','0'] ['1','.','1'] 17 ['1','d'],
  .full ['E','r'] [] ['K','M','2'] [' ','5','5','4','8','2','.','3',' ',' ',' ',' ',' ',' ',' ','2','.','4'] ['5','5','4','7','9','.','7','2'] ['0','.','3','5'] 16 ['5','d'],
  .full ['E','r'] [] ['K','M','3'] [' ','5','5','6','7','6','.','3',' ',' ',' ',' ',' ',' ',' ','2','.','4'] ['5','5','6','7','3','.','5','2'] ['0','.','1','8'] 16 ['5','d'],
  .full ['H','f'] [] ['K','L','3'] [' ','5','5','7','8','4','.','1',' ',' ',' ',' ',' ',' ',' ','1','.','6'] ['5','5','7','9','0','.','8'] ['1','.','1'] 17 ['1','d'],
  .full ['E','r'] [] ['K','M','5'] [' ','5','6','0','7','6','.','6',' ',' ',' ',' ',' ',' ',' ','2','.','0'] ['5','6','0','4','0'] ['1','1'] 11 ['K','M','4',',','5',' ',' ','1','d'],
  .full ['T','a'] [] ['K','L','2'] [' ','5','6','2','7','8','.','7',' ',' ',' ',' ',' ',' ',' ','1','.','8'] ['5','6','2','7','7','.','6'] ['1','.','5'] 17 ['1','d'],
  .full ['T','m'] [] ['K','M','2'] [' ','5','7','3','0','2','.','8',' ',' ',' ',' ',' ',' ',' ','2','.','5'] ['5','7','3','0','3','.','0'] ['7','.','9'] 17 ['9','d'],
  .full ['T','m'] [] ['K','M','3'] [' ','5','7','5','1','1','.','0',' ',' ',' ',' ',' ',' ',' ','2','.','5'] ['5','7','5','0','8','.','7','6'] ['0','.','1','5'] 16 ['9','d'],
  .full ['T','a'] [] ['K','L','3'] [' ','5','7','5','3','3','.','9',' ',' ',' ',' ',' ',' ',' ','1','.','7'] ['5','7','5','3','3','.','2'] ['1','.','6'] 17 ['1','d'],
  .full ['T','m'] [] ['K','M','5'] [' ','5','7','9','2','2','.','3',' ',' ',' ',' ',' ',' ',' ','2','.','0'] ['5','7','9','2','4','.','8'] ['8','.','0'] 10 ['K','M','4',',','5',' ',' ','1','d'],
  .full ['W'] [] ['K','L','2'] [' ','5','7','9','8','1','.','9',' ',' ',' ',' ',' ',' ',' ','1','.','9'] ['5','7','9','8','1','.','7','7'] ['0','.','1','4'] 16 ['5',',','8','1','d'],
  .full ['Y','b'] [] ['K','M','2'] [' ','5','9','1','6','0','.','1',' ',' ',' ',' ',' ',' ',' ','2','.','6'] ['5','9','1','5','2'] ['4','2'] 18 ['1','d'],
  .full ['W'] [] ['K','L','3'] [' ','5','9','3','1','8','.','8',' ',' ',' ',' ',' ',' ',' ','1','.','7'] ['5','9','3','1','8','.','8','4','7'] ['0','.','0','5','0'] 15 ['5','d'],
  .full ['Y','b'] [] ['K','M','3'] [' ','5','9','3','8','3','.','3',' ',' ',' ',' ',' ',' ',' ','2','.','7'] ['5','9','3','6','7','.','1'] ['8','.','4'] 17 ['1','d'],
  .full ['R','e'] [] ['K','L','2'] [' ','5','9','7','1','8','.','3',' ',' ',' ',' ',' ',' ',' ','1','.','9'] ['5','9','7','1','8','.','5','7'] ['0','.','4','3'] 16 ['1','d'],
  .full ['Y','b'] [] ['K','M','5'] [' ','5','9','8','0','5','.','4',' ',' ',' ',' ',' ',' ',' ','2','.','1'] ['5','9','7','8','2','.','2'] ['8','.','5'] 10 ['K','M','4',',','5',' ',' ','1','d'],
  .full ['L','u'] [] ['K','M','2'] [' ','6','1','0','5','1','.','8',' ',' ',' ',' ',' ',' ',' ','2','.','7'] ['6','1','0','4','8'] ['1','8'] 18 ['1','d'],
  .full ['R','e'] [] ['K','L','3'] [' ','6','1','1','4','1','.','2',' ',' ',' ',' ',' ',' ',' ','1','.','8'] ['6','1','1','4','1','.','0','0'] ['0','.','8','9'] 16 ['1','d'],
  .full ['L','u'] [] ['K','M','3'] [' ','6','1','2','9','1','.','2',' ',' ',' ',' ',' ',' ',' ','2','.','7'] ['6','1','2','8','3'] ['1','3'] 18 ['1','d'],
  .full ['O','s'] [] ['K','L','2'] [' ','6','1','4','8','6','.','6',' ',' ',' ',' ',' ',' ',' ','2','.','0'] ['6','1','4','8','7','.','2','7'] ['0','.','9','0'] 16 ['1','d'],
  .full ['L','u'] [] ['K','M','5'] [' ','6','1','7','2','5','.','3',' ',' ',' ',' ',' ',' ',' ','2','.','2'] ['6','1','7','3','1','.','9'] ['9','.','1'] 10 ['K','M','4',',','5',' ',' ','1','d'],
  .full ['H','f'] [] ['K','M','2'] [' ','6','2','9','8','0','.','8',' ',' ',' ',' ',' ',' ',' ','2','.','7'] ['6','2','9','8','0'] ['1','9'] 18 ['1','d'],
  .full ['O','s'] [] ['K','L','3'] [' ','6','2','9','9','9','.','9',' ',' ',' ',' ',' ',' ',' ','1','.','9'] ['6','3','0','0','1','.','0','7'] ['0','.','9','5'] 16 ['1','d'],
  .full ['H','f'] [] ['K','M','3'] [' ','6','3','2','3','7','.','2',' ',' ',' ',' ',' ',' ',' ','2','.','8'] ['6','3','2','3','4'] ['1','4'] 18 ['1','d'],
  .full ['I','r'] [] ['K','L','2'] [' ','6','3','2','8','8','.','1',' ',' ',' ',' ',' ',' ',' ','2','.','1'] ['6','3','2','8','7','.','2','9'] ['0','.','9','6'] 16 ['1','d'],
  .short ['H','f'] [] ['K','M','5'] [' ','6','3','6','8','3','.','2',' ',' ',' ',' ',' ',' ',' ','2','.','2'],
  .full ['I','r'] [] ['K','L','3'] [' ','6','4','8','9','6','.','5',' ',' ',' ',' ',' ',' ',' ','2','.','0'] ['6','4','8','9','6','.','2'] ['1','.','0'] 17 ['1','d'],
  .full ['T','a'] [] ['K','M','2'] [' ','6','4','9','4','7','.','7',' ',' ',' ',' ',' ',' ',' ','2','.','8'] ['6','4','9','4','9','.','6'] ['1','.','0'] 17 ['1','d'],
  .full ['P','t'] [] ['K','L','2'] [' ','6','5','1','2','2','.','6',' ',' ',' ',' ',' ',' ',' ','2','.','1'] ['6','5','1','2','3','.','3'] ['2','.','0'] 17 ['1','d']]

/-- the lines of nist_xray_data.dat L920-979 with a measured energy -/
def main15T : List (XLine ℚ) := [⟨['T','b'], ['K','L','3'], 44482.75, 0.47⟩,
  ⟨['D','y'], ['K','L','2'], 45208.27, 0.49⟩,
  ⟨['S','m'], ['K','M','2'], 45288.6, 4.9⟩,
  ⟨['S','m'], ['K','M','3'], 45413.0, 4.9⟩,
  ⟨['S','m'], ['K','M','5'], 45731.4, 7.5⟩,
  ⟨['D','y'], ['K','L','3'], 45998.94, 0.51⟩,
  ⟨['H','o'], ['K','L','2'], 46699.98, 0.15⟩,
  ⟨['E','u'], ['K','M','2'], 46904.0, 1.3⟩,
  ⟨['E','u'], ['K','M','3'], 47038.4, 1.3⟩,
  ⟨['H','o'], ['K','L','3'], 47547.10, 0.77⟩,
  ⟨['E','r'], ['K','L','2'], 48221.61, 0.20⟩,
  ⟨['G','d'], ['K','M','2'], 48555.8, 5.6⟩,
  ⟨['G','d'], ['K','M','3'], 48696.9, 5.7⟩,
  ⟨['G','d'], ['K','M','5'], 49053.3, 8.6⟩,
  ⟨['E','r'], ['K','L','3'], 49127.24, 0.12⟩,
  ⟨['T','m'], ['K','L','2'], 49772.67, 0.12⟩,
  ⟨['T','b'], ['K','M','2'], 50229.8, 6.0⟩,
  ⟨['T','b'], ['K','M','3'], 50382.9, 6.1⟩,
  ⟨['T','m'], ['K','L','3'], 50741.475, 0.092⟩,
  ⟨['Y','b'], ['K','L','2'], 51354.60, 0.63⟩,
  ⟨['D','y'], ['K','M','2'], 51958.1, 6.4⟩,
  ⟨['D','y'], ['K','M','3'], 52119.7, 6.5⟩,
  ⟨['Y','b'], ['K','L','3'], 52389.48, 0.66⟩,
  ⟨['D','y'], ['K','M','5'], 52494.8, 9.9⟩,
  ⟨['L','u'], ['K','L','2'], 52965.57, 0.67⟩,
  ⟨['H','o'], ['K','M','2'], 53711.3, 6.9⟩,
  ⟨['H','o'], ['K','M','3'], 53877.1, 7.0⟩,
  ⟨['L','u'], ['K','L','3'], 54070.39, 0.70⟩,
  ⟨['H','o'], ['K','M','5'], 54247, 11⟩,
  ⟨['H','f'], ['K','L','2'], 54612.0, 1.1⟩,
  ⟨['E','r'], ['K','M','2'], 55479.72, 0.35⟩,
  ⟨['E','r'], ['K','M','3'], 55673.52, 0.18⟩,
  ⟨['H','f'], ['K','L','3'], 55790.8, 1.1⟩,
  ⟨['E','r'], ['K','M','5'], 56040, 11⟩,
  ⟨['T','a'], ['K','L','2'], 56277.6, 1.5⟩,
  ⟨['T','m'], ['K','M','2'], 57303.0, 7.9⟩,
  ⟨['T','m'], ['K','M','3'], 57508.76, 0.15⟩,
  ⟨['T','a'], ['K','L','3'], 57533.2, 1.6⟩,
  ⟨['T','m'], ['K','M','5'], 57924.8, 8.0⟩,
  ⟨['W'], ['K','L','2'], 57981.77, 0.14⟩,
  ⟨['Y','b'], ['K','M','2'], 59152, 42⟩,
  ⟨['W'], ['K','L','3'], 59318.847, 0.050⟩,
  ⟨['Y','b'], ['K','M','3'], 59367.1, 8.4⟩,
  ⟨['R','e'], ['K','L','2'], 59718.57, 0.43⟩,
  ⟨['Y','b'], ['K','M','5'], 59782.2, 8.5⟩,
  ⟨['L','u'], ['K','M','2'], 61048, 18⟩,
  ⟨['R','e'], ['K','L','3'], 61141.00, 0.89⟩,
  ⟨['L','u'], ['K','M','3'], 61283, 13⟩,
  ⟨['O','s'], ['K','L','2'], 61487.27, 0.90⟩,
  ⟨['L','u'], ['K','M','5'], 61731.9, 9.1⟩,
  ⟨['H','f'], ['K','M','2'], 62980, 19⟩,
  ⟨['O','s'], ['K','L','3'], 63001.07, 0.95⟩,
  ⟨['H','f'], ['K','M','3'], 63234, 14⟩,
  ⟨['I','r'], ['K','L','2'], 63287.29, 0.96⟩,
  ⟨['I','r'], ['K','L','3'], 64896.2, 1.0⟩,
  ⟨['T','a'], ['K','M','2'], 64949.6, 1.0⟩,
  ⟨['P','t'], ['K','L','2'], 65123.3, 2.0⟩]

/-- nist_xray_data.dat L980-1039 -/
def main16 : List Row := [.full ['T','a'] [] ['K','M','3'] [' ','6','5','2','2','2','.','1',' ',' ',' ',' ',' ',' ',' ','2','.','9'] ['6','5','2','2','3','.','3'] ['2','.','0'] 17 ['1','d'],
  .full ['T','a'] [] ['K','M','5'] [' ','6','5','6','8','0','.','4',' ',' ',' ',' ',' ',' ',' ','2','.','3'] ['6','5','6','8','3','.','6'] ['3','.','1'] 17 ['1','d'],
  .full ['P','t'] [] ['K','L','3'] [' ','6','6','8','3','1','.','1',' ',' ',' ',' ',' ',' ',' ','2','.','0'] ['6','6','8','3','2','.','9'] ['2','.','1'] 17 ['1','d'],
  .full ['W'] [] ['K','M','2'] [' ','6','6','9','5','2','.','1',' ',' ',' ',' ',' ',' ',' ','2','.','9'] ['6','6','9','5','2','.','1','9'] ['0','.','2','5'] 16 ['5',',','8','1','d'],
  .full ['A','u'] [] ['K','L','2'] [' ','6','6','9','9','3','.','0',' ',' ',' ',' ',' ',' ',' ','2','.','3'] ['6','6','9','9','0','.','7','3'] ['0','.','2','2'] 16 ['5','d'],
  .full ['W'] [] ['K','M','3'] [' ','6','7','2','4','5','.','6',' ',' ',' ',' ',' ',' ',' ','3','.','0'] ['6','7','2','4','5','.','0'] ['1','.','1'] 17 ['5','d'],
  .full ['W'] [] ['K','M','5'] [' ','6','7','7','1','6','.','4',' ',' ',' ',' ',' ',' ',' ','2','.','4'] ['6','7','7','1','5','.','9'] ['3','.','8'] 17 ['1','d'],
  .full ['A','u'] [] ['K','L','3'] [' ','6','8','8','0','6','.','9',' ',' ',' ',' ',' ',' ',' ','2','.','2'] ['6','8','8','0','4','.','5','0'] ['0','.','1','8'] 16 ['5','d'],
  .full ['H','g'] [] ['K','L','2'] [' ','6','8','8','9','4','.','3',' ',' ',' ',' ',' ',' ',' ','2','.','3'] ['6','8','8','9','5','.','1'] ['1','.','7'] 17 ['1','d'],
  .full ['R','e'] [] ['K','M','2'] [' ','6','8','9','9','6','.','8',' ',' ',' ',' ',' ',' ',' ','3','.','0'] ['6','8','9','9','5','.','2'] ['1','.','7'] 17 ['1','d'],
  .full ['R','e'] [] ['K','M','3'] [' ','6','9','3','1','0','.','4',' ',' ',' ',' ',' ',' ',' ','3','.','2'] ['6','9','3','1','0','.','3'] ['1','.','7'] 17 ['1','d'],
  .full ['R','e'] [] ['K','M','5'] [' ','6','9','7','9','3','.','9',' ',' ',' ',' ',' ',' ',' ','2','.','5'] ['6','9','7','8','6','.','3'] ['5','.','8'] 17 ['1','d'],
  .full ['H','g'] [] ['K','L','3'] [' ','7','0','8','1','9','.','0',' ',' ',' ',' ',' ',' ',' ','2','.','2'] ['7','0','8','1','9','.','5'] ['1','.','8'] 17 ['1','d'],
  .full ['T','l'] [] ['K','L','2'] [' ','7','0','8','3','2','.','7',' ',' ',' ',' ',' ',' ',' ','2','.','4'] ['7','0','8','3','2','.','5'] ['1','.','2'] 17 ['1','d'],
  .full ['O','s'] [] ['K','M','2'] [' ','7','1','0','8','0','.','5',' ',' ',' ',' ',' ',' ',' ','3','.','1'] ['7','1','0','7','8','.','1'] ['1','.','8'] 17 ['1','d'],
  .full ['O','s'] [] ['K','M','3'] [' ','7','1','4','1','5','.','3',' ',' ',' ',' ',' ',' ',' ','3','.','3'] ['7','1','4','1','3','.','9'] ['1','.','8'] 17 ['1','d'],
  .full ['O','s'] [] ['K','M','5'] [' ','7','1','9','1','1','.','8',' ',' ',' ',' ',' ',' ',' ','2','.','6'] ['7','1','8','9','4','.','7'] ['6','.','2'] 17 ['1','d'],
  .full ['P','b'] [] ['K','L','2'] [' ','7','2','8','0','6','.','6',' ',' ',' ',' ',' ',' ',' ','2','.','5'] ['7','2','8','0','5','.','4','2'] ['0','.','2','4'] 16 ['5','d'],
  .full ['T','l'] [] ['K','L','3'] [' ','7','2','8','7','3','.','8',' ',' ',' ',' ',' ',' ',' ','2','.','3'] ['7','2','8','7','2','.','5'] ['1','.','3'] 17 ['1','d'],
  .full ['I','r'] [] ['K','M','2'] [' ','7','3','2','0','4','.','6',' ',' ',' ',' ',' ',' ',' ','3','.','2'] ['7','3','2','0','3','.','4'] ['1','.','3'] 17 ['1','d'],
  .full ['I','r'] [] ['K','M','3'] [' ','7','3','5','6','1','.','8',' ',' ',' ',' ',' ',' ',' ','3','.','4'] ['7','3','5','6','1','.','7'] ['1','.','3'] 17 ['1','d'],
  .full ['I','r'] [] ['K','M','5'] [' ','7','4','0','7','1','.','6',' ',' ',' ',' ',' ',' ',' ','2','.','8'] ['7','4','0','7','5','.','5'] ['5','.','9'] 17 ['1','d'],
  .full ['B','i'] ['2','0','9'] ['K','L','2'] [' ','7','4','8','1','6','.','8',' ',' ',' ',' ',' ',' ',' ','2','.','6'] ['7','4','8','1','6','.','2','1'] ['0','.','9','2'] 16 ['8','d'],
  .full ['P','b'] [] ['K','L','3'] [' ','7','4','9','7','0','.','2',' ',' ',' ',' ',' ',' ',' ','2','.','4'] ['7','4','9','7','0','.','1','1'] ['0','.','1','7'] 16 ['5','d'],
  .full ['P','t'] [] ['K','M','2'] [' ','7','5','3','6','9','.','1',' ',' ',' ',' ',' ',' ',' ','3','.','3'] ['7','5','3','6','8','.','7'] ['2','.','0'] 17 ['1','d'],
  .full ['P','t'] [] ['K','M','3'] [' ','7','5','7','4','9','.','9',' ',' ',' ',' ',' ',' ',' ','3','.','4'] ['7','5','7','4','9','.','1'] ['2','.','1'] 17 ['1','d'],
  .full ['P','t'] [] ['K','M','5'] [' ','7','6','2','7','3','.','4',' ',' ',' ',' ',' ',' ',' ','2','.','7'] ['7','6','2','7','3'] ['2','1'] 18 ['1','d'],
  .full ['P','o'] ['2','0','9'] ['K','L','2'] [' ','7','6','8','6','4','.','1',' ',' ',' ',' ',' ',' ',' ','2','.','7'] ['7','6','8','6','4','.','4'] ['7','.','1'] 17 ['1','d'],
  .full ['B','i'] ['2','0','9'] ['K','L','3'] [' ','7','7','1','0','8','.','9',' ',' ',' ',' ',' ',' ',' ','2','.','5'] ['7','7','1','0','9','.','2'] ['2','.','2'] 17 ['8','d'],
  .full ['A','u'] [] ['K','M','2'] [' ','7','7','5','7','7','.','3',' ',' ',' ',' ',' ',' ',' ','3','.','5'] ['7','7','5','7','5','.','0','1'] ['0','.','6','1'] 16 ['5','d'],
  .full ['A','u'] [] ['K','M','3'] [' ','7','7','9','8','3','.','0',' ',' ',' ',' ',' ',' ',' ','3','.','7'] ['7','7','9','7','9','.','8','0'] ['0','.','3','8'] 16 ['5','d'],
  .full ['A','u'] [] ['K','M','5'] [' ','7','8','5','2','0','.','3',' ',' ',' ',' ',' ',' ',' ','2','.','9'] ['7','8','5','2','9','.','5'] ['3','.','7'] 17 ['1','d'],
  .full ['A','t'] ['2','1','0'] ['K','L','2'] [' ','7','8','9','4','8','.','5',' ',' ',' ',' ',' ',' ',' ','2','.','8'] ['7','8','9','4','4'] ['1','5'] 18 ['1','d'],
  .full ['P','o'] ['2','0','9'] ['K','L','3'] [' ','7','9','2','9','1','.','2',' ',' ',' ',' ',' ',' ',' ','2','.','6'] ['7','9','2','9','2','.','9'] ['7','.','5'] 17 ['1','d'],
  .full ['H','g'] [] ['K','M','2'] [' ','7','9','8','2','4','.','1',' ',' ',' ',' ',' ',' ',' ','3','.','6'] ['7','9','8','2','3','.','3'] ['2','.','3'] 17 ['1','d'],
  .full ['H','g'] [] ['K','M','3'] [' ','8','0','2','5','6','.','1',' ',' ',' ',' ',' ',' ',' ','3','.','7'] ['8','0','2','5','4','.','2'] ['2','.','3'] 17 ['1','d'],
  .full ['H','g'] [] ['K','M','5'] [' ','8','0','8','0','7','.','6',' ',' ',' ',' ',' ',' ',' ','2','.','9'] ['8','0','7','5','4'] ['1','6'] 11 ['K','M','4',',','5',' ',' ','1','d'],
  .full ['R','n'] ['2','2','2'] ['K','L','2'] [' ','8','1','0','7','0','.','7',' ',' ',' ',' ',' ',' ',' ','3','.','0'] ['8','1','0','6','6'] ['2','4'] 18 ['1','d'],
  .full ['A','t'] ['2','1','0'] ['K','L','3'] [' ','8','1','5','1','7','.','4',' ',' ',' ',' ',' ',' ',' ','2','.','7'] ['8','1','5','1','4'] ['1','6'] 18 ['1','d'],
  .full ['T','l'] [] ['K','M','2'] [' ','8','2','1','1','6','.','0',' ',' ',' ',' ',' ',' ',' ','3','.','7'] ['8','2','1','1','8','.','4'] ['4','.','8'] 17 ['1','d'],
  .full ['T','l'] [] ['K','M','3'] [' ','8','2','5','7','5','.','6',' ',' ',' ',' ',' ',' ',' ','3','.','8'] ['8','2','5','7','6','.','7'] ['4','.','1'] 17 ['1','d'],
  .full ['T','l'] [] ['K','M','5'] [' ','8','3','1','4','1','.','7',' ',' ',' ',' ',' ',' ',' ','3','.','0'] ['8','3','1','1','4','.','8'] ['8','.','2'] 10 ['K','M','4',',','5',' ',' ','1','d'],
  .full ['F','r'] ['2','2','3'] ['K','L','2'] [' ','8','3','2','3','3','.','3',' ',' ',' ',' ',' ',' ',' ','3','.','1'] ['8','3','2','3','2'] ['2','5'] 18 ['1','d'],
  .full ['R','n'] ['2','2','2'] ['K','L','3'] [' ','8','3','7','8','8','.','6',' ',' ',' ',' ',' ',' ',' ','2','.','8'] ['8','3','7','8','3'] ['2','5'] 18 ['1','d'],
  .full ['P','b'] [] ['K','M','2'] [' ','8','4','4','5','1','.','8',' ',' ',' ',' ',' ',' ',' ','3','.','8'] ['8','4','4','5','0','.','4','5'] ['0','.','6','0'] 16 ['5','d'],
  .full ['P','b'] [] ['K','M','3'] [' ','8','4','9','4','0','.','3',' ',' ',' ',' ',' ',' ',' ','3','.','9'] ['8','4','9','3','9','.','0','8'] ['0','.','3','4'] 16 ['5','d'],
  .full ['R','a'] ['2','2','6'] ['K','L','2'] [' ','8','5','4','3','5','.','1',' ',' ',' ',' ',' ',' ',' ','3','.','2'] ['8','5','4','3','6'] ['1','2'] 18 ['1','0','d'],
  .full ['P','b'] [] ['K','M','5'] [' ','8','5','5','2','1','.','4',' ',' ',' ',' ',' ',' ',' ','3','.','1'] ['8','5','5','3','5'] ['2','6'] 18 ['1','d'],
  .full ['F','r'] ['2','2','3'] ['K','L','3'] [' ','8','6','1','0','7','.','4',' ',' ',' ',' ',' ',' ',' ','3','.','0'] ['8','6','1','0','5'] ['2','7'] 18 ['1','d'],
  .full ['B','i'] ['2','0','9'] ['K','M','2'] [' ','8','6','8','3','1','.','9',' ',' ',' ',' ',' ',' ',' ','3','.','9'] ['8','6','8','3','5','.','7'] ['6','.','7'] 17 ['8','d'],
  .full ['B','i'] ['2','0','9'] ['K','M','3'] [' ','8','7','3','5','1','.','4',' ',' ',' ',' ',' ',' ',' ','4','.','1'] ['8','7','3','4','4','.','1'] ['3','.','3'] 17 ['8','d'],
  .full ['A','c'] ['2','2','7'] ['K','L','2'] [' ','8','7','6','7','8','.','2',' ',' ',' ',' ',' ',' ',' ','3','.','3'] ['8','7','6','7','6'] ['1','8'] 18 ['1','d'],
  .full ['B','i'] ['2','0','9'] ['K','M','5'] [' ','8','7','9','4','7','.','6',' ',' ',' ',' ',' ',' ',' ','3','.','2'] ['8','7','8','6','2','.','2'] ['9','.','2'] 10 ['K','M','4',',','5',' ',' ','1','d'],
  .full ['R','a'] ['2','2','6'] ['K','L','3'] [' ','8','8','4','7','3','.','4',' ',' ',' ',' ',' ',' ',' ','3','.','0'] ['8','8','4','7','6'] ['1','2'] 18 ['1','0','d'],
  .full ['P','o'] ['2','0','9'] ['K','M','2'] [' ','8','9','2','5','7','.','9',' ',' ',' ',' ',' ',' ',' ','4','.','1'] ['8','9','2','4','7'] ['1','9'] 18 ['1','d'],
  .full ['P','o'] ['2','0','9'] ['K','M','3'] [' ','8','9','8','0','9','.','8',' ',' ',' ',' ',' ',' ',' ','4','.','2'] ['8','9','7','9','7'] ['1','9'] 18 ['1','d'],
  .full ['T','h'] ['2','3','2'] ['K','L','2'] [' ','8','9','9','5','6','.','6',' ',' ',' ',' ',' ',' ',' ','3','.','5'] ['8','9','9','5','7','.','0','4'] ['0','.','2','0'] 16 ['5','d'],
  .short ['P','o'] ['2','0','9'] ['K','M','5'] [' ','9','0','4','2','1','.','5',' ',' ',' ',' ',' ',' ',' ','3','.','3'],
  .full ['A','c'] ['2','2','7'] ['K','L','3'] [' ','9','0','8','8','8','.','8',' ',' ',' ',' ',' ',' ',' ','3','.','2'] ['9','0','8','8','4','.','8'] ['7','.','9'] 17 ['1','d'],
  .full ['A','t'] ['2','1','0'] ['K','M','2'] [' ','9','1','7','2','9','.','9',' ',' ',' ',' ',' ',' ',' ','4','.','2'] ['9','1','7','2','3'] ['4','0'] 18 ['1','d']]

/-- the lines of nist_xray_data.dat L980-1039 with a measured energy -/
def main16T : List (XLine ℚ) := [⟨['T','a'], ['K','M','3'], 65223.3, 2.0⟩,
  ⟨['T','a'], ['K','M','5'], 65683.6, 3.1⟩,
  ⟨['P','t'], ['K','L','3'], 66832.9, 2.1⟩,
  ⟨['W'], ['K','M','2'], 66952.19, 0.25⟩,
  ⟨['A','u'], ['K','L','2'], 66990.73, 0.22⟩,
  ⟨['W'], ['K','M','3'], 67245.0, 1.1⟩,
  ⟨['W'], ['K','M','5'], 67715.9, 3.8⟩,
  ⟨['A','u'], ['K','L','3'], 68804.50, 0.18⟩,
  ⟨['H','g'], ['K','L','2'], 68895.1, 1.7⟩,
  ⟨['R','e'], ['K','M','2'], 68995.2, 1.7⟩,
  ⟨['R','e'], ['K','M','3'], 69310.3, 1.7⟩,
  ⟨['R','e'], ['K','M','5'], 69786.3, 5.8⟩,
  ⟨['H','g'], ['K','L','3'], 70819.5, 1.8⟩,
  ⟨['T','l'], ['K','L','2'], 70832.5, 1.2⟩,
  ⟨['O','s'], ['K','M','2'], 71078.1, 1.8⟩,
  ⟨['O','s'], ['K','M','3'], 71413.9, 1.8⟩,
  ⟨['O','s'], ['K','M','5'], 71894.7, 6.2⟩,
  ⟨['P','b'], ['K','L','2'], 72805.42, 0.24⟩,
  ⟨['T','l'], ['K','L','3'], 72872.5, 1.3⟩,
  ⟨['I','r'], ['K','M','2'], 73203.4, 1.3⟩,
  ⟨['I','r'], ['K','M','3'], 73561.7, 1.3⟩,
  ⟨['I','r'], ['K','M','5'], 74075.5, 5.9⟩,
  ⟨['B','i'], ['K','L','2'], 74816.21, 0.92⟩,
  ⟨['P','b'], ['K','L','3'], 74970.11, 0.17⟩,
  ⟨['P','t'], ['K','M','2'], 75368.7, 2.0⟩,
  ⟨['P','t'], ['K','M','3'], 75749.1, 2.1⟩,
  ⟨['P','t'], ['K','M','5'], 76273, 21⟩,
  ⟨['P','o'], ['K','L','2'], 76864.4, 7.1⟩,
  ⟨['B','i'], ['K','L','3'], 77109.2, 2.2⟩,
  ⟨['A','u'], ['K','M','2'], 77575.01, 0.61⟩,
  ⟨['A','u'], ['K','M','3'], 77979.80, 0.38⟩,
  ⟨['A','u'], ['K','M','5'], 78529.5, 3.7⟩,
  ⟨['A','t'], ['K','L','2'], 78944, 15⟩,
  ⟨['P','o'], ['K','L','3'], 79292.9, 7.5⟩,
  ⟨['H','g'], ['K','M','2'], 79823.3, 2.3⟩,
  ⟨['H','g'], ['K','M','3'], 80254.2, 2.3⟩,
  ⟨['H','g'], ['K','M','5'], 80754, 16⟩,
  ⟨['R','n'], ['K','L','2'], 81066, 24⟩,
  ⟨['A','t'], ['K','L','3'], 81514, 16⟩,
  ⟨['T','l'], ['K','M','2'], 82118.4, 4.8⟩,
  ⟨['T','l'], ['K','M','3'], 82576.7, 4.1⟩,
  ⟨['T','l'], ['K','M','5'], 83114.8, 8.2⟩,
  ⟨['F','r'], ['K','L','2'], 83232, 25⟩,
  ⟨['R','n'], ['K','L','3'], 83783, 25⟩,
  ⟨['P','b'], ['K','M','2'], 84450.45, 0.60⟩,
  ⟨['P','b'], ['K','M','3'], 84939.08, 0.34⟩,
  ⟨['R','a'], ['K','L','2'], 85436, 12⟩,
  ⟨['P','b'], ['K','M','5'], 85535, 26⟩,
  ⟨['F','r'], ['K','L','3'], 86105, 27⟩,
  ⟨['B','i'], ['K','M','2'], 86835.7, 6.7⟩,
  ⟨['B','i'], ['K','M','3'], 87344.1, 3.3⟩,
  ⟨['A','c'], ['K','L','2'], 87676, 18⟩,
  ⟨['B','i'], ['K','M','5'], 87862.2, 9.2⟩,
  ⟨['R','a'], ['K','L','3'], 88476, 12⟩,
  ⟨['P','o'], ['K','M','2'], 89247, 19⟩,
  ⟨['P','o'], ['K','M','3'], 89797, 19⟩,
  ⟨['T','h'], ['K','L','2'], 89957.04, 0.20⟩,
  ⟨['A','c'], ['K','L','3'], 90884.8, 7.9⟩,
  ⟨['A','t'], ['K','M','2'], 91723, 40⟩]

/-- nist_xray_data.dat L1040-1058 -/
def main17 : List Row := [.full ['P','a'] ['2','3','1'] ['K','L','2'] [' ','9','2','2','8','3','.','5',' ',' ',' ',' ',' ',' ',' ','3','.','6'] ['9','2','2','8','3','.','4'] ['2','.','0'] 17 ['1','0','d'],
  .full ['A','t'] ['2','1','0'] ['K','M','3'] [' ','9','2','3','1','5','.','8',' ',' ',' ',' ',' ',' ',' ','4','.','4'] ['9','2','3','0','4'] ['4','1'] 18 ['1','d'],
  .short ['A','t'] ['2','1','0'] ['K','M','5'] [' ','9','2','9','4','3','.','4',' ',' ',' ',' ',' ',' ',' ','3','.','5'],
  .full ['T','h'] ['2','3','2'] ['K','L','3'] [' ','9','3','3','4','7','.','9',' ',' ',' ',' ',' ',' ',' ','3','.','3'] ['9','3','3','4','7','.','3','8'] ['0','.','2','5'] 16 ['5','d'],
  .full ['R','n'] ['2','2','2'] ['K','M','2'] [' ','9','4','2','4','8','.','8',' ',' ',' ',' ',' ',' ',' ','4','.','4'] ['9','4','2','4','7'] ['5','3'] 18 ['1','d'],
  .full ['U'] ['2','3','8'] ['K','L','2'] [' ','9','4','6','5','3','.','1',' ',' ',' ',' ',' ',' ',' ','3','.','7'] ['9','4','6','5','0','.','8','4'] ['0','.','5','6'] 16 ['5','d'],
  .full ['U'] ['2','3','3'] ['K','L','2'] [' ','9','4','6','5','5','.','1',' ',' ',' ',' ',' ',' ',' ','3','.','7'] ['9','4','6','5','2','.','7','8'] ['0','.','7','0'] 16 ['9','d'],
  .full ['R','n'] ['2','2','2'] ['K','M','3'] [' ','9','4','8','7','0','.','2',' ',' ',' ',' ',' ',' ',' ','4','.','4'] ['9','4','8','6','7'] ['5','4'] 18 ['1','d'],
  .short ['R','n'] ['2','2','2'] ['K','M','5'] [' ','9','5','5','1','4','.','5',' ',' ',' ',' ',' ',' ',' ','3','.','6'],
  .full ['P','a'] ['2','3','1'] ['K','L','3'] [' ','9','5','8','6','4','.','8',' ',' ',' ',' ',' ',' ',' ','3','.','4'] ['9','5','8','6','6','.','4'] ['2','.','0'] 17 ['1','0','d'],
  .full ['F','r'] ['2','2','3'] ['K','M','2'] [' ','9','6','8','1','7','.','3',' ',' ',' ',' ',' ',' ',' ','4','.','6'] ['9','6','8','0','8'] ['5','6'] 18 ['1','d'],
  .full ['N','p'] ['2','3','7'] ['K','L','2'] [' ','9','7','0','6','7','.','6',' ',' ',' ',' ',' ',' ',' ','3','.','9'] ['9','7','0','6','8','.','4'] ['3','.','0'] 17 ['1','0','d'],
  .full ['F','r'] ['2','2','3'] ['K','M','3'] [' ','9','7','4','7','6','.','7',' ',' ',' ',' ',' ',' ',' ','4','.','7'] ['9','7','4','7','8'] ['5','7'] 18 ['1','d'],
  .short ['F','r'] ['2','2','3'] ['K','M','5'] [' ','9','8','1','3','7','.','4',' ',' ',' ',' ',' ',' ',' ','3','.','8'],
  .full ['U'] ['2','3','8'] ['K','L','3'] [' ','9','8','4','3','3','.','6',' ',' ',' ',' ',' ',' ',' ','3','.','6'] ['9','8','4','3','1','.','5','8'] ['0','.','2','8'] 16 ['5','d'],
  .full ['U'] ['2','3','3'] ['K','L','3'] [' ','9','8','4','3','5','.','6',' ',' ',' ',' ',' ',' ',' ','3','.','6'] ['9','8','4','3','3','.','7','5'] ['0','.','6','0'] 16 ['9','d'],
  .full ['R','a'] ['2','2','6'] ['K','M','2'] [' ','9','9','4','3','4','.','7',' ',' ',' ',' ',' ',' ',' ','4','.','6'] ['9','9','4','3','4'] ['1','2'] 18 ['1','0','d'],
  .full ['P','u'] ['2','4','4'] ['K','L','2'] [' ','9','9','5','2','4','.','7',' ',' ',' ',' ',' ',' ',' ','4','.','0'] ['9','9','5','2','9','.','4'] ['2','.','0'] 17 ['1','0','d'],
  .full ['P','u'] ['2','3','9'] ['K','L','2'] [' ','9','9','5','2','6','.','0',' ',' ',' ',' ',' ',' ',' ','4','.','0'] ['9','9','5','2','3','.','2'] ['1','.','2'] 17 ['9','d']]

/-- the lines of nist_xray_data.dat L1040-1058 with a measured energy -/
def main17T : List (XLine ℚ) := [⟨['P','a'], ['K','L','2'], 92283.4, 2.0⟩,
  ⟨['A','t'], ['K','M','3'], 92304, 41⟩,
  ⟨['T','h'], ['K','L','3'], 93347.38, 0.25⟩,
  ⟨['R','n'], ['K','M','2'], 94247, 53⟩,
  ⟨['U'], ['K','L','2'], 94650.84, 0.56⟩,
  ⟨['U'], ['K','L','2'], 94652.78, 0.70⟩,
  ⟨['R','n'], ['K','M','3'], 94867, 54⟩,
  ⟨['P','a'], ['K','L','3'], 95866.4, 2.0⟩,
  ⟨['F','r'], ['K','M','2'], 96808, 56⟩,
  ⟨['N','p'], ['K','L','2'], 97068.4, 3.0⟩,
  ⟨['F','r'], ['K','M','3'], 97478, 57⟩,
  ⟨['U'], ['K','L','3'], 98431.58, 0.28⟩,
  ⟨['U'], ['K','L','3'], 98433.75, 0.60⟩,
  ⟨['R','a'], ['K','M','2'], 99434, 12⟩,
  ⟨['P','u'], ['K','L','2'], 99529.4, 2.0⟩,
  ⟨['P','u'], ['K','L','2'], 99523.2, 1.2⟩]

/-- nist_xray_data.dat after the title -/
def mainRows : List Row := main0 ++ main1 ++ main2 ++ main3 ++ main4 ++ main5 ++ main6 ++ main7 ++ main8 ++ main9 ++ main10 ++ main11 ++ main12 ++ main13 ++ main14 ++ main15 ++ main16 ++ main17

/-- low_z_xray_data.dat L1-21: what comes before the title -/
def lowBefore : List String := ["Elements: Carbon, Nitrogen, Oxygen, Fluorine", "Transitions: KL2 (Kalpha2), KL3 (Kalpha1), KM5 (Kbeta5 I), KM3 (Kbeta1), KM2 (Kbeta3)", "Energy Range: 150 eV - 100000 eV", "Sorted by Energy", "", "Column Definitions:", "", "Ele.                = 1 - 4", "A                   = 6 - 8", "Trans.              = 10 - 16", "Theory (eV)         = 18 - 30", "Theory Unc. (eV)    = 32 - 43", "Experimental Energy:", "  Direct (eV)       = 45 - 59", "  Direct Unc. (eV)  = 61 - 72", "Blend               = 74 - 79", "Ref.                = 81 - 91", "", "All data copied by Joe Fowler from G. Zschornack _Handbook of x-ray data_, ", "Springer, 2007.", ""]

/-- low_z_xray_data.dat L22: the title -/
def lowTitle : String := "Ele. A   Trans.  Theory (eV)   Unc. (eV)    Direct (eV)     Unc. (eV)    Blend  Ref.       "

/-- low_z_xray_data.dat L23-26 -/
def low0 : List Row := [.full ['C'] [] ['K','L','3'] [] ['2','7','7','.','0'] ['2','.','0'] 10 ['K','L','2',',','3',' ',' ','5','0'],
  .full ['N'] [] ['K','L','3'] [] ['3','9','2','.','4'] ['0','.','7'] 10 ['K','L','2',',','3',' ',' ','5','0'],
  .full ['O'] [] ['K','L','3'] [] ['5','2','4','.','9'] ['0','.','7'] 10 ['K','L','2',',','3',' ',' ','5','0'],
  .full ['F'] [] ['K','L','3'] [] ['6','7','6','.','8'] ['0','.','7'] 10 ['K','L','2',',','3',' ',' ','5','0']]

/-- the lines of low_z_xray_data.dat L23-26 with a measured energy -/
def low0T : List (XLine ℚ) := [⟨['C'], ['K','L','3'], 277.0, 2.0⟩,
  ⟨['N'], ['K','L','3'], 392.4, 0.7⟩,
  ⟨['O'], ['K','L','3'], 524.9, 0.7⟩,
  ⟨['F'], ['K','L','3'], 676.8, 0.7⟩]

/-- low_z_xray_data.dat after the title -/
def lowRows : List Row := low0

/-- the parts of both files, with what is read from them (nist_xray_data.dat, low_z_xray_data.dat) -/
def parts : List (List Row × List (XLine ℚ)) := [(main0, main0T), (main1, main1T), (main2, main2T), (main3, main3T), (main4, main4T), (main5, main5T), (main6, main6T), (main7, main7T), (main8, main8T), (main9, main9T), (main10, main10T), (main11, main11T), (main12, main12T), (main13, main13T), (main14, main14T), (main15, main15T), (main16, main16T), (main17, main17T), (low0, low0T)]

/-- all lines with a measured energy (nist_xray_data.dat, low_z_xray_data.dat) -/
def table : List (XLine ℚ) := main0T ++ main1T ++ main2T ++ main3T ++ main4T ++ main5T ++ main6T ++ main7T ++ main8T ++ main9T ++ main10T ++ main11T ++ main12T ++ main13T ++ main14T ++ main15T ++ main16T ++ main17T ++ low0T

end Mass.Line.XrayData

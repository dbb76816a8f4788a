import Verif.Spec.ElementsFormat

/-!
# The shipped file `ries/constituents/nist_elements/elements.txt`

Generated by `tools/gen_elements.py`; do not edit.  `tools/check_data.sh` checks that
`shippedNist.render` is the text of the file.
-/

namespace Ries

/-- the `n` last decimal digits of `v`, leading zeros included -/
def dg : ℕ → ℕ → List (Fin 10)
  | 0, _ => []
  | n + 1, v => Fin.ofNat 10 (v / 10 ^ n) :: dg n v

/-- A paragraph with the two further properties `Standard Atomic Weight` and `Notes`. -/
structure ShippedPara where
  Z : ℕ
  X : String
  A : ℕ
  amu : PropValue
  comp : PropValue
  weight : String
  notes : String

/-- its lines; the paragraph ends with an empty line -/
def ShippedPara.para (p : ShippedPara) : Para :=
  ⟨p.Z, p.X.toList, p.A, p.amu, p.comp,
    ["Standard Atomic Weight = ".toList ++ p.weight.toList, "Notes = ".toList ++ p.notes.toList, []]⟩

/-- the lines before the first paragraph, in pieces -/
def shippedHeader : List (List String) := [
  ["# Element properties in the 'Linearized ", "ASCII Output' format from Ref. [1, 2], w", "hich is a compilation of data from Refs.", " [3-5]."],
  ["#"],
  ["# [1] J. S. Coursey, D. J. Schwab, J. J.", " Tsai, and R. A. Dragoset, 'Atomic Weigh", "ts and isotopic Compositions with Relati", "ve Atomic Masses', NIST Physical Measure", "ment Laboratory (https://www.nist.gov/pm", "l/atomic-weights-and-isotopic-compositio", "ns-relative-atomic-masses) accessed on 1", "0/24/2020"],
  ["# [2] The original file contains entries", " for deuterium and tritium, which preven", "t a simple parsing of the file. Here, tr", "itium, which is not contained in natural", " hydrogen, was removed, and the 'Atomic ", "Symbol' of deuterium was changed from 'D", "' to 'H'. "],
  ["# [3] J. Meija et al., 'Atomic weights o", "f the elements 2013', Pure Appl. Chem. 8", "8, 265-291 (2016) https://doi.org/10.151", "5/pac-2015-0305"],
  ["# [4] M. Berglund and M. E. Wieser, 'Iso", "topic compositions of the elements 2009 ", "(IUPAC Technical Report)', Pure Appl. Ch", "em. 83, 397-410 (2011) https://doi.org/1", "0.1351/PAC-REP-10-06-02"],
  ["# [5] M. Wang et al., 'The AME2012 atomi", "c mass evaluation', Chinese Phys. C 36, ", "1603-2014 (2012) https://doi.org/10.1088", "/1674-1137/36/12/003"],
  []]

/-- Z = 1 to 20 -/
def shippedParas1 : List ShippedPara := [
  ⟨1, "H", 1, (.unc ⟨dg 1 1, (some (dg 11 782503223)), none⟩ "9".toList), (.unc ⟨dg 1 0, (some (dg 6 999885)), none⟩ "70".toList), "[1.00784,1.00811]", "m"⟩,
  ⟨1, "H", 2, (.unc ⟨dg 1 2, (some (dg 11 1410177812)), none⟩ "12".toList), (.unc ⟨dg 1 0, (some (dg 6 115)), none⟩ "70".toList), "[1.00784,1.00811]", "m"⟩,
  ⟨2, "He", 3, (.unc ⟨dg 1 3, (some (dg 10 160293201)), none⟩ "25".toList), (.unc ⟨dg 1 0, (some (dg 8 134)), none⟩ "3".toList), "4.002602(2)", "g,r"⟩,
  ⟨2, "He", 4, (.unc ⟨dg 1 4, (some (dg 11 260325413)), none⟩ "6".toList), (.unc ⟨dg 1 0, (some (dg 8 99999866)), none⟩ "3".toList), "4.002602(2)", "g,r"⟩,
  ⟨3, "Li", 6, (.unc ⟨dg 1 6, (some (dg 10 151228874)), none⟩ "16".toList), (.unc ⟨dg 1 0, (some (dg 4 759)), none⟩ "4".toList), "[6.938,6.997]", "m"⟩,
  ⟨3, "Li", 7, (.unc ⟨dg 1 7, (some (dg 10 160034366)), none⟩ "45".toList), (.unc ⟨dg 1 0, (some (dg 4 9241)), none⟩ "4".toList), "[6.938,6.997]", "m"⟩,
  ⟨4, "Be", 9, (.unc ⟨dg 1 9, (some (dg 9 12183065)), none⟩ "82".toList), (.plain ⟨dg 1 1, none, none⟩), "9.0121831(5)", " "⟩,
  ⟨5, "B", 10, (.unc ⟨dg 2 10, (some (dg 8 1293695)), none⟩ "41".toList), (.unc ⟨dg 1 0, (some (dg 3 199)), none⟩ "7".toList), "[10.806,10.821]", "m"⟩,
  ⟨5, "B", 11, (.unc ⟨dg 2 11, (some (dg 8 930536)), none⟩ "45".toList), (.unc ⟨dg 1 0, (some (dg 3 801)), none⟩ "7".toList), "[10.806,10.821]", "m"⟩,
  ⟨6, "C", 12, (.unc ⟨dg 2 12, (some (dg 7 0)), none⟩ "00".toList), (.unc ⟨dg 1 0, (some (dg 4 9893)), none⟩ "8".toList), "[12.0096,12.0116]", " "⟩,
  ⟨6, "C", 13, (.unc ⟨dg 2 13, (some (dg 11 335483507)), none⟩ "23".toList), (.unc ⟨dg 1 0, (some (dg 4 107)), none⟩ "8".toList), "[12.0096,12.0116]", " "⟩,
  ⟨6, "C", 14, (.unc ⟨dg 2 14, (some (dg 10 32419884)), none⟩ "40".toList), .empty, "[12.0096,12.0116]", " "⟩,
  ⟨7, "N", 14, (.unc ⟨dg 2 14, (some (dg 11 307400443)), none⟩ "20".toList), (.unc ⟨dg 1 0, (some (dg 5 99636)), none⟩ "20".toList), "[14.00643,14.00728]", " "⟩,
  ⟨7, "N", 15, (.unc ⟨dg 2 15, (some (dg 11 10889888)), none⟩ "64".toList), (.unc ⟨dg 1 0, (some (dg 5 364)), none⟩ "20".toList), "[14.00643,14.00728]", " "⟩,
  ⟨8, "O", 16, (.unc ⟨dg 2 15, (some (dg 11 99491461957)), none⟩ "17".toList), (.unc ⟨dg 1 0, (some (dg 5 99757)), none⟩ "16".toList), "[15.99903,15.99977]", " "⟩,
  ⟨8, "O", 17, (.unc ⟨dg 2 16, (some (dg 11 99913175650)), none⟩ "69".toList), (.unc ⟨dg 1 0, (some (dg 5 38)), none⟩ "1".toList), "[15.99903,15.99977]", " "⟩,
  ⟨8, "O", 18, (.unc ⟨dg 2 17, (some (dg 11 99915961286)), none⟩ "76".toList), (.unc ⟨dg 1 0, (some (dg 5 205)), none⟩ "14".toList), "[15.99903,15.99977]", " "⟩,
  ⟨9, "F", 19, (.unc ⟨dg 2 18, (some (dg 11 99840316273)), none⟩ "92".toList), (.plain ⟨dg 1 1, none, none⟩), "18.998403163(6)", " "⟩,
  ⟨10, "Ne", 20, (.unc ⟨dg 2 19, (some (dg 10 9924401762)), none⟩ "17".toList), (.unc ⟨dg 1 0, (some (dg 4 9048)), none⟩ "3".toList), "20.1797(6)", "g,m"⟩,
  ⟨10, "Ne", 21, (.unc ⟨dg 2 20, (some (dg 9 993846685)), none⟩ "41".toList), (.unc ⟨dg 1 0, (some (dg 4 27)), none⟩ "1".toList), "20.1797(6)", "g,m"⟩,
  ⟨10, "Ne", 22, (.unc ⟨dg 2 21, (some (dg 9 991385114)), none⟩ "18".toList), (.unc ⟨dg 1 0, (some (dg 4 925)), none⟩ "3".toList), "20.1797(6)", "g,m"⟩,
  ⟨11, "Na", 23, (.unc ⟨dg 2 22, (some (dg 10 9897692820)), none⟩ "19".toList), (.plain ⟨dg 1 1, none, none⟩), "22.98976928(2)", " "⟩,
  ⟨12, "Mg", 24, (.unc ⟨dg 2 23, (some (dg 9 985041697)), none⟩ "14".toList), (.unc ⟨dg 1 0, (some (dg 4 7899)), none⟩ "4".toList), "[24.304,24.307]", " "⟩,
  ⟨12, "Mg", 25, (.unc ⟨dg 2 24, (some (dg 9 985836976)), none⟩ "50".toList), (.unc ⟨dg 1 0, (some (dg 4 1000)), none⟩ "1".toList), "[24.304,24.307]", " "⟩,
  ⟨12, "Mg", 26, (.unc ⟨dg 2 25, (some (dg 9 982592968)), none⟩ "31".toList), (.unc ⟨dg 1 0, (some (dg 4 1101)), none⟩ "3".toList), "[24.304,24.307]", " "⟩,
  ⟨13, "Al", 27, (.unc ⟨dg 2 26, (some (dg 8 98153853)), none⟩ "11".toList), (.plain ⟨dg 1 1, none, none⟩), "26.9815385(7)", " "⟩,
  ⟨14, "Si", 28, (.unc ⟨dg 2 27, (some (dg 11 97692653465)), none⟩ "44".toList), (.unc ⟨dg 1 0, (some (dg 5 92223)), none⟩ "19".toList), "[28.084,28.086]", " "⟩,
  ⟨14, "Si", 29, (.unc ⟨dg 2 28, (some (dg 11 97649466490)), none⟩ "52".toList), (.unc ⟨dg 1 0, (some (dg 5 4685)), none⟩ "8".toList), "[28.084,28.086]", " "⟩,
  ⟨14, "Si", 30, (.unc ⟨dg 2 29, (some (dg 9 973770136)), none⟩ "23".toList), (.unc ⟨dg 1 0, (some (dg 5 3092)), none⟩ "11".toList), "[28.084,28.086]", " "⟩,
  ⟨15, "P", 31, (.unc ⟨dg 2 30, (some (dg 11 97376199842)), none⟩ "70".toList), (.plain ⟨dg 1 1, none, none⟩), "30.973761998(5)", " "⟩,
  ⟨16, "S", 32, (.unc ⟨dg 2 31, (some (dg 10 9720711744)), none⟩ "14".toList), (.unc ⟨dg 1 0, (some (dg 4 9499)), none⟩ "26".toList), "[32.059,32.076]", " "⟩,
  ⟨16, "S", 33, (.unc ⟨dg 2 32, (some (dg 10 9714589098)), none⟩ "15".toList), (.unc ⟨dg 1 0, (some (dg 4 75)), none⟩ "2".toList), "[32.059,32.076]", " "⟩,
  ⟨16, "S", 34, (.unc ⟨dg 2 33, (some (dg 9 967867004)), none⟩ "47".toList), (.unc ⟨dg 1 0, (some (dg 4 425)), none⟩ "24".toList), "[32.059,32.076]", " "⟩,
  ⟨16, "S", 36, (.unc ⟨dg 2 35, (some (dg 8 96708071)), none⟩ "20".toList), (.unc ⟨dg 1 0, (some (dg 4 1)), none⟩ "1".toList), "[32.059,32.076]", " "⟩,
  ⟨17, "Cl", 35, (.unc ⟨dg 2 34, (some (dg 9 968852682)), none⟩ "37".toList), (.unc ⟨dg 1 0, (some (dg 4 7576)), none⟩ "10".toList), "[35.446,35.457]", "m"⟩,
  ⟨17, "Cl", 37, (.unc ⟨dg 2 36, (some (dg 9 965902602)), none⟩ "55".toList), (.unc ⟨dg 1 0, (some (dg 4 2424)), none⟩ "10".toList), "[35.446,35.457]", "m"⟩,
  ⟨18, "Ar", 36, (.unc ⟨dg 2 35, (some (dg 9 967545105)), none⟩ "28".toList), (.unc ⟨dg 1 0, (some (dg 6 3336)), none⟩ "21".toList), "39.948(1)", "g,r"⟩,
  ⟨18, "Ar", 38, (.unc ⟨dg 2 37, (some (dg 8 96273211)), none⟩ "21".toList), (.unc ⟨dg 1 0, (some (dg 6 629)), none⟩ "7".toList), "39.948(1)", "g,r"⟩,
  ⟨18, "Ar", 40, (.unc ⟨dg 2 39, (some (dg 10 9623831237)), none⟩ "24".toList), (.unc ⟨dg 1 0, (some (dg 6 996035)), none⟩ "25".toList), "39.948(1)", "g,r"⟩,
  ⟨19, "K", 39, (.unc ⟨dg 2 38, (some (dg 10 9637064864)), none⟩ "49".toList), (.unc ⟨dg 1 0, (some (dg 6 932581)), none⟩ "44".toList), "39.0983(1)", " "⟩,
  ⟨19, "K", 40, (.unc ⟨dg 2 39, (some (dg 9 963998166)), none⟩ "60".toList), (.unc ⟨dg 1 0, (some (dg 6 117)), none⟩ "1".toList), "39.0983(1)", " "⟩,
  ⟨19, "K", 41, (.unc ⟨dg 2 40, (some (dg 10 9618252579)), none⟩ "41".toList), (.unc ⟨dg 1 0, (some (dg 6 67302)), none⟩ "44".toList), "39.0983(1)", " "⟩,
  ⟨20, "Ca", 40, (.unc ⟨dg 2 39, (some (dg 9 962590863)), none⟩ "22".toList), (.unc ⟨dg 1 0, (some (dg 5 96941)), none⟩ "156".toList), "40.078(4)", "g"⟩,
  ⟨20, "Ca", 42, (.unc ⟨dg 2 41, (some (dg 8 95861783)), none⟩ "16".toList), (.unc ⟨dg 1 0, (some (dg 5 647)), none⟩ "23".toList), "40.078(4)", "g"⟩,
  ⟨20, "Ca", 43, (.unc ⟨dg 2 42, (some (dg 8 95876644)), none⟩ "24".toList), (.unc ⟨dg 1 0, (some (dg 5 135)), none⟩ "10".toList), "40.078(4)", "g"⟩,
  ⟨20, "Ca", 44, (.unc ⟨dg 2 43, (some (dg 8 95548156)), none⟩ "35".toList), (.unc ⟨dg 1 0, (some (dg 5 2086)), none⟩ "110".toList), "40.078(4)", "g"⟩,
  ⟨20, "Ca", 46, (.unc ⟨dg 2 45, (some (dg 7 9536890)), none⟩ "24".toList), (.unc ⟨dg 1 0, (some (dg 5 4)), none⟩ "3".toList), "40.078(4)", "g"⟩,
  ⟨20, "Ca", 48, (.unc ⟨dg 2 47, (some (dg 8 95252276)), none⟩ "13".toList), (.unc ⟨dg 1 0, (some (dg 5 187)), none⟩ "21".toList), "40.078(4)", "g"⟩]

/-- Z = 21 to 40 -/
def shippedParas21 : List ShippedPara := [
  ⟨21, "Sc", 45, (.unc ⟨dg 2 44, (some (dg 8 95590828)), none⟩ "77".toList), (.plain ⟨dg 1 1, none, none⟩), "44.955908(5)", " "⟩,
  ⟨22, "Ti", 46, (.unc ⟨dg 2 45, (some (dg 8 95262772)), none⟩ "35".toList), (.unc ⟨dg 1 0, (some (dg 4 825)), none⟩ "3".toList), "47.867(1)", " "⟩,
  ⟨22, "Ti", 47, (.unc ⟨dg 2 46, (some (dg 8 95175879)), none⟩ "38".toList), (.unc ⟨dg 1 0, (some (dg 4 744)), none⟩ "2".toList), "47.867(1)", " "⟩,
  ⟨22, "Ti", 48, (.unc ⟨dg 2 47, (some (dg 8 94794198)), none⟩ "38".toList), (.unc ⟨dg 1 0, (some (dg 4 7372)), none⟩ "3".toList), "47.867(1)", " "⟩,
  ⟨22, "Ti", 49, (.unc ⟨dg 2 48, (some (dg 8 94786568)), none⟩ "39".toList), (.unc ⟨dg 1 0, (some (dg 4 541)), none⟩ "2".toList), "47.867(1)", " "⟩,
  ⟨22, "Ti", 50, (.unc ⟨dg 2 49, (some (dg 8 94478689)), none⟩ "39".toList), (.unc ⟨dg 1 0, (some (dg 4 518)), none⟩ "2".toList), "47.867(1)", " "⟩,
  ⟨23, "V", 50, (.unc ⟨dg 2 49, (some (dg 8 94715601)), none⟩ "95".toList), (.unc ⟨dg 1 0, (some (dg 5 250)), none⟩ "4".toList), "50.9415(1)", " "⟩,
  ⟨23, "V", 51, (.unc ⟨dg 2 50, (some (dg 8 94395704)), none⟩ "94".toList), (.unc ⟨dg 1 0, (some (dg 5 99750)), none⟩ "4".toList), "50.9415(1)", " "⟩,
  ⟨24, "Cr", 50, (.unc ⟨dg 2 49, (some (dg 8 94604183)), none⟩ "94".toList), (.unc ⟨dg 1 0, (some (dg 5 4345)), none⟩ "13".toList), "51.9961(6)", " "⟩,
  ⟨24, "Cr", 52, (.unc ⟨dg 2 51, (some (dg 8 94050623)), none⟩ "63".toList), (.unc ⟨dg 1 0, (some (dg 5 83789)), none⟩ "18".toList), "51.9961(6)", " "⟩,
  ⟨24, "Cr", 53, (.unc ⟨dg 2 52, (some (dg 8 94064815)), none⟩ "62".toList), (.unc ⟨dg 1 0, (some (dg 5 9501)), none⟩ "17".toList), "51.9961(6)", " "⟩,
  ⟨24, "Cr", 54, (.unc ⟨dg 2 53, (some (dg 8 93887916)), none⟩ "61".toList), (.unc ⟨dg 1 0, (some (dg 5 2365)), none⟩ "7".toList), "51.9961(6)", " "⟩,
  ⟨25, "Mn", 55, (.unc ⟨dg 2 54, (some (dg 8 93804391)), none⟩ "48".toList), (.plain ⟨dg 1 1, none, none⟩), "54.938044(3)", " "⟩,
  ⟨26, "Fe", 54, (.unc ⟨dg 2 53, (some (dg 8 93960899)), none⟩ "53".toList), (.unc ⟨dg 1 0, (some (dg 5 5845)), none⟩ "35".toList), "55.845(2)", " "⟩,
  ⟨26, "Fe", 56, (.unc ⟨dg 2 55, (some (dg 8 93493633)), none⟩ "49".toList), (.unc ⟨dg 1 0, (some (dg 5 91754)), none⟩ "36".toList), "55.845(2)", " "⟩,
  ⟨26, "Fe", 57, (.unc ⟨dg 2 56, (some (dg 8 93539284)), none⟩ "49".toList), (.unc ⟨dg 1 0, (some (dg 5 2119)), none⟩ "10".toList), "55.845(2)", " "⟩,
  ⟨26, "Fe", 58, (.unc ⟨dg 2 57, (some (dg 8 93327443)), none⟩ "53".toList), (.unc ⟨dg 1 0, (some (dg 5 282)), none⟩ "4".toList), "55.845(2)", " "⟩,
  ⟨27, "Co", 59, (.unc ⟨dg 2 58, (some (dg 8 93319429)), none⟩ "56".toList), (.plain ⟨dg 1 1, none, none⟩), "58.933194(4)", " "⟩,
  ⟨28, "Ni", 58, (.unc ⟨dg 2 57, (some (dg 8 93534241)), none⟩ "52".toList), (.unc ⟨dg 1 0, (some (dg 5 68077)), none⟩ "19".toList), "58.6934(4)", "r"⟩,
  ⟨28, "Ni", 60, (.unc ⟨dg 2 59, (some (dg 8 93078588)), none⟩ "52".toList), (.unc ⟨dg 1 0, (some (dg 5 26223)), none⟩ "15".toList), "58.6934(4)", "r"⟩,
  ⟨28, "Ni", 61, (.unc ⟨dg 2 60, (some (dg 8 93105557)), none⟩ "52".toList), (.unc ⟨dg 1 0, (some (dg 6 11399)), none⟩ "13".toList), "58.6934(4)", "r"⟩,
  ⟨28, "Ni", 62, (.unc ⟨dg 2 61, (some (dg 8 92834537)), none⟩ "55".toList), (.unc ⟨dg 1 0, (some (dg 6 36346)), none⟩ "40".toList), "58.6934(4)", "r"⟩,
  ⟨28, "Ni", 64, (.unc ⟨dg 2 63, (some (dg 8 92796682)), none⟩ "58".toList), (.unc ⟨dg 1 0, (some (dg 6 9255)), none⟩ "19".toList), "58.6934(4)", "r"⟩,
  ⟨29, "Cu", 63, (.unc ⟨dg 2 62, (some (dg 8 92959772)), none⟩ "56".toList), (.unc ⟨dg 1 0, (some (dg 4 6915)), none⟩ "15".toList), "63.546(3)", "r"⟩,
  ⟨29, "Cu", 65, (.unc ⟨dg 2 64, (some (dg 8 92778970)), none⟩ "71".toList), (.unc ⟨dg 1 0, (some (dg 4 3085)), none⟩ "15".toList), "63.546(3)", "r"⟩,
  ⟨30, "Zn", 64, (.unc ⟨dg 2 63, (some (dg 8 92914201)), none⟩ "71".toList), (.unc ⟨dg 1 0, (some (dg 4 4917)), none⟩ "75".toList), "65.38(2)", "r"⟩,
  ⟨30, "Zn", 66, (.unc ⟨dg 2 65, (some (dg 8 92603381)), none⟩ "94".toList), (.unc ⟨dg 1 0, (some (dg 4 2773)), none⟩ "98".toList), "65.38(2)", "r"⟩,
  ⟨30, "Zn", 67, (.unc ⟨dg 2 66, (some (dg 8 92712775)), none⟩ "96".toList), (.unc ⟨dg 1 0, (some (dg 4 404)), none⟩ "16".toList), "65.38(2)", "r"⟩,
  ⟨30, "Zn", 68, (.unc ⟨dg 2 67, (some (dg 8 92484455)), none⟩ "98".toList), (.unc ⟨dg 1 0, (some (dg 4 1845)), none⟩ "63".toList), "65.38(2)", "r"⟩,
  ⟨30, "Zn", 70, (.unc ⟨dg 2 69, (some (dg 7 9253192)), none⟩ "21".toList), (.unc ⟨dg 1 0, (some (dg 4 61)), none⟩ "10".toList), "65.38(2)", "r"⟩,
  ⟨31, "Ga", 69, (.unc ⟨dg 2 68, (some (dg 7 9255735)), none⟩ "13".toList), (.unc ⟨dg 1 0, (some (dg 5 60108)), none⟩ "9".toList), "69.723(1)", " "⟩,
  ⟨31, "Ga", 71, (.unc ⟨dg 2 70, (some (dg 8 92470258)), none⟩ "87".toList), (.unc ⟨dg 1 0, (some (dg 5 39892)), none⟩ "9".toList), "69.723(1)", " "⟩,
  ⟨32, "Ge", 70, (.unc ⟨dg 2 69, (some (dg 8 92424875)), none⟩ "90".toList), (.unc ⟨dg 1 0, (some (dg 4 2057)), none⟩ "27".toList), "72.630(8)", " "⟩,
  ⟨32, "Ge", 72, (.unc ⟨dg 2 71, (some (dg 9 922075826)), none⟩ "81".toList), (.unc ⟨dg 1 0, (some (dg 4 2745)), none⟩ "32".toList), "72.630(8)", " "⟩,
  ⟨32, "Ge", 73, (.unc ⟨dg 2 72, (some (dg 9 923458956)), none⟩ "61".toList), (.unc ⟨dg 1 0, (some (dg 4 775)), none⟩ "12".toList), "72.630(8)", " "⟩,
  ⟨32, "Ge", 74, (.unc ⟨dg 2 73, (some (dg 9 921177761)), none⟩ "13".toList), (.unc ⟨dg 1 0, (some (dg 4 3650)), none⟩ "20".toList), "72.630(8)", " "⟩,
  ⟨32, "Ge", 76, (.unc ⟨dg 2 75, (some (dg 9 921402726)), none⟩ "19".toList), (.unc ⟨dg 1 0, (some (dg 4 773)), none⟩ "12".toList), "72.630(8)", " "⟩,
  ⟨33, "As", 75, (.unc ⟨dg 2 74, (some (dg 8 92159457)), none⟩ "95".toList), (.plain ⟨dg 1 1, none, none⟩), "74.921595(6)", " "⟩,
  ⟨34, "Se", 74, (.unc ⟨dg 2 73, (some (dg 9 922475934)), none⟩ "15".toList), (.unc ⟨dg 1 0, (some (dg 4 89)), none⟩ "4".toList), "78.971(8)", "r"⟩,
  ⟨34, "Se", 76, (.unc ⟨dg 2 75, (some (dg 9 919213704)), none⟩ "17".toList), (.unc ⟨dg 1 0, (some (dg 4 937)), none⟩ "29".toList), "78.971(8)", "r"⟩,
  ⟨34, "Se", 77, (.unc ⟨dg 2 76, (some (dg 9 919914154)), none⟩ "67".toList), (.unc ⟨dg 1 0, (some (dg 4 763)), none⟩ "16".toList), "78.971(8)", "r"⟩,
  ⟨34, "Se", 78, (.unc ⟨dg 2 77, (some (dg 8 91730928)), none⟩ "20".toList), (.unc ⟨dg 1 0, (some (dg 4 2377)), none⟩ "28".toList), "78.971(8)", "r"⟩,
  ⟨34, "Se", 80, (.unc ⟨dg 2 79, (some (dg 7 9165218)), none⟩ "13".toList), (.unc ⟨dg 1 0, (some (dg 4 4961)), none⟩ "41".toList), "78.971(8)", "r"⟩,
  ⟨34, "Se", 82, (.unc ⟨dg 2 81, (some (dg 7 9166995)), none⟩ "15".toList), (.unc ⟨dg 1 0, (some (dg 4 873)), none⟩ "22".toList), "78.971(8)", "r"⟩,
  ⟨35, "Br", 79, (.unc ⟨dg 2 78, (some (dg 7 9183376)), none⟩ "14".toList), (.unc ⟨dg 1 0, (some (dg 4 5069)), none⟩ "7".toList), "[79.901,79.907]", " "⟩,
  ⟨35, "Br", 81, (.unc ⟨dg 2 80, (some (dg 7 9162897)), none⟩ "14".toList), (.unc ⟨dg 1 0, (some (dg 4 4931)), none⟩ "7".toList), "[79.901,79.907]", " "⟩,
  ⟨36, "Kr", 78, (.unc ⟨dg 2 77, (some (dg 8 92036494)), none⟩ "76".toList), (.unc ⟨dg 1 0, (some (dg 5 355)), none⟩ "3".toList), "83.798(2)", "g,m"⟩,
  ⟨36, "Kr", 80, (.unc ⟨dg 2 79, (some (dg 8 91637808)), none⟩ "75".toList), (.unc ⟨dg 1 0, (some (dg 5 2286)), none⟩ "10".toList), "83.798(2)", "g,m"⟩,
  ⟨36, "Kr", 82, (.unc ⟨dg 2 81, (some (dg 8 91348273)), none⟩ "94".toList), (.unc ⟨dg 1 0, (some (dg 5 11593)), none⟩ "31".toList), "83.798(2)", "g,m"⟩,
  ⟨36, "Kr", 83, (.unc ⟨dg 2 82, (some (dg 8 91412716)), none⟩ "32".toList), (.unc ⟨dg 1 0, (some (dg 5 11500)), none⟩ "19".toList), "83.798(2)", "g,m"⟩,
  ⟨36, "Kr", 84, (.unc ⟨dg 2 83, (some (dg 10 9114977282)), none⟩ "44".toList), (.unc ⟨dg 1 0, (some (dg 5 56987)), none⟩ "15".toList), "83.798(2)", "g,m"⟩,
  ⟨36, "Kr", 86, (.unc ⟨dg 2 85, (some (dg 10 9106106269)), none⟩ "41".toList), (.unc ⟨dg 1 0, (some (dg 5 17279)), none⟩ "41".toList), "83.798(2)", "g,m"⟩,
  ⟨37, "Rb", 85, (.unc ⟨dg 2 84, (some (dg 10 9117897379)), none⟩ "54".toList), (.unc ⟨dg 1 0, (some (dg 4 7217)), none⟩ "2".toList), "85.4678(3)", "g"⟩,
  ⟨37, "Rb", 87, (.unc ⟨dg 2 86, (some (dg 10 9091805310)), none⟩ "60".toList), (.unc ⟨dg 1 0, (some (dg 4 2783)), none⟩ "2".toList), "85.4678(3)", "g"⟩,
  ⟨38, "Sr", 84, (.unc ⟨dg 2 83, (some (dg 7 9134191)), none⟩ "13".toList), (.unc ⟨dg 1 0, (some (dg 4 56)), none⟩ "1".toList), "87.62(1)", "g,r"⟩,
  ⟨38, "Sr", 86, (.unc ⟨dg 2 85, (some (dg 7 9092606)), none⟩ "12".toList), (.unc ⟨dg 1 0, (some (dg 4 986)), none⟩ "1".toList), "87.62(1)", "g,r"⟩,
  ⟨38, "Sr", 87, (.unc ⟨dg 2 86, (some (dg 7 9088775)), none⟩ "12".toList), (.unc ⟨dg 1 0, (some (dg 4 700)), none⟩ "1".toList), "87.62(1)", "g,r"⟩,
  ⟨38, "Sr", 88, (.unc ⟨dg 2 87, (some (dg 7 9056125)), none⟩ "12".toList), (.unc ⟨dg 1 0, (some (dg 4 8258)), none⟩ "1".toList), "87.62(1)", "g,r"⟩,
  ⟨39, "Y", 89, (.unc ⟨dg 2 88, (some (dg 7 9058403)), none⟩ "24".toList), (.plain ⟨dg 1 1, none, none⟩), "88.90584(2)", " "⟩,
  ⟨40, "Zr", 90, (.unc ⟨dg 2 89, (some (dg 7 9046977)), none⟩ "20".toList), (.unc ⟨dg 1 0, (some (dg 4 5145)), none⟩ "40".toList), "91.224(2)", "g"⟩,
  ⟨40, "Zr", 91, (.unc ⟨dg 2 90, (some (dg 7 9056396)), none⟩ "20".toList), (.unc ⟨dg 1 0, (some (dg 4 1122)), none⟩ "5".toList), "91.224(2)", "g"⟩,
  ⟨40, "Zr", 92, (.unc ⟨dg 2 91, (some (dg 7 9050347)), none⟩ "20".toList), (.unc ⟨dg 1 0, (some (dg 4 1715)), none⟩ "8".toList), "91.224(2)", "g"⟩,
  ⟨40, "Zr", 94, (.unc ⟨dg 2 93, (some (dg 7 9063108)), none⟩ "20".toList), (.unc ⟨dg 1 0, (some (dg 4 1738)), none⟩ "28".toList), "91.224(2)", "g"⟩,
  ⟨40, "Zr", 96, (.unc ⟨dg 2 95, (some (dg 7 9082714)), none⟩ "21".toList), (.unc ⟨dg 1 0, (some (dg 4 280)), none⟩ "9".toList), "91.224(2)", "g"⟩]

/-- Z = 41 to 60 -/
def shippedParas41 : List ShippedPara := [
  ⟨41, "Nb", 93, (.unc ⟨dg 2 92, (some (dg 7 9063730)), none⟩ "20".toList), (.plain ⟨dg 1 1, none, none⟩), "92.90637(2)", " "⟩,
  ⟨42, "Mo", 92, (.unc ⟨dg 2 91, (some (dg 8 90680796)), none⟩ "84".toList), (.unc ⟨dg 1 0, (some (dg 4 1453)), none⟩ "30".toList), "95.95(1)", "g"⟩,
  ⟨42, "Mo", 94, (.unc ⟨dg 2 93, (some (dg 8 90508490)), none⟩ "48".toList), (.unc ⟨dg 1 0, (some (dg 4 915)), none⟩ "9".toList), "95.95(1)", "g"⟩,
  ⟨42, "Mo", 95, (.unc ⟨dg 2 94, (some (dg 8 90583877)), none⟩ "47".toList), (.unc ⟨dg 1 0, (some (dg 4 1584)), none⟩ "11".toList), "95.95(1)", "g"⟩,
  ⟨42, "Mo", 96, (.unc ⟨dg 2 95, (some (dg 8 90467612)), none⟩ "47".toList), (.unc ⟨dg 1 0, (some (dg 4 1667)), none⟩ "15".toList), "95.95(1)", "g"⟩,
  ⟨42, "Mo", 97, (.unc ⟨dg 2 96, (some (dg 8 90601812)), none⟩ "49".toList), (.unc ⟨dg 1 0, (some (dg 4 960)), none⟩ "14".toList), "95.95(1)", "g"⟩,
  ⟨42, "Mo", 98, (.unc ⟨dg 2 97, (some (dg 8 90540482)), none⟩ "49".toList), (.unc ⟨dg 1 0, (some (dg 4 2439)), none⟩ "37".toList), "95.95(1)", "g"⟩,
  ⟨42, "Mo", 100, (.unc ⟨dg 2 99, (some (dg 7 9074718)), none⟩ "11".toList), (.unc ⟨dg 1 0, (some (dg 4 982)), none⟩ "31".toList), "95.95(1)", "g"⟩,
  ⟨43, "Tc", 97, (.unc ⟨dg 2 96, (some (dg 7 9063667)), none⟩ "40".toList), .empty, "[98]", " "⟩,
  ⟨43, "Tc", 98, (.unc ⟨dg 2 97, (some (dg 7 9072124)), none⟩ "36".toList), .empty, "[98]", " "⟩,
  ⟨43, "Tc", 99, (.unc ⟨dg 2 98, (some (dg 7 9062508)), none⟩ "10".toList), .empty, "[98]", " "⟩,
  ⟨44, "Ru", 96, (.unc ⟨dg 2 95, (some (dg 8 90759025)), none⟩ "49".toList), (.unc ⟨dg 1 0, (some (dg 4 554)), none⟩ "14".toList), "101.07(2)", "g"⟩,
  ⟨44, "Ru", 98, (.unc ⟨dg 2 97, (some (dg 7 9052868)), none⟩ "69".toList), (.unc ⟨dg 1 0, (some (dg 4 187)), none⟩ "3".toList), "101.07(2)", "g"⟩,
  ⟨44, "Ru", 99, (.unc ⟨dg 2 98, (some (dg 7 9059341)), none⟩ "11".toList), (.unc ⟨dg 1 0, (some (dg 4 1276)), none⟩ "14".toList), "101.07(2)", "g"⟩,
  ⟨44, "Ru", 100, (.unc ⟨dg 2 99, (some (dg 7 9042143)), none⟩ "11".toList), (.unc ⟨dg 1 0, (some (dg 4 1260)), none⟩ "7".toList), "101.07(2)", "g"⟩,
  ⟨44, "Ru", 101, (.unc ⟨dg 3 100, (some (dg 7 9055769)), none⟩ "12".toList), (.unc ⟨dg 1 0, (some (dg 4 1706)), none⟩ "2".toList), "101.07(2)", "g"⟩,
  ⟨44, "Ru", 102, (.unc ⟨dg 3 101, (some (dg 7 9043441)), none⟩ "12".toList), (.unc ⟨dg 1 0, (some (dg 4 3155)), none⟩ "14".toList), "101.07(2)", "g"⟩,
  ⟨44, "Ru", 104, (.unc ⟨dg 3 103, (some (dg 7 9054275)), none⟩ "28".toList), (.unc ⟨dg 1 0, (some (dg 4 1862)), none⟩ "27".toList), "101.07(2)", "g"⟩,
  ⟨45, "Rh", 103, (.unc ⟨dg 3 102, (some (dg 7 9054980)), none⟩ "26".toList), (.plain ⟨dg 1 1, none, none⟩), "102.90550(2)", " "⟩,
  ⟨46, "Pd", 102, (.unc ⟨dg 3 101, (some (dg 7 9056022)), none⟩ "28".toList), (.unc ⟨dg 1 0, (some (dg 4 102)), none⟩ "1".toList), "106.42(1)", "g"⟩,
  ⟨46, "Pd", 104, (.unc ⟨dg 3 103, (some (dg 7 9040305)), none⟩ "14".toList), (.unc ⟨dg 1 0, (some (dg 4 1114)), none⟩ "8".toList), "106.42(1)", "g"⟩,
  ⟨46, "Pd", 105, (.unc ⟨dg 3 104, (some (dg 7 9050796)), none⟩ "12".toList), (.unc ⟨dg 1 0, (some (dg 4 2233)), none⟩ "8".toList), "106.42(1)", "g"⟩,
  ⟨46, "Pd", 106, (.unc ⟨dg 3 105, (some (dg 7 9034804)), none⟩ "12".toList), (.unc ⟨dg 1 0, (some (dg 4 2733)), none⟩ "3".toList), "106.42(1)", "g"⟩,
  ⟨46, "Pd", 108, (.unc ⟨dg 3 107, (some (dg 7 9038916)), none⟩ "12".toList), (.unc ⟨dg 1 0, (some (dg 4 2646)), none⟩ "9".toList), "106.42(1)", "g"⟩,
  ⟨46, "Pd", 110, (.unc ⟨dg 3 109, (some (dg 8 90517220)), none⟩ "75".toList), (.unc ⟨dg 1 0, (some (dg 4 1172)), none⟩ "9".toList), "106.42(1)", "g"⟩,
  ⟨47, "Ag", 107, (.unc ⟨dg 3 106, (some (dg 7 9050916)), none⟩ "26".toList), (.unc ⟨dg 1 0, (some (dg 5 51839)), none⟩ "8".toList), "107.8682(2)", "g"⟩,
  ⟨47, "Ag", 109, (.unc ⟨dg 3 108, (some (dg 7 9047553)), none⟩ "14".toList), (.unc ⟨dg 1 0, (some (dg 5 48161)), none⟩ "8".toList), "107.8682(2)", "g"⟩,
  ⟨48, "Cd", 106, (.unc ⟨dg 3 105, (some (dg 7 9064599)), none⟩ "12".toList), (.unc ⟨dg 1 0, (some (dg 4 125)), none⟩ "6".toList), "112.414(4)", "g"⟩,
  ⟨48, "Cd", 108, (.unc ⟨dg 3 107, (some (dg 7 9041834)), none⟩ "12".toList), (.unc ⟨dg 1 0, (some (dg 4 89)), none⟩ "3".toList), "112.414(4)", "g"⟩,
  ⟨48, "Cd", 110, (.unc ⟨dg 3 109, (some (dg 8 90300661)), none⟩ "61".toList), (.unc ⟨dg 1 0, (some (dg 4 1249)), none⟩ "18".toList), "112.414(4)", "g"⟩,
  ⟨48, "Cd", 111, (.unc ⟨dg 3 110, (some (dg 8 90418287)), none⟩ "61".toList), (.unc ⟨dg 1 0, (some (dg 4 1280)), none⟩ "12".toList), "112.414(4)", "g"⟩,
  ⟨48, "Cd", 112, (.unc ⟨dg 3 111, (some (dg 8 90276287)), none⟩ "60".toList), (.unc ⟨dg 1 0, (some (dg 4 2413)), none⟩ "21".toList), "112.414(4)", "g"⟩,
  ⟨48, "Cd", 113, (.unc ⟨dg 3 112, (some (dg 8 90440813)), none⟩ "45".toList), (.unc ⟨dg 1 0, (some (dg 4 1222)), none⟩ "12".toList), "112.414(4)", "g"⟩,
  ⟨48, "Cd", 114, (.unc ⟨dg 3 113, (some (dg 8 90336509)), none⟩ "43".toList), (.unc ⟨dg 1 0, (some (dg 4 2873)), none⟩ "42".toList), "112.414(4)", "g"⟩,
  ⟨48, "Cd", 116, (.unc ⟨dg 3 115, (some (dg 8 90476315)), none⟩ "17".toList), (.unc ⟨dg 1 0, (some (dg 4 749)), none⟩ "18".toList), "112.414(4)", "g"⟩,
  ⟨49, "In", 113, (.unc ⟨dg 3 112, (some (dg 8 90406184)), none⟩ "91".toList), (.unc ⟨dg 1 0, (some (dg 4 429)), none⟩ "5".toList), "114.818(1)", " "⟩,
  ⟨49, "In", 115, (.unc ⟨dg 3 114, (some (dg 9 903878776)), none⟩ "12".toList), (.unc ⟨dg 1 0, (some (dg 4 9571)), none⟩ "5".toList), "114.818(1)", " "⟩,
  ⟨50, "Sn", 112, (.unc ⟨dg 3 111, (some (dg 8 90482387)), none⟩ "61".toList), (.unc ⟨dg 1 0, (some (dg 4 97)), none⟩ "1".toList), "118.710(7)", "g"⟩,
  ⟨50, "Sn", 114, (.unc ⟨dg 3 113, (some (dg 7 9027827)), none⟩ "10".toList), (.unc ⟨dg 1 0, (some (dg 4 66)), none⟩ "1".toList), "118.710(7)", "g"⟩,
  ⟨50, "Sn", 115, (.unc ⟨dg 3 114, (some (dg 9 903344699)), none⟩ "16".toList), (.unc ⟨dg 1 0, (some (dg 4 34)), none⟩ "1".toList), "118.710(7)", "g"⟩,
  ⟨50, "Sn", 116, (.unc ⟨dg 3 115, (some (dg 8 90174280)), none⟩ "10".toList), (.unc ⟨dg 1 0, (some (dg 4 1454)), none⟩ "9".toList), "118.710(7)", "g"⟩,
  ⟨50, "Sn", 117, (.unc ⟨dg 3 116, (some (dg 8 90295398)), none⟩ "52".toList), (.unc ⟨dg 1 0, (some (dg 4 768)), none⟩ "7".toList), "118.710(7)", "g"⟩,
  ⟨50, "Sn", 118, (.unc ⟨dg 3 117, (some (dg 8 90160657)), none⟩ "54".toList), (.unc ⟨dg 1 0, (some (dg 4 2422)), none⟩ "9".toList), "118.710(7)", "g"⟩,
  ⟨50, "Sn", 119, (.unc ⟨dg 3 118, (some (dg 8 90331117)), none⟩ "78".toList), (.unc ⟨dg 1 0, (some (dg 4 859)), none⟩ "4".toList), "118.710(7)", "g"⟩,
  ⟨50, "Sn", 120, (.unc ⟨dg 3 119, (some (dg 8 90220163)), none⟩ "97".toList), (.unc ⟨dg 1 0, (some (dg 4 3258)), none⟩ "9".toList), "118.710(7)", "g"⟩,
  ⟨50, "Sn", 122, (.unc ⟨dg 3 121, (some (dg 7 9034438)), none⟩ "26".toList), (.unc ⟨dg 1 0, (some (dg 4 463)), none⟩ "3".toList), "118.710(7)", "g"⟩,
  ⟨50, "Sn", 124, (.unc ⟨dg 3 123, (some (dg 7 9052766)), none⟩ "11".toList), (.unc ⟨dg 1 0, (some (dg 4 579)), none⟩ "5".toList), "118.710(7)", "g"⟩,
  ⟨51, "Sb", 121, (.unc ⟨dg 3 120, (some (dg 7 9038120)), none⟩ "30".toList), (.unc ⟨dg 1 0, (some (dg 4 5721)), none⟩ "5".toList), "121.760(1)", "g"⟩,
  ⟨51, "Sb", 123, (.unc ⟨dg 3 122, (some (dg 7 9042132)), none⟩ "23".toList), (.unc ⟨dg 1 0, (some (dg 4 4279)), none⟩ "5".toList), "121.760(1)", "g"⟩,
  ⟨52, "Te", 120, (.unc ⟨dg 3 119, (some (dg 7 9040593)), none⟩ "33".toList), (.unc ⟨dg 1 0, (some (dg 4 9)), none⟩ "1".toList), "127.60(3)", "g"⟩,
  ⟨52, "Te", 122, (.unc ⟨dg 3 121, (some (dg 7 9030435)), none⟩ "16".toList), (.unc ⟨dg 1 0, (some (dg 4 255)), none⟩ "12".toList), "127.60(3)", "g"⟩,
  ⟨52, "Te", 123, (.unc ⟨dg 3 122, (some (dg 7 9042698)), none⟩ "16".toList), (.unc ⟨dg 1 0, (some (dg 4 89)), none⟩ "3".toList), "127.60(3)", "g"⟩,
  ⟨52, "Te", 124, (.unc ⟨dg 3 123, (some (dg 7 9028171)), none⟩ "16".toList), (.unc ⟨dg 1 0, (some (dg 4 474)), none⟩ "14".toList), "127.60(3)", "g"⟩,
  ⟨52, "Te", 125, (.unc ⟨dg 3 124, (some (dg 7 9044299)), none⟩ "16".toList), (.unc ⟨dg 1 0, (some (dg 4 707)), none⟩ "15".toList), "127.60(3)", "g"⟩,
  ⟨52, "Te", 126, (.unc ⟨dg 3 125, (some (dg 7 9033109)), none⟩ "16".toList), (.unc ⟨dg 1 0, (some (dg 4 1884)), none⟩ "25".toList), "127.60(3)", "g"⟩,
  ⟨52, "Te", 128, (.unc ⟨dg 3 127, (some (dg 8 90446128)), none⟩ "93".toList), (.unc ⟨dg 1 0, (some (dg 4 3174)), none⟩ "8".toList), "127.60(3)", "g"⟩,
  ⟨52, "Te", 130, (.unc ⟨dg 3 129, (some (dg 9 906222748)), none⟩ "12".toList), (.unc ⟨dg 1 0, (some (dg 4 3408)), none⟩ "62".toList), "127.60(3)", "g"⟩,
  ⟨53, "I", 127, (.unc ⟨dg 3 126, (some (dg 7 9044719)), none⟩ "39".toList), (.plain ⟨dg 1 1, none, none⟩), "126.90447(3)", " "⟩,
  ⟨54, "Xe", 124, (.unc ⟨dg 3 123, (some (dg 7 9058920)), none⟩ "19".toList), (.unc ⟨dg 1 0, (some (dg 6 952)), none⟩ "3".toList), "131.293(6)", "g,m"⟩,
  ⟨54, "Xe", 126, (.unc ⟨dg 3 125, (some (dg 7 9042983)), none⟩ "38".toList), (.unc ⟨dg 1 0, (some (dg 6 890)), none⟩ "2".toList), "131.293(6)", "g,m"⟩,
  ⟨54, "Xe", 128, (.unc ⟨dg 3 127, (some (dg 7 9035310)), none⟩ "11".toList), (.unc ⟨dg 1 0, (some (dg 6 19102)), none⟩ "8".toList), "131.293(6)", "g,m"⟩,
  ⟨54, "Xe", 129, (.unc ⟨dg 3 128, (some (dg 10 9047808611)), none⟩ "60".toList), (.unc ⟨dg 1 0, (some (dg 6 264006)), none⟩ "82".toList), "131.293(6)", "g,m"⟩,
  ⟨54, "Xe", 130, (.unc ⟨dg 3 129, (some (dg 9 903509349)), none⟩ "10".toList), (.unc ⟨dg 1 0, (some (dg 6 40710)), none⟩ "13".toList), "131.293(6)", "g,m"⟩,
  ⟨54, "Xe", 131, (.unc ⟨dg 3 130, (some (dg 8 90508406)), none⟩ "24".toList), (.unc ⟨dg 1 0, (some (dg 6 212324)), none⟩ "30".toList), "131.293(6)", "g,m"⟩,
  ⟨54, "Xe", 132, (.unc ⟨dg 3 131, (some (dg 10 9041550856)), none⟩ "56".toList), (.unc ⟨dg 1 0, (some (dg 6 269086)), none⟩ "33".toList), "131.293(6)", "g,m"⟩,
  ⟨54, "Xe", 134, (.unc ⟨dg 3 133, (some (dg 8 90539466)), none⟩ "90".toList), (.unc ⟨dg 1 0, (some (dg 6 104357)), none⟩ "21".toList), "131.293(6)", "g,m"⟩,
  ⟨54, "Xe", 136, (.unc ⟨dg 3 135, (some (dg 9 907214484)), none⟩ "11".toList), (.unc ⟨dg 1 0, (some (dg 6 88573)), none⟩ "44".toList), "131.293(6)", "g,m"⟩,
  ⟨55, "Cs", 133, (.unc ⟨dg 3 132, (some (dg 10 9054519610)), none⟩ "80".toList), (.plain ⟨dg 1 1, none, none⟩), "132.90545196(6)", " "⟩,
  ⟨56, "Ba", 130, (.unc ⟨dg 3 129, (some (dg 7 9063207)), none⟩ "28".toList), (.unc ⟨dg 1 0, (some (dg 5 106)), none⟩ "1".toList), "137.327(7)", " "⟩,
  ⟨56, "Ba", 132, (.unc ⟨dg 3 131, (some (dg 7 9050611)), none⟩ "11".toList), (.unc ⟨dg 1 0, (some (dg 5 101)), none⟩ "1".toList), "137.327(7)", " "⟩,
  ⟨56, "Ba", 134, (.unc ⟨dg 3 133, (some (dg 8 90450818)), none⟩ "30".toList), (.unc ⟨dg 1 0, (some (dg 5 2417)), none⟩ "18".toList), "137.327(7)", " "⟩,
  ⟨56, "Ba", 135, (.unc ⟨dg 3 134, (some (dg 8 90568838)), none⟩ "29".toList), (.unc ⟨dg 1 0, (some (dg 5 6592)), none⟩ "12".toList), "137.327(7)", " "⟩,
  ⟨56, "Ba", 136, (.unc ⟨dg 3 135, (some (dg 8 90457573)), none⟩ "29".toList), (.unc ⟨dg 1 0, (some (dg 5 7854)), none⟩ "24".toList), "137.327(7)", " "⟩,
  ⟨56, "Ba", 137, (.unc ⟨dg 3 136, (some (dg 8 90582714)), none⟩ "30".toList), (.unc ⟨dg 1 0, (some (dg 5 11232)), none⟩ "24".toList), "137.327(7)", " "⟩,
  ⟨56, "Ba", 138, (.unc ⟨dg 3 137, (some (dg 8 90524700)), none⟩ "31".toList), (.unc ⟨dg 1 0, (some (dg 5 71698)), none⟩ "42".toList), "137.327(7)", " "⟩,
  ⟨57, "La", 138, (.unc ⟨dg 3 137, (some (dg 7 9071149)), none⟩ "37".toList), (.unc ⟨dg 1 0, (some (dg 7 8881)), none⟩ "71".toList), "138.90547(7)", "g"⟩,
  ⟨57, "La", 139, (.unc ⟨dg 3 138, (some (dg 7 9063563)), none⟩ "24".toList), (.unc ⟨dg 1 0, (some (dg 7 9991119)), none⟩ "71".toList), "138.90547(7)", "g"⟩,
  ⟨58, "Ce", 136, (.unc ⟨dg 3 135, (some (dg 8 90712921)), none⟩ "41".toList), (.unc ⟨dg 1 0, (some (dg 5 185)), none⟩ "2".toList), "140.116(1)", "g"⟩,
  ⟨58, "Ce", 138, (.unc ⟨dg 3 137, (some (dg 6 905991)), none⟩ "11".toList), (.unc ⟨dg 1 0, (some (dg 5 251)), none⟩ "2".toList), "140.116(1)", "g"⟩,
  ⟨58, "Ce", 140, (.unc ⟨dg 3 139, (some (dg 7 9054431)), none⟩ "23".toList), (.unc ⟨dg 1 0, (some (dg 5 88450)), none⟩ "51".toList), "140.116(1)", "g"⟩,
  ⟨58, "Ce", 142, (.unc ⟨dg 3 141, (some (dg 7 9092504)), none⟩ "29".toList), (.unc ⟨dg 1 0, (some (dg 5 11114)), none⟩ "51".toList), "140.116(1)", "g"⟩,
  ⟨59, "Pr", 141, (.unc ⟨dg 3 140, (some (dg 7 9076576)), none⟩ "23".toList), (.plain ⟨dg 1 1, none, none⟩), "140.90766(2)", " "⟩,
  ⟨60, "Nd", 142, (.unc ⟨dg 3 141, (some (dg 7 9077290)), none⟩ "20".toList), (.unc ⟨dg 1 0, (some (dg 5 27152)), none⟩ "40".toList), "144.242(3)", "g"⟩,
  ⟨60, "Nd", 143, (.unc ⟨dg 3 142, (some (dg 7 9098200)), none⟩ "20".toList), (.unc ⟨dg 1 0, (some (dg 5 12174)), none⟩ "26".toList), "144.242(3)", "g"⟩,
  ⟨60, "Nd", 144, (.unc ⟨dg 3 143, (some (dg 7 9100930)), none⟩ "20".toList), (.unc ⟨dg 1 0, (some (dg 5 23798)), none⟩ "19".toList), "144.242(3)", "g"⟩,
  ⟨60, "Nd", 145, (.unc ⟨dg 3 144, (some (dg 7 9125793)), none⟩ "20".toList), (.unc ⟨dg 1 0, (some (dg 5 8293)), none⟩ "12".toList), "144.242(3)", "g"⟩,
  ⟨60, "Nd", 146, (.unc ⟨dg 3 145, (some (dg 7 9131226)), none⟩ "20".toList), (.unc ⟨dg 1 0, (some (dg 5 17189)), none⟩ "32".toList), "144.242(3)", "g"⟩,
  ⟨60, "Nd", 148, (.unc ⟨dg 3 147, (some (dg 7 9168993)), none⟩ "26".toList), (.unc ⟨dg 1 0, (some (dg 5 5756)), none⟩ "21".toList), "144.242(3)", "g"⟩,
  ⟨60, "Nd", 150, (.unc ⟨dg 3 149, (some (dg 7 9209022)), none⟩ "18".toList), (.unc ⟨dg 1 0, (some (dg 5 5638)), none⟩ "28".toList), "144.242(3)", "g"⟩]

/-- Z = 61 to 80 -/
def shippedParas61 : List ShippedPara := [
  ⟨61, "Pm", 145, (.unc ⟨dg 3 144, (some (dg 7 9127559)), none⟩ "33".toList), .empty, "[145]", " "⟩,
  ⟨61, "Pm", 147, (.unc ⟨dg 3 146, (some (dg 7 9151450)), none⟩ "19".toList), .empty, "[145]", " "⟩,
  ⟨62, "Sm", 144, (.unc ⟨dg 3 143, (some (dg 7 9120065)), none⟩ "21".toList), (.unc ⟨dg 1 0, (some (dg 4 307)), none⟩ "7".toList), "150.36(2)", "g"⟩,
  ⟨62, "Sm", 147, (.unc ⟨dg 3 146, (some (dg 7 9149044)), none⟩ "19".toList), (.unc ⟨dg 1 0, (some (dg 4 1499)), none⟩ "18".toList), "150.36(2)", "g"⟩,
  ⟨62, "Sm", 148, (.unc ⟨dg 3 147, (some (dg 7 9148292)), none⟩ "19".toList), (.unc ⟨dg 1 0, (some (dg 4 1124)), none⟩ "10".toList), "150.36(2)", "g"⟩,
  ⟨62, "Sm", 149, (.unc ⟨dg 3 148, (some (dg 7 9171921)), none⟩ "18".toList), (.unc ⟨dg 1 0, (some (dg 4 1382)), none⟩ "7".toList), "150.36(2)", "g"⟩,
  ⟨62, "Sm", 150, (.unc ⟨dg 3 149, (some (dg 7 9172829)), none⟩ "18".toList), (.unc ⟨dg 1 0, (some (dg 4 738)), none⟩ "1".toList), "150.36(2)", "g"⟩,
  ⟨62, "Sm", 152, (.unc ⟨dg 3 151, (some (dg 7 9197397)), none⟩ "18".toList), (.unc ⟨dg 1 0, (some (dg 4 2675)), none⟩ "16".toList), "150.36(2)", "g"⟩,
  ⟨62, "Sm", 154, (.unc ⟨dg 3 153, (some (dg 7 9222169)), none⟩ "20".toList), (.unc ⟨dg 1 0, (some (dg 4 2275)), none⟩ "29".toList), "150.36(2)", "g"⟩,
  ⟨63, "Eu", 151, (.unc ⟨dg 3 150, (some (dg 7 9198578)), none⟩ "18".toList), (.unc ⟨dg 1 0, (some (dg 4 4781)), none⟩ "6".toList), "151.964(1)", "g"⟩,
  ⟨63, "Eu", 153, (.unc ⟨dg 3 152, (some (dg 7 9212380)), none⟩ "18".toList), (.unc ⟨dg 1 0, (some (dg 4 5219)), none⟩ "6".toList), "151.964(1)", "g"⟩,
  ⟨64, "Gd", 152, (.unc ⟨dg 3 151, (some (dg 7 9197995)), none⟩ "18".toList), (.unc ⟨dg 1 0, (some (dg 4 20)), none⟩ "1".toList), "157.25(3)", "g"⟩,
  ⟨64, "Gd", 154, (.unc ⟨dg 3 153, (some (dg 7 9208741)), none⟩ "17".toList), (.unc ⟨dg 1 0, (some (dg 4 218)), none⟩ "3".toList), "157.25(3)", "g"⟩,
  ⟨64, "Gd", 155, (.unc ⟨dg 3 154, (some (dg 7 9226305)), none⟩ "17".toList), (.unc ⟨dg 1 0, (some (dg 4 1480)), none⟩ "12".toList), "157.25(3)", "g"⟩,
  ⟨64, "Gd", 156, (.unc ⟨dg 3 155, (some (dg 7 9221312)), none⟩ "17".toList), (.unc ⟨dg 1 0, (some (dg 4 2047)), none⟩ "9".toList), "157.25(3)", "g"⟩,
  ⟨64, "Gd", 157, (.unc ⟨dg 3 156, (some (dg 7 9239686)), none⟩ "17".toList), (.unc ⟨dg 1 0, (some (dg 4 1565)), none⟩ "2".toList), "157.25(3)", "g"⟩,
  ⟨64, "Gd", 158, (.unc ⟨dg 3 157, (some (dg 7 9241123)), none⟩ "17".toList), (.unc ⟨dg 1 0, (some (dg 4 2484)), none⟩ "7".toList), "157.25(3)", "g"⟩,
  ⟨64, "Gd", 160, (.unc ⟨dg 3 159, (some (dg 7 9270624)), none⟩ "18".toList), (.unc ⟨dg 1 0, (some (dg 4 2186)), none⟩ "19".toList), "157.25(3)", "g"⟩,
  ⟨65, "Tb", 159, (.unc ⟨dg 3 158, (some (dg 7 9253547)), none⟩ "19".toList), (.plain ⟨dg 1 1, none, none⟩), "158.92535(2)", " "⟩,
  ⟨66, "Dy", 156, (.unc ⟨dg 3 155, (some (dg 7 9242847)), none⟩ "17".toList), (.unc ⟨dg 1 0, (some (dg 5 56)), none⟩ "3".toList), "162.500(1)", "g"⟩,
  ⟨66, "Dy", 158, (.unc ⟨dg 3 157, (some (dg 7 9244159)), none⟩ "31".toList), (.unc ⟨dg 1 0, (some (dg 5 95)), none⟩ "3".toList), "162.500(1)", "g"⟩,
  ⟨66, "Dy", 160, (.unc ⟨dg 3 159, (some (dg 7 9252046)), none⟩ "20".toList), (.unc ⟨dg 1 0, (some (dg 5 2329)), none⟩ "18".toList), "162.500(1)", "g"⟩,
  ⟨66, "Dy", 161, (.unc ⟨dg 3 160, (some (dg 7 9269405)), none⟩ "20".toList), (.unc ⟨dg 1 0, (some (dg 5 18889)), none⟩ "42".toList), "162.500(1)", "g"⟩,
  ⟨66, "Dy", 162, (.unc ⟨dg 3 161, (some (dg 7 9268056)), none⟩ "20".toList), (.unc ⟨dg 1 0, (some (dg 5 25475)), none⟩ "36".toList), "162.500(1)", "g"⟩,
  ⟨66, "Dy", 163, (.unc ⟨dg 3 162, (some (dg 7 9287383)), none⟩ "20".toList), (.unc ⟨dg 1 0, (some (dg 5 24896)), none⟩ "42".toList), "162.500(1)", "g"⟩,
  ⟨66, "Dy", 164, (.unc ⟨dg 3 163, (some (dg 7 9291819)), none⟩ "20".toList), (.unc ⟨dg 1 0, (some (dg 5 28260)), none⟩ "54".toList), "162.500(1)", "g"⟩,
  ⟨67, "Ho", 165, (.unc ⟨dg 3 164, (some (dg 7 9303288)), none⟩ "21".toList), (.plain ⟨dg 1 1, none, none⟩), "164.93033(2)", " "⟩,
  ⟨68, "Er", 162, (.unc ⟨dg 3 161, (some (dg 7 9287884)), none⟩ "20".toList), (.unc ⟨dg 1 0, (some (dg 5 139)), none⟩ "5".toList), "167.259(3)", "g"⟩,
  ⟨68, "Er", 164, (.unc ⟨dg 3 163, (some (dg 7 9292088)), none⟩ "20".toList), (.unc ⟨dg 1 0, (some (dg 5 1601)), none⟩ "3".toList), "167.259(3)", "g"⟩,
  ⟨68, "Er", 166, (.unc ⟨dg 3 165, (some (dg 7 9302995)), none⟩ "22".toList), (.unc ⟨dg 1 0, (some (dg 5 33503)), none⟩ "36".toList), "167.259(3)", "g"⟩,
  ⟨68, "Er", 167, (.unc ⟨dg 3 166, (some (dg 7 9320546)), none⟩ "22".toList), (.unc ⟨dg 1 0, (some (dg 5 22869)), none⟩ "9".toList), "167.259(3)", "g"⟩,
  ⟨68, "Er", 168, (.unc ⟨dg 3 167, (some (dg 7 9323767)), none⟩ "22".toList), (.unc ⟨dg 1 0, (some (dg 5 26978)), none⟩ "18".toList), "167.259(3)", "g"⟩,
  ⟨68, "Er", 170, (.unc ⟨dg 3 169, (some (dg 7 9354702)), none⟩ "26".toList), (.unc ⟨dg 1 0, (some (dg 5 14910)), none⟩ "36".toList), "167.259(3)", "g"⟩,
  ⟨69, "Tm", 169, (.unc ⟨dg 3 168, (some (dg 7 9342179)), none⟩ "22".toList), (.plain ⟨dg 1 1, none, none⟩), "168.93422(2)", " "⟩,
  ⟨70, "Yb", 168, (.unc ⟨dg 3 167, (some (dg 7 9338896)), none⟩ "22".toList), (.unc ⟨dg 1 0, (some (dg 5 123)), none⟩ "3".toList), "173.054(5)", "g"⟩,
  ⟨70, "Yb", 170, (.unc ⟨dg 3 169, (some (dg 7 9347664)), none⟩ "22".toList), (.unc ⟨dg 1 0, (some (dg 5 2982)), none⟩ "39".toList), "173.054(5)", "g"⟩,
  ⟨70, "Yb", 171, (.unc ⟨dg 3 170, (some (dg 7 9363302)), none⟩ "22".toList), (.unc ⟨dg 1 0, (some (dg 4 1409)), none⟩ "14".toList), "173.054(5)", "g"⟩,
  ⟨70, "Yb", 172, (.unc ⟨dg 3 171, (some (dg 7 9363859)), none⟩ "22".toList), (.unc ⟨dg 1 0, (some (dg 4 2168)), none⟩ "13".toList), "173.054(5)", "g"⟩,
  ⟨70, "Yb", 173, (.unc ⟨dg 3 172, (some (dg 7 9382151)), none⟩ "22".toList), (.unc ⟨dg 1 0, (some (dg 5 16103)), none⟩ "63".toList), "173.054(5)", "g"⟩,
  ⟨70, "Yb", 174, (.unc ⟨dg 3 173, (some (dg 7 9388664)), none⟩ "22".toList), (.unc ⟨dg 1 0, (some (dg 5 32026)), none⟩ "80".toList), "173.054(5)", "g"⟩,
  ⟨70, "Yb", 176, (.unc ⟨dg 3 175, (some (dg 7 9425764)), none⟩ "24".toList), (.unc ⟨dg 1 0, (some (dg 5 12996)), none⟩ "83".toList), "173.054(5)", "g"⟩,
  ⟨71, "Lu", 175, (.unc ⟨dg 3 174, (some (dg 7 9407752)), none⟩ "20".toList), (.unc ⟨dg 1 0, (some (dg 5 97401)), none⟩ "13".toList), "174.9668(1)", "g"⟩,
  ⟨71, "Lu", 176, (.unc ⟨dg 3 175, (some (dg 7 9426897)), none⟩ "20".toList), (.unc ⟨dg 1 0, (some (dg 5 2599)), none⟩ "13".toList), "174.9668(1)", "g"⟩,
  ⟨72, "Hf", 174, (.unc ⟨dg 3 173, (some (dg 7 9400461)), none⟩ "28".toList), (.unc ⟨dg 1 0, (some (dg 4 16)), none⟩ "1".toList), "178.49(2)", " "⟩,
  ⟨72, "Hf", 176, (.unc ⟨dg 3 175, (some (dg 7 9414076)), none⟩ "22".toList), (.unc ⟨dg 1 0, (some (dg 4 526)), none⟩ "7".toList), "178.49(2)", " "⟩,
  ⟨72, "Hf", 177, (.unc ⟨dg 3 176, (some (dg 7 9432277)), none⟩ "20".toList), (.unc ⟨dg 1 0, (some (dg 4 1860)), none⟩ "9".toList), "178.49(2)", " "⟩,
  ⟨72, "Hf", 178, (.unc ⟨dg 3 177, (some (dg 7 9437058)), none⟩ "20".toList), (.unc ⟨dg 1 0, (some (dg 4 2728)), none⟩ "7".toList), "178.49(2)", " "⟩,
  ⟨72, "Hf", 179, (.unc ⟨dg 3 178, (some (dg 7 9458232)), none⟩ "20".toList), (.unc ⟨dg 1 0, (some (dg 4 1362)), none⟩ "2".toList), "178.49(2)", " "⟩,
  ⟨72, "Hf", 180, (.unc ⟨dg 3 179, (some (dg 7 9465570)), none⟩ "20".toList), (.unc ⟨dg 1 0, (some (dg 4 3508)), none⟩ "16".toList), "178.49(2)", " "⟩,
  ⟨73, "Ta", 180, (.unc ⟨dg 3 179, (some (dg 7 9474648)), none⟩ "24".toList), (.unc ⟨dg 1 0, (some (dg 7 1201)), none⟩ "32".toList), "180.94788(2)", " "⟩,
  ⟨73, "Ta", 181, (.unc ⟨dg 3 180, (some (dg 7 9479958)), none⟩ "20".toList), (.unc ⟨dg 1 0, (some (dg 7 9998799)), none⟩ "32".toList), "180.94788(2)", " "⟩,
  ⟨74, "W", 180, (.unc ⟨dg 3 179, (some (dg 7 9467108)), none⟩ "20".toList), (.unc ⟨dg 1 0, (some (dg 4 12)), none⟩ "1".toList), "183.84(1)", " "⟩,
  ⟨74, "W", 182, (.unc ⟨dg 3 181, (some (dg 8 94820394)), none⟩ "91".toList), (.unc ⟨dg 1 0, (some (dg 4 2650)), none⟩ "16".toList), "183.84(1)", " "⟩,
  ⟨74, "W", 183, (.unc ⟨dg 3 182, (some (dg 8 95022275)), none⟩ "90".toList), (.unc ⟨dg 1 0, (some (dg 4 1431)), none⟩ "4".toList), "183.84(1)", " "⟩,
  ⟨74, "W", 184, (.unc ⟨dg 3 183, (some (dg 8 95093092)), none⟩ "94".toList), (.unc ⟨dg 1 0, (some (dg 4 3064)), none⟩ "2".toList), "183.84(1)", " "⟩,
  ⟨74, "W", 186, (.unc ⟨dg 3 185, (some (dg 7 9543628)), none⟩ "17".toList), (.unc ⟨dg 1 0, (some (dg 4 2843)), none⟩ "19".toList), "183.84(1)", " "⟩,
  ⟨75, "Re", 185, (.unc ⟨dg 3 184, (some (dg 7 9529545)), none⟩ "13".toList), (.unc ⟨dg 1 0, (some (dg 4 3740)), none⟩ "2".toList), "186.207(1)", " "⟩,
  ⟨75, "Re", 187, (.unc ⟨dg 3 186, (some (dg 7 9557501)), none⟩ "16".toList), (.unc ⟨dg 1 0, (some (dg 4 6260)), none⟩ "2".toList), "186.207(1)", " "⟩,
  ⟨76, "Os", 184, (.unc ⟨dg 3 183, (some (dg 7 9524885)), none⟩ "14".toList), (.unc ⟨dg 1 0, (some (dg 4 2)), none⟩ "1".toList), "190.23(3)", "g"⟩,
  ⟨76, "Os", 186, (.unc ⟨dg 3 185, (some (dg 7 9538350)), none⟩ "16".toList), (.unc ⟨dg 1 0, (some (dg 4 159)), none⟩ "3".toList), "190.23(3)", "g"⟩,
  ⟨76, "Os", 187, (.unc ⟨dg 3 186, (some (dg 7 9557474)), none⟩ "16".toList), (.unc ⟨dg 1 0, (some (dg 4 196)), none⟩ "2".toList), "190.23(3)", "g"⟩,
  ⟨76, "Os", 188, (.unc ⟨dg 3 187, (some (dg 7 9558352)), none⟩ "16".toList), (.unc ⟨dg 1 0, (some (dg 4 1324)), none⟩ "8".toList), "190.23(3)", "g"⟩,
  ⟨76, "Os", 189, (.unc ⟨dg 3 188, (some (dg 7 9581442)), none⟩ "17".toList), (.unc ⟨dg 1 0, (some (dg 4 1615)), none⟩ "5".toList), "190.23(3)", "g"⟩,
  ⟨76, "Os", 190, (.unc ⟨dg 3 189, (some (dg 7 9584437)), none⟩ "17".toList), (.unc ⟨dg 1 0, (some (dg 4 2626)), none⟩ "2".toList), "190.23(3)", "g"⟩,
  ⟨76, "Os", 192, (.unc ⟨dg 3 191, (some (dg 7 9614770)), none⟩ "29".toList), (.unc ⟨dg 1 0, (some (dg 4 4078)), none⟩ "19".toList), "190.23(3)", "g"⟩,
  ⟨77, "Ir", 191, (.unc ⟨dg 3 190, (some (dg 7 9605893)), none⟩ "21".toList), (.unc ⟨dg 1 0, (some (dg 3 373)), none⟩ "2".toList), "192.217(3)", " "⟩,
  ⟨77, "Ir", 193, (.unc ⟨dg 3 192, (some (dg 7 9629216)), none⟩ "21".toList), (.unc ⟨dg 1 0, (some (dg 3 627)), none⟩ "2".toList), "192.217(3)", " "⟩,
  ⟨78, "Pt", 190, (.unc ⟨dg 3 189, (some (dg 7 9599297)), none⟩ "63".toList), (.unc ⟨dg 1 0, (some (dg 5 12)), none⟩ "2".toList), "195.084(9)", " "⟩,
  ⟨78, "Pt", 192, (.unc ⟨dg 3 191, (some (dg 7 9610387)), none⟩ "32".toList), (.unc ⟨dg 1 0, (some (dg 5 782)), none⟩ "24".toList), "195.084(9)", " "⟩,
  ⟨78, "Pt", 194, (.unc ⟨dg 3 193, (some (dg 7 9626809)), none⟩ "10".toList), (.unc ⟨dg 1 0, (some (dg 4 3286)), none⟩ "40".toList), "195.084(9)", " "⟩,
  ⟨78, "Pt", 195, (.unc ⟨dg 3 194, (some (dg 7 9647917)), none⟩ "10".toList), (.unc ⟨dg 1 0, (some (dg 4 3378)), none⟩ "24".toList), "195.084(9)", " "⟩,
  ⟨78, "Pt", 196, (.unc ⟨dg 3 195, (some (dg 8 96495209)), none⟩ "99".toList), (.unc ⟨dg 1 0, (some (dg 4 2521)), none⟩ "34".toList), "195.084(9)", " "⟩,
  ⟨78, "Pt", 198, (.unc ⟨dg 3 197, (some (dg 7 9678949)), none⟩ "23".toList), (.unc ⟨dg 1 0, (some (dg 5 7356)), none⟩ "130".toList), "195.084(9)", " "⟩,
  ⟨79, "Au", 197, (.unc ⟨dg 3 196, (some (dg 8 96656879)), none⟩ "71".toList), (.plain ⟨dg 1 1, none, none⟩), "196.966569(5)", " "⟩,
  ⟨80, "Hg", 196, (.unc ⟨dg 3 195, (some (dg 7 9658326)), none⟩ "32".toList), (.unc ⟨dg 1 0, (some (dg 4 15)), none⟩ "1".toList), "200.592(3)", " "⟩,
  ⟨80, "Hg", 198, (.unc ⟨dg 3 197, (some (dg 8 96676860)), none⟩ "52".toList), (.unc ⟨dg 1 0, (some (dg 4 997)), none⟩ "20".toList), "200.592(3)", " "⟩,
  ⟨80, "Hg", 199, (.unc ⟨dg 3 198, (some (dg 8 96828064)), none⟩ "46".toList), (.unc ⟨dg 1 0, (some (dg 4 1687)), none⟩ "22".toList), "200.592(3)", " "⟩,
  ⟨80, "Hg", 200, (.unc ⟨dg 3 199, (some (dg 8 96832659)), none⟩ "47".toList), (.unc ⟨dg 1 0, (some (dg 4 2310)), none⟩ "19".toList), "200.592(3)", " "⟩,
  ⟨80, "Hg", 201, (.unc ⟨dg 3 200, (some (dg 8 97030284)), none⟩ "69".toList), (.unc ⟨dg 1 0, (some (dg 4 1318)), none⟩ "9".toList), "200.592(3)", " "⟩,
  ⟨80, "Hg", 202, (.unc ⟨dg 3 201, (some (dg 8 97064340)), none⟩ "69".toList), (.unc ⟨dg 1 0, (some (dg 4 2986)), none⟩ "26".toList), "200.592(3)", " "⟩,
  ⟨80, "Hg", 204, (.unc ⟨dg 3 203, (some (dg 8 97349398)), none⟩ "53".toList), (.unc ⟨dg 1 0, (some (dg 4 687)), none⟩ "15".toList), "200.592(3)", " "⟩]

/-- Z = 81 to 100 -/
def shippedParas81 : List ShippedPara := [
  ⟨81, "Tl", 203, (.unc ⟨dg 3 202, (some (dg 7 9723446)), none⟩ "14".toList), (.unc ⟨dg 1 0, (some (dg 4 2952)), none⟩ "1".toList), "[204.382,204.385]", " "⟩,
  ⟨81, "Tl", 205, (.unc ⟨dg 3 204, (some (dg 7 9744278)), none⟩ "14".toList), (.unc ⟨dg 1 0, (some (dg 4 7048)), none⟩ "1".toList), "[204.382,204.385]", " "⟩,
  ⟨82, "Pb", 204, (.unc ⟨dg 3 203, (some (dg 7 9730440)), none⟩ "13".toList), (.unc ⟨dg 1 0, (some (dg 3 14)), none⟩ "1".toList), "207.2(1)", "g,r"⟩,
  ⟨82, "Pb", 206, (.unc ⟨dg 3 205, (some (dg 7 9744657)), none⟩ "13".toList), (.unc ⟨dg 1 0, (some (dg 3 241)), none⟩ "1".toList), "207.2(1)", "g,r"⟩,
  ⟨82, "Pb", 207, (.unc ⟨dg 3 206, (some (dg 7 9758973)), none⟩ "13".toList), (.unc ⟨dg 1 0, (some (dg 3 221)), none⟩ "1".toList), "207.2(1)", "g,r"⟩,
  ⟨82, "Pb", 208, (.unc ⟨dg 3 207, (some (dg 7 9766525)), none⟩ "13".toList), (.unc ⟨dg 1 0, (some (dg 3 524)), none⟩ "1".toList), "207.2(1)", "g,r"⟩,
  ⟨83, "Bi", 209, (.unc ⟨dg 3 208, (some (dg 7 9803991)), none⟩ "16".toList), (.plain ⟨dg 1 1, none, none⟩), "208.98040(1)", " "⟩,
  ⟨84, "Po", 209, (.unc ⟨dg 3 208, (some (dg 7 9824308)), none⟩ "20".toList), .empty, "[209]", " "⟩,
  ⟨84, "Po", 210, (.unc ⟨dg 3 209, (some (dg 7 9828741)), none⟩ "13".toList), .empty, "[209]", " "⟩,
  ⟨85, "At", 210, (.unc ⟨dg 3 209, (some (dg 7 9871479)), none⟩ "83".toList), .empty, "[210]", " "⟩,
  ⟨85, "At", 211, (.unc ⟨dg 3 210, (some (dg 7 9874966)), none⟩ "30".toList), .empty, "[210]", " "⟩,
  ⟨86, "Rn", 211, (.unc ⟨dg 3 210, (some (dg 7 9906011)), none⟩ "73".toList), .empty, "[222]", " "⟩,
  ⟨86, "Rn", 220, (.unc ⟨dg 3 220, (some (dg 7 113941)), none⟩ "23".toList), .empty, "[222]", " "⟩,
  ⟨86, "Rn", 222, (.unc ⟨dg 3 222, (some (dg 7 175782)), none⟩ "25".toList), .empty, "[222]", " "⟩,
  ⟨87, "Fr", 223, (.unc ⟨dg 3 223, (some (dg 7 197360)), none⟩ "25".toList), .empty, "[223]", " "⟩,
  ⟨88, "Ra", 223, (.unc ⟨dg 3 223, (some (dg 7 185023)), none⟩ "27".toList), .empty, "[226]", " "⟩,
  ⟨88, "Ra", 224, (.unc ⟨dg 3 224, (some (dg 7 202120)), none⟩ "23".toList), .empty, "[226]", " "⟩,
  ⟨88, "Ra", 226, (.unc ⟨dg 3 226, (some (dg 7 254103)), none⟩ "25".toList), .empty, "[226]", " "⟩,
  ⟨88, "Ra", 228, (.unc ⟨dg 3 228, (some (dg 7 310707)), none⟩ "26".toList), .empty, "[226]", " "⟩,
  ⟨89, "Ac", 227, (.unc ⟨dg 3 227, (some (dg 7 277523)), none⟩ "25".toList), .empty, "[227]", " "⟩,
  ⟨90, "Th", 230, (.unc ⟨dg 3 230, (some (dg 7 331341)), none⟩ "19".toList), .empty, "232.0377(4)", "g"⟩,
  ⟨90, "Th", 232, (.unc ⟨dg 3 232, (some (dg 7 380558)), none⟩ "21".toList), (.plain ⟨dg 1 1, none, none⟩), "232.0377(4)", "g"⟩,
  ⟨91, "Pa", 231, (.unc ⟨dg 3 231, (some (dg 7 358842)), none⟩ "24".toList), (.plain ⟨dg 1 1, none, none⟩), "231.03588(2)", " "⟩,
  ⟨92, "U", 233, (.unc ⟨dg 3 233, (some (dg 7 396355)), none⟩ "29".toList), .empty, "238.02891(3)", "g,m"⟩,
  ⟨92, "U", 234, (.unc ⟨dg 3 234, (some (dg 7 409523)), none⟩ "19".toList), (.unc ⟨dg 1 0, (some (dg 6 54)), none⟩ "5".toList), "238.02891(3)", "g,m"⟩,
  ⟨92, "U", 235, (.unc ⟨dg 3 235, (some (dg 7 439301)), none⟩ "19".toList), (.unc ⟨dg 1 0, (some (dg 6 7204)), none⟩ "6".toList), "238.02891(3)", "g,m"⟩,
  ⟨92, "U", 236, (.unc ⟨dg 3 236, (some (dg 7 455682)), none⟩ "19".toList), .empty, "238.02891(3)", "g,m"⟩,
  ⟨92, "U", 238, (.unc ⟨dg 3 238, (some (dg 7 507884)), none⟩ "20".toList), (.unc ⟨dg 1 0, (some (dg 6 992742)), none⟩ "10".toList), "238.02891(3)", "g,m"⟩,
  ⟨93, "Np", 236, (.unc ⟨dg 3 236, (some (dg 6 46570)), none⟩ "54".toList), .empty, "[237]", " "⟩,
  ⟨93, "Np", 237, (.unc ⟨dg 3 237, (some (dg 7 481736)), none⟩ "19".toList), .empty, "[237]", " "⟩,
  ⟨94, "Pu", 238, (.unc ⟨dg 3 238, (some (dg 7 495601)), none⟩ "19".toList), .empty, "[244]", " "⟩,
  ⟨94, "Pu", 239, (.unc ⟨dg 3 239, (some (dg 7 521636)), none⟩ "19".toList), .empty, "[244]", " "⟩,
  ⟨94, "Pu", 240, (.unc ⟨dg 3 240, (some (dg 7 538138)), none⟩ "19".toList), .empty, "[244]", " "⟩,
  ⟨94, "Pu", 241, (.unc ⟨dg 3 241, (some (dg 7 568517)), none⟩ "19".toList), .empty, "[244]", " "⟩,
  ⟨94, "Pu", 242, (.unc ⟨dg 3 242, (some (dg 7 587428)), none⟩ "20".toList), .empty, "[244]", " "⟩,
  ⟨94, "Pu", 244, (.unc ⟨dg 3 244, (some (dg 7 642053)), none⟩ "56".toList), .empty, "[244]", " "⟩,
  ⟨95, "Am", 241, (.unc ⟨dg 3 241, (some (dg 7 568293)), none⟩ "19".toList), .empty, " ", " "⟩,
  ⟨95, "Am", 243, (.unc ⟨dg 3 243, (some (dg 7 613813)), none⟩ "24".toList), .empty, " ", " "⟩,
  ⟨96, "Cm", 243, (.unc ⟨dg 3 243, (some (dg 7 613893)), none⟩ "22".toList), .empty, " ", " "⟩,
  ⟨96, "Cm", 244, (.unc ⟨dg 3 244, (some (dg 7 627528)), none⟩ "19".toList), .empty, " ", " "⟩,
  ⟨96, "Cm", 245, (.unc ⟨dg 3 245, (some (dg 7 654915)), none⟩ "22".toList), .empty, " ", " "⟩,
  ⟨96, "Cm", 246, (.unc ⟨dg 3 246, (some (dg 7 672238)), none⟩ "22".toList), .empty, " ", " "⟩,
  ⟨96, "Cm", 247, (.unc ⟨dg 3 247, (some (dg 7 703541)), none⟩ "47".toList), .empty, " ", " "⟩,
  ⟨96, "Cm", 248, (.unc ⟨dg 3 248, (some (dg 7 723499)), none⟩ "56".toList), .empty, " ", " "⟩,
  ⟨97, "Bk", 247, (.unc ⟨dg 3 247, (some (dg 7 703073)), none⟩ "59".toList), .empty, " ", " "⟩,
  ⟨97, "Bk", 249, (.unc ⟨dg 3 249, (some (dg 7 749877)), none⟩ "27".toList), .empty, " ", " "⟩,
  ⟨98, "Cf", 249, (.unc ⟨dg 3 249, (some (dg 7 748539)), none⟩ "23".toList), .empty, " ", " "⟩,
  ⟨98, "Cf", 250, (.unc ⟨dg 3 250, (some (dg 7 764062)), none⟩ "22".toList), .empty, " ", " "⟩,
  ⟨98, "Cf", 251, (.unc ⟨dg 3 251, (some (dg 7 795886)), none⟩ "48".toList), .empty, " ", " "⟩,
  ⟨98, "Cf", 252, (.unc ⟨dg 3 252, (some (dg 7 816272)), none⟩ "56".toList), .empty, " ", " "⟩,
  ⟨99, "Es", 252, (.unc ⟨dg 3 252, (some (dg 6 82980)), none⟩ "54".toList), .empty, " ", " "⟩,
  ⟨100, "Fm", 257, (.unc ⟨dg 3 257, (some (dg 7 951061)), none⟩ "69".toList), .empty, " ", " "⟩]

/-- Z = 101 to 118 -/
def shippedParas101 : List ShippedPara := [
  ⟨101, "Md", 258, (.unc ⟨dg 3 258, (some (dg 7 984315)), none⟩ "50".toList), .empty, " ", " "⟩,
  ⟨101, "Md", 260, (.unc ⟨dg 3 260, (some (dg 5 10365)), none⟩ "34#".toList), .empty, " ", " "⟩,
  ⟨102, "No", 259, (.unc ⟨dg 3 259, (some (dg 5 10103)), none⟩ "11#".toList), .empty, " ", " "⟩,
  ⟨103, "Lr", 262, (.unc ⟨dg 3 262, (some (dg 5 10961)), none⟩ "22#".toList), .empty, " ", " "⟩,
  ⟨104, "Rf", 267, (.unc ⟨dg 3 267, (some (dg 5 12179)), none⟩ "62#".toList), .empty, " ", " "⟩,
  ⟨105, "Db", 268, (.unc ⟨dg 3 268, (some (dg 5 12567)), none⟩ "57#".toList), .empty, " ", " "⟩,
  ⟨106, "Sg", 271, (.unc ⟨dg 3 271, (some (dg 5 13393)), none⟩ "63#".toList), .empty, " ", " "⟩,
  ⟨107, "Bh", 272, (.unc ⟨dg 3 272, (some (dg 5 13826)), none⟩ "58#".toList), .empty, " ", " "⟩,
  ⟨108, "Hs", 270, (.unc ⟨dg 3 270, (some (dg 5 13429)), none⟩ "27#".toList), .empty, " ", " "⟩,
  ⟨109, "Mt", 276, (.unc ⟨dg 3 276, (some (dg 5 15159)), none⟩ "59#".toList), .empty, " ", " "⟩,
  ⟨110, "Ds", 281, (.unc ⟨dg 3 281, (some (dg 5 16451)), none⟩ "59#".toList), .empty, " ", " "⟩,
  ⟨111, "Rg", 280, (.unc ⟨dg 3 280, (some (dg 5 16514)), none⟩ "61#".toList), .empty, " ", " "⟩,
  ⟨112, "Cn", 285, (.unc ⟨dg 3 285, (some (dg 5 17712)), none⟩ "60#".toList), .empty, " ", " "⟩,
  ⟨113, "Nh", 284, (.unc ⟨dg 3 284, (some (dg 5 17873)), none⟩ "62#".toList), .empty, " ", " "⟩,
  ⟨114, "Fl", 289, (.unc ⟨dg 3 289, (some (dg 5 19042)), none⟩ "60#".toList), .empty, " ", " "⟩,
  ⟨115, "Mc", 288, (.unc ⟨dg 3 288, (some (dg 5 19274)), none⟩ "62#".toList), .empty, " ", " "⟩,
  ⟨116, "Lv", 293, (.unc ⟨dg 3 293, (some (dg 5 20449)), none⟩ "60#".toList), .empty, " ", " "⟩,
  ⟨117, "Ts", 292, (.unc ⟨dg 3 292, (some (dg 5 20746)), none⟩ "75#".toList), .empty, " ", " "⟩,
  ⟨118, "Og", 294, (.unc ⟨dg 3 294, (some (dg 5 21392)), none⟩ "71#".toList), .empty, " ", " "⟩]

/-- all paragraphs of the file -/
def shippedParas : List ShippedPara :=
  shippedParas1 ++ shippedParas21 ++ shippedParas41 ++ shippedParas61 ++ shippedParas81 ++ shippedParas101

/-- The file.  Its last paragraph ends without newline and empty line, so that the last line is
`Notes =  `. -/
def shippedNist : NistFile :=
  ⟨shippedHeader.map (·.flatMap String.toList),
   (shippedParas.dropLast.map ShippedPara.para) ++
     (shippedParas.getLast?.toList.map fun p => { p.para with rest := p.para.rest.take 1 }),
   "Notes =  ".toList⟩

end Ries

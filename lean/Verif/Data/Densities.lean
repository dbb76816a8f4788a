import Verif.Data.Elements

/-!
# The shipped file `ries/constituents/geant4_densities/element_densities.txt`

Generated by `tools/gen_elements.py`; do not edit.
-/

namespace Ries

/-- the comment lines -/
def shippedDensityComments : List (List String) := [
  ["# Densities of natural elements at stand", "ard conditions from the material databas", "e of Geant4 "],
  ["# (https://geant4.web.cern.ch/)."],
  ["# The data below were extracted from the", " file "],
  ["#"],
  ["# G4_SOURCE/materials/src/G4NistMaterial", "Builder.cc"],
  ["#"],
  ["# of version 10.6, where G4_SOURCE is th", "e directory in which the Geant4 source c", "ode is located."]]

/-- the lines with a newline -/
def shippedDensityLines : List DensLine := [
  ⟨"H".toList, 3, ⟨dg 1 8, (some (dg 5 37480)), (some (true, dg 1 5))⟩, 0⟩,
  ⟨"He".toList, 3, ⟨dg 1 1, (some (dg 5 66322)), (some (true, dg 1 4))⟩, 0⟩,
  ⟨"Li".toList, 3, ⟨dg 1 0, (some (dg 3 534)), none⟩, 9⟩,
  ⟨"Be".toList, 3, ⟨dg 1 1, (some (dg 3 848)), none⟩, 9⟩,
  ⟨"B".toList, 3, ⟨dg 1 2, (some (dg 2 37)), none⟩, 10⟩,
  ⟨"C".toList, 3, ⟨dg 1 2, (some (dg 0 0)), none⟩, 12⟩,
  ⟨"N".toList, 3, ⟨dg 1 1, (some (dg 5 16520)), (some (true, dg 1 3))⟩, 0⟩,
  ⟨"O".toList, 3, ⟨dg 1 1, (some (dg 5 33151)), (some (true, dg 1 3))⟩, 0⟩,
  ⟨"F".toList, 3, ⟨dg 1 1, (some (dg 5 58029)), (some (true, dg 1 3))⟩, 0⟩,
  ⟨"Ne".toList, 3, ⟨dg 1 8, (some (dg 5 38505)), (some (true, dg 1 4))⟩, 0⟩,
  ⟨"Na".toList, 3, ⟨dg 1 0, (some (dg 3 971)), none⟩, 9⟩,
  ⟨"Mg".toList, 3, ⟨dg 1 1, (some (dg 2 74)), none⟩, 10⟩,
  ⟨"Al".toList, 3, ⟨dg 1 2, (some (dg 3 699)), none⟩, 9⟩,
  ⟨"Si".toList, 3, ⟨dg 1 2, (some (dg 2 33)), none⟩, 10⟩,
  ⟨"P".toList, 3, ⟨dg 1 2, (some (dg 1 2)), none⟩, 11⟩,
  ⟨"S".toList, 3, ⟨dg 1 2, (some (dg 1 0)), none⟩, 11⟩,
  ⟨"Cl".toList, 3, ⟨dg 1 2, (some (dg 5 99473)), (some (true, dg 1 3))⟩, 0⟩,
  ⟨"Ar".toList, 3, ⟨dg 1 1, (some (dg 5 66201)), (some (true, dg 1 3))⟩, 0⟩,
  ⟨"K".toList, 3, ⟨dg 1 0, (some (dg 3 862)), none⟩, 9⟩,
  ⟨"Ca".toList, 3, ⟨dg 1 1, (some (dg 2 55)), none⟩, 10⟩,
  ⟨"Sc".toList, 3, ⟨dg 1 2, (some (dg 3 989)), none⟩, 9⟩,
  ⟨"Ti".toList, 3, ⟨dg 1 4, (some (dg 2 54)), none⟩, 10⟩,
  ⟨"V".toList, 3, ⟨dg 1 6, (some (dg 2 11)), none⟩, 10⟩,
  ⟨"Cr".toList, 3, ⟨dg 1 7, (some (dg 2 18)), none⟩, 10⟩,
  ⟨"Mn".toList, 3, ⟨dg 1 7, (some (dg 2 44)), none⟩, 10⟩,
  ⟨"Fe".toList, 3, ⟨dg 1 7, (some (dg 3 874)), none⟩, 9⟩,
  ⟨"Co".toList, 3, ⟨dg 1 8, (some (dg 1 9)), none⟩, 11⟩,
  ⟨"Ni".toList, 3, ⟨dg 1 8, (some (dg 3 902)), none⟩, 9⟩,
  ⟨"Cu".toList, 3, ⟨dg 1 8, (some (dg 2 96)), none⟩, 10⟩,
  ⟨"Zn".toList, 3, ⟨dg 1 7, (some (dg 3 133)), none⟩, 9⟩,
  ⟨"Ga".toList, 3, ⟨dg 1 5, (some (dg 3 904)), none⟩, 9⟩,
  ⟨"Ge".toList, 3, ⟨dg 1 5, (some (dg 3 323)), none⟩, 9⟩,
  ⟨"As".toList, 3, ⟨dg 1 5, (some (dg 2 73)), none⟩, 10⟩,
  ⟨"Se".toList, 3, ⟨dg 1 4, (some (dg 1 5)), none⟩, 11⟩,
  ⟨"Br".toList, 3, ⟨dg 1 7, (some (dg 5 7210)), (some (true, dg 1 3))⟩, 0⟩,
  ⟨"Kr".toList, 3, ⟨dg 1 3, (some (dg 5 47832)), (some (true, dg 1 3))⟩, 0⟩,
  ⟨"Rb".toList, 3, ⟨dg 1 1, (some (dg 3 532)), none⟩, 9⟩,
  ⟨"Sr".toList, 3, ⟨dg 1 2, (some (dg 2 54)), none⟩, 10⟩,
  ⟨"Y".toList, 3, ⟨dg 1 4, (some (dg 3 469)), none⟩, 9⟩,
  ⟨"Zr".toList, 3, ⟨dg 1 6, (some (dg 3 506)), none⟩, 9⟩,
  ⟨"Nb".toList, 3, ⟨dg 1 8, (some (dg 2 57)), none⟩, 10⟩,
  ⟨"Mo".toList, 2, ⟨dg 2 10, (some (dg 2 22)), none⟩, 10⟩,
  ⟨"Tc".toList, 2, ⟨dg 2 11, (some (dg 2 50)), none⟩, 10⟩,
  ⟨"Ru".toList, 2, ⟨dg 2 12, (some (dg 2 41)), none⟩, 10⟩,
  ⟨"Rh".toList, 2, ⟨dg 2 12, (some (dg 2 41)), none⟩, 10⟩,
  ⟨"Pd".toList, 2, ⟨dg 2 12, (some (dg 2 2)), none⟩, 10⟩,
  ⟨"Ag".toList, 2, ⟨dg 2 10, (some (dg 1 5)), none⟩, 11⟩,
  ⟨"Cd".toList, 3, ⟨dg 1 8, (some (dg 2 65)), none⟩, 10⟩,
  ⟨"In".toList, 3, ⟨dg 1 7, (some (dg 2 31)), none⟩, 10⟩,
  ⟨"Sn".toList, 3, ⟨dg 1 7, (some (dg 2 31)), none⟩, 10⟩,
  ⟨"Sb".toList, 3, ⟨dg 1 6, (some (dg 3 691)), none⟩, 9⟩,
  ⟨"Te".toList, 3, ⟨dg 1 6, (some (dg 2 24)), none⟩, 10⟩,
  ⟨"I".toList, 3, ⟨dg 1 4, (some (dg 2 93)), none⟩, 10⟩,
  ⟨"Xe".toList, 3, ⟨dg 1 5, (some (dg 5 48536)), (some (true, dg 1 3))⟩, 0⟩,
  ⟨"Cs".toList, 3, ⟨dg 1 1, (some (dg 3 873)), none⟩, 9⟩,
  ⟨"Ba".toList, 3, ⟨dg 1 3, (some (dg 1 5)), none⟩, 11⟩,
  ⟨"La".toList, 3, ⟨dg 1 6, (some (dg 3 154)), none⟩, 9⟩,
  ⟨"Ce".toList, 3, ⟨dg 1 6, (some (dg 3 657)), none⟩, 9⟩,
  ⟨"Pr".toList, 3, ⟨dg 1 6, (some (dg 2 71)), none⟩, 10⟩,
  ⟨"Nd".toList, 3, ⟨dg 1 6, (some (dg 1 9)), none⟩, 11⟩,
  ⟨"Pm".toList, 3, ⟨dg 1 7, (some (dg 2 22)), none⟩, 10⟩,
  ⟨"Sm".toList, 3, ⟨dg 1 7, (some (dg 2 46)), none⟩, 10⟩,
  ⟨"Eu".toList, 3, ⟨dg 1 5, (some (dg 3 243)), none⟩, 9⟩,
  ⟨"Gd".toList, 3, ⟨dg 1 7, (some (dg 4 9004)), none⟩, 8⟩,
  ⟨"Tb".toList, 3, ⟨dg 1 8, (some (dg 3 229)), none⟩, 9⟩,
  ⟨"Dy".toList, 3, ⟨dg 1 8, (some (dg 2 55)), none⟩, 10⟩,
  ⟨"Ho".toList, 3, ⟨dg 1 8, (some (dg 3 795)), none⟩, 9⟩,
  ⟨"Er".toList, 3, ⟨dg 1 9, (some (dg 3 66)), none⟩, 9⟩,
  ⟨"Tm".toList, 3, ⟨dg 1 9, (some (dg 3 321)), none⟩, 9⟩,
  ⟨"Yb".toList, 3, ⟨dg 1 6, (some (dg 2 73)), none⟩, 10⟩,
  ⟨"Lu".toList, 3, ⟨dg 1 9, (some (dg 2 84)), none⟩, 10⟩,
  ⟨"Hf".toList, 2, ⟨dg 2 13, (some (dg 2 31)), none⟩, 10⟩,
  ⟨"Ta".toList, 2, ⟨dg 2 16, (some (dg 3 654)), none⟩, 9⟩,
  ⟨"W".toList, 2, ⟨dg 2 19, (some (dg 2 30)), none⟩, 10⟩,
  ⟨"Re".toList, 2, ⟨dg 2 21, (some (dg 2 2)), none⟩, 10⟩,
  ⟨"Os".toList, 2, ⟨dg 2 22, (some (dg 2 57)), none⟩, 10⟩,
  ⟨"Ir".toList, 2, ⟨dg 2 22, (some (dg 2 42)), none⟩, 10⟩,
  ⟨"Pt".toList, 2, ⟨dg 2 21, (some (dg 2 45)), none⟩, 10⟩,
  ⟨"Au".toList, 2, ⟨dg 2 19, (some (dg 2 32)), none⟩, 10⟩,
  ⟨"Hg".toList, 2, ⟨dg 2 13, (some (dg 3 546)), none⟩, 9⟩,
  ⟨"Tl".toList, 2, ⟨dg 2 11, (some (dg 2 72)), none⟩, 10⟩,
  ⟨"Pb".toList, 2, ⟨dg 2 11, (some (dg 2 35)), none⟩, 10⟩,
  ⟨"Bi".toList, 3, ⟨dg 1 9, (some (dg 3 747)), none⟩, 9⟩,
  ⟨"Po".toList, 3, ⟨dg 1 9, (some (dg 2 32)), none⟩, 10⟩,
  ⟨"At".toList, 3, ⟨dg 1 9, (some (dg 2 32)), none⟩, 10⟩,
  ⟨"Rn".toList, 3, ⟨dg 1 9, (some (dg 5 662)), (some (true, dg 1 3))⟩, 0⟩,
  ⟨"Fr".toList, 3, ⟨dg 1 1, (some (dg 2 0)), none⟩, 10⟩,
  ⟨"Ra".toList, 3, ⟨dg 1 5, (some (dg 2 0)), none⟩, 10⟩,
  ⟨"Ac".toList, 2, ⟨dg 2 10, (some (dg 2 7)), none⟩, 10⟩,
  ⟨"Th".toList, 2, ⟨dg 2 11, (some (dg 2 72)), none⟩, 10⟩,
  ⟨"Pa".toList, 2, ⟨dg 2 15, (some (dg 2 37)), none⟩, 10⟩,
  ⟨"U".toList, 2, ⟨dg 2 18, (some (dg 2 95)), none⟩, 10⟩,
  ⟨"Np".toList, 2, ⟨dg 2 20, (some (dg 2 25)), none⟩, 10⟩,
  ⟨"Pu".toList, 2, ⟨dg 2 19, (some (dg 2 84)), none⟩, 10⟩,
  ⟨"Am".toList, 2, ⟨dg 2 13, (some (dg 2 67)), none⟩, 10⟩,
  ⟨"Cm".toList, 2, ⟨dg 2 13, (some (dg 2 51)), none⟩, 10⟩,
  ⟨"Bk".toList, 2, ⟨dg 2 14, (some (dg 2 0)), none⟩, 10⟩]

/-- the last line, which has none -/
def shippedDensityLast : DensLine :=
  ⟨"Cf".toList, 2, ⟨dg 2 10, (some (dg 2 0)), none⟩, 0⟩

/-- The file. -/
def shippedDensities : DensFile :=
  ⟨shippedDensityComments.map (·.flatMap String.toList), shippedDensityLines, some shippedDensityLast⟩

end Ries

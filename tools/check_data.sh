#!/bin/sh
# Compare the text rendered by the Lean definitions of the shipped data with the files in /repo.
cd "$(dirname "$0")/../lean" || exit 1
cat > /tmp/check_data.lean <<'L'
import Verif.Data.Densities
import Verif.Data.XrmacTables
open Ries
def main : IO Unit := do
  let e ← IO.FS.readFile "/repo/ries/constituents/nist_elements/elements.txt"
  IO.println s!"elements.txt: {decide (e = String.ofList shippedNist.render)}"
  let d ← IO.FS.readFile "/repo/ries/constituents/geant4_densities/element_densities.txt"
  IO.println s!"element_densities.txt: {decide (d = String.ofList shippedDensities.render)}"
  let mut ok := true
  for Z in List.range' 1 92 do
    let t ← IO.FS.readFile s!"/repo/ries/nonresonant/nist_xrmac/{if Z < 10 then "0" else ""}{Z}.txt"
    if t ≠ String.ofList (xrmacText Z) then
      ok := false
      IO.println s!"{Z}: differs"
  IO.println s!"nist_xrmac/*.txt: {ok}"
L
lake build Verif.Data.Densities Verif.Data.XrmacTables && lake env lean --run /tmp/check_data.lean

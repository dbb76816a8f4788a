import Verif.Lemmas.KNBounds
import Verif.Props.XrmacModule

/-! # The shipped attenuation tables in comparison with Compton scattering -/

namespace Ries

open Text

set_option maxRecDepth 100000

/-- the checks on a table: every row, the distance of neighbouring rows, and the first row at low energies -/
def checkCompton (Z : ℕ) : Bool :=
  let m := (shippedElement Z).amu
  decide (m ≤ 0) ||
    ((xrmacLines Z).all (fun l =>
        decide (9999 / 10000 * (Z * (24947 / 1000) * KN.stdUp l.energy.value) ≤ 1660538 / 10000 * m * l.mu.value)) &&
      decide ((xrmacLines Z).IsChain fun a b => b.energy.value ≤ 3 / 2 * a.energy.value) &&
      (xrmacLines Z).head?.any fun l =>
        decide (9999 / 10000 * (Z * (24947 / 1000) * (8 / 3)) ≤ 1660538 / 10000 * m * l.mu.value))

theorem shipped_compton1 : ∀ Z ∈ List.range' 1 22, checkCompton Z = true := by decide +kernel
theorem shipped_compton2 : ∀ Z ∈ List.range' 23 14, checkCompton Z = true := by decide +kernel
theorem shipped_compton3 : ∀ Z ∈ List.range' 37 12, checkCompton Z = true := by decide +kernel
theorem shipped_compton4 : ∀ Z ∈ List.range' 49 12, checkCompton Z = true := by decide +kernel
theorem shipped_compton5 : ∀ Z ∈ List.range' 61 12, checkCompton Z = true := by decide +kernel
theorem shipped_compton6 : ∀ Z ∈ List.range' 73 10, checkCompton Z = true := by decide +kernel
theorem shipped_compton7 : ∀ Z ∈ List.range' 83 10, checkCompton Z = true := by decide +kernel

theorem shipped_compton {Z : ℕ} (hZ : Z ∈ List.range' 1 92) : checkCompton Z = true := by
  rw [List.mem_range'_1] at hZ
  by_cases h1 : Z < 23
  · exact shipped_compton1 Z (List.mem_range'_1.2 ⟨by omega, by omega⟩)
  by_cases h2 : Z < 37
  · exact shipped_compton2 Z (List.mem_range'_1.2 ⟨by omega, by omega⟩)
  by_cases h3 : Z < 49
  · exact shipped_compton3 Z (List.mem_range'_1.2 ⟨by omega, by omega⟩)
  by_cases h4 : Z < 61
  · exact shipped_compton4 Z (List.mem_range'_1.2 ⟨by omega, by omega⟩)
  by_cases h5 : Z < 73
  · exact shipped_compton5 Z (List.mem_range'_1.2 ⟨by omega, by omega⟩)
  by_cases h6 : Z < 83
  · exact shipped_compton6 Z (List.mem_range'_1.2 ⟨by omega, by omega⟩)
  exact shipped_compton7 Z (List.mem_range'_1.2 ⟨by omega, by omega⟩)

/-- hydrogen: rows between 20 keV and 2 MeV -/
theorem shipped_hydrogen : (xrmacLines 1).all (fun l =>
    decide (l.energy.value < 20 / 1000) || decide (2 < l.energy.value) ||
      KN.stdEnergies.any fun p => decide (l.energy.value = (p.1 : ℚ) / 10000) &&
        decide (166054 / 1000 * (shippedElement 1).amu * l.mu.value ≤
          1003 / 1000 * ((249465 / 10000) * ((p.2.2.1 : ℚ) / 10000000)))) = true := by decide +kernel

end Ries

import Verif.Lemmas.KNGrowth
import Verif.Props.KleinNishina

/-! # C44: the Compton cross section falls more slowly than 1/E -/

namespace Ries
open Real KN

/-- C44 (iii): the energy times the total cross section increases strictly with the energy; so a doubling of the energy reduces the
cross section by less than a factor of two. -/
theorem C44_growth (k : PhysConst) (s : KN) (hZ : 0 < s.Z) (hm : 0 < s.mc2) :
    StrictMonoOn (fun E => E * s.total k E) (Set.Ioi 0) := by
  intro a ha b hb hab
  simp only [Set.mem_Ioi] at ha hb
  have hp : 0 < π * s.scale k * s.mc2 := mul_pos (mul_pos pi_pos (scale_pos k s hZ hm)) hm
  have h := mul_angInt_strictMono (div_pos ha hm).le (div_pos hb hm).le (div_lt_div_of_pos_right hab hm)
  have e : ∀ E, E * (π * s.scale k * angInt (E / s.mc2)) =
      π * s.scale k * s.mc2 * (E / s.mc2 * angInt (E / s.mc2)) := by
    intro E
    field_simp
  simp only [total_eq k s ha hm, total_eq k s hb hm, e]
  exact mul_lt_mul_of_pos_left h hp

example : (electron exConst 82).total exConst 1 < 2 * (electron exConst 82).total exConst 2 := by
  have := C44_growth exConst (electron exConst 82) (by norm_num [electron]) (by norm_num [electron, exConst])
    (Set.mem_Ioi.2 one_pos) (Set.mem_Ioi.2 two_pos) one_lt_two
  simpa using this

end Ries

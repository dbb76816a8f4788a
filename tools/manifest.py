#!/usr/bin/env python3
"""Writes MANIFEST.json. One line per property: id, status, theorem names, note."""
import json, os
here = os.path.dirname(os.path.abspath(__file__))
C = []
def m(pid, status, theorems, note=""):
    C.append({"property": pid, "status": status,
              "theorems": ["Ries." + t for t in theorems], "note": note})

m("C01", "proved", ["C01_sum_evaluates_to_sum", "C01_resonances", "C01_resonance_sum"])
m("C02", "proved", ["C02_scaling"])
m("C03", "proved", ["C03_expression_compositional", "C03_laws"])
m("C06", "partial", ["C06_array_pointwise_partial", "C06_array_shape_refuted", "C06_array_shape_iff"],
  "Pointwise equality proved for all sums; the shape claim is false of the code for sums of constants only (a scalar is returned).")
m("C07", "proved", ["C07_explicit_lists"])
m("C08", "partial", ["C08_default_constructor_refuted", "C08_default_constructor_partial"],
  "False of the code: CrossSectionWeightedSum() raises TypeError. The calls with at least one argument are proved.")
m("C09", "partial", ["C09_call_returns_number_refuted", "C09_call_returns_number_partial", "C09_number_iff"],
  "False of the code: a product of two cross sections is accepted and its call returns an object. Proved when every product has a scalar factor.")

m("C10", "proved", ["C10_energy_grid", "C10_energy_grid_small"])
m("C11", "proved", ["C11_limits_grid", "C11_ends_exact", "C127_any_distribution", "C11_pseudoVoigt_lengthPreserving"])
m("C12", "proved", ["C12_coverage_grid"])
m("C13", "partial", ["C13_refuted", "C13_partial", "C13_box_iff", "C13_pseudoVoigt_refuted", "C13_pseudoVoigt_not_ordered", "C13_pseudoVoigt_partial"],
  "False of the code for the box shape when the limits do not overlap the box (exact condition in C13_box_iff), and for narrow pseudo-Voigt resonances with limits above the resonance energy; proved for Breit-Wigner and Gauss, and for pseudo-Voigt with limits around the resonance energy.")
m("C14", "proved", ["C14_sum_grid", "C14_sum_grid_limits"])
m("C15","partial",["C15_refuted", "C15_typeError", "C15_partial", "C15_all_shapes_partial","C15_accepted_iff"],"False of the code: sums with a constant or nonresonant constituent raise TypeError on a coverage request; proved for sums of Breit-Wigner, Gauss, pseudo-Voigt and Voigt resonances; exact condition for nested sums in C15_accepted_iff.")
m("C16", "proved", ["C16_coverage_interval", "C16_coverage_grows", "C16_coverage_zero", "C16_coverage_one"])
m("C17","partial",["C17_refuted", "C17_partial","C17_negative_iff","C17_pseudo_voigt"],"False of the code: negative lower limits are returned unchanged; proved that a warning is issued exactly then; exact condition for Breit-Wigner and Gauss in C17_negative_iff, for pseudo-Voigt up to the accuracy of the search in C17_pseudo_voigt.")
m("C18", "partial", ["C18_refuted", "C18_warning_occurs", "C18_partial"],
  "False of the code for Breit-Wigner and Gauss (cdf(0) is called without the distribution parameters: always 50 %); proved for pseudo-Voigt.")
m("C19", "proved", ["C19_box", "C19_analytic", "C19_pseudoVoigt", "C19_voigt"])
m("C20","partial",["C20_refuted", "C20_partial", "C20_half_partial","C20_gauss_partial","C20_pseudo_voigt_partial","C20_voigt_partial"],"False of the code: the shapes have mass at negative energies; exact value for Breit-Wigner and Gauss; for Gauss the missing fraction is below exp(-mc2/(2kT))/2; for pseudo-Voigt and Voigt strictly smaller as well, with an upper bound of the missing fraction.")
m("C21", "proved", ["C21_channel", "C21_channels_sum"])
m("C22", "proved", ["C22_width_sum", "C22_width_perm", "C22_width_ge", "C22_ground"])
m("C23", "proved", ["C23_formula", "C23_pos", "C23_scaling"])
m("C24", "proved", ["C24_construction"])
m("C25", "proved", ["C25_closed_form"])
m("C26", "proved", ["C26_symmetric_peak", "C26_half_maximum", "C26_relative_mode"])
m("C27", "proved", ["C27_recoil"])
m("C28", "partial", ["C28_refuted", "C28_partial"],
  "False of the code: only the box class accepts a recoil correction; the others always use the bare level difference.")
m("C29", "proved", ["C29_temperature_roundtrip", "C29_width_roundtrip"])
m("C30", "proved", ["C30_scaling", "C30_monotone"])

m("C31", "proved", ["C31_convex", "C31_degenerate"])
m("C32", "partial", ["C32_refuted", "C32_partial"],
  "Gauss limit proved. Lorentz limit false of the code: the Cauchy component has scale Gamma/4 instead of Gamma/2.")
m("C33", "proved", ["C33_scalar", "C33_fallback", "C33_median", "C33_array"])
m("C34", "partial", ["C34_refuted", "C34_grid_none", "C34_partial", "C34_coverage_interval", "C34_median_no_fallback", "C34_sum_none"],
  "False of the code: if only some quantiles converge, ppf returns None, and the grid of every sum with such a resonance is a TypeError. Proved for arrays of equal or mirrored quantiles, hence for coverage_interval. C80 (exact arithmetic) and C187 (floating point) give conditions under which all quantiles converge.")
m("C35", "proved", ["C35_convolution", "C35_zero_temperature", "C35_zero_width"])

m("C04", "proved", ["Heap.C04_frame", "Heap.C04_value", "Heap.C04_add_value", "Heap.C04_mul_value"])
m("C05", "partial", ["Heap.C05_refuted", "Heap.C05_partial", "Heap.C05_product", "Heap.C05_nested"],
  "False of the code for CrossSection + WeightedSum (the operand is nested by reference); proved for all other operand kinds of a sum, and for products with a number.")

m("C36", "proved", ["C36_bounds"])
m("C37", "proved", ["C37_monotone", "C37_homogeneous"])
m("C38", "proved", ["C38_limits", "C38_classical_bound"])
m("C39", "partial", ["C39_refuted", "C39_partial"],
  "False of the shipped table: the keys 'Ma' and 'Va' are no element symbols; every other key is.")

m("C40", "proved", ["C40_compton_kinematics"])
m("C41", "proved", ["C41_theta_energy_inverse"])
m("C42", "proved", ["C42_angular_integral"])
m("C43", "proved", ["C43_energy_integral"])
m("C44", "proved", ["C44_differential_nonneg", "C44_total", "C44_growth"])
m("C45", "partial", ["C45_azimuthal_average_refuted", "C45_azimuthal_average_partial"],
  "False of the code: the function is the azimuthal integral, 2*pi times the average.")
m("C46", "partial", ["C46_any_mass_refuted", "C46_any_mass_partial"],
  "False of the code for every mass other than the electron's (kinematics use the electron mass); proved exactly for the electron mass.")
m("C47", "proved", ["C47_proportional_Z"])

m("C48", "proved", ["C48_nodes"])
m("C49", "proved", ["C49_power_law", "C49_between", "C49_positive"])
m("C50", "partial", ["C50_refuted", "C50_partial"],
  "False of the code for tables that are not sorted by energy (the interpolation sorts the rows, the fill values do not); proved for sorted tables, where an edge exactly at the smallest energy is excluded below the table.")
m("C51", "proved", ["C51_value_units", "C51_energy_units", "C51_shipped"])
m("C52", "proved", ["C52_round_trip"])
m("C53", "partial", ["C53_refuted", "C53_partial", "C53_table_partial"],
  "False of the code: without a final newline the last exponent digit of the third number is cut off (shipped 82.txt). The two columns used for interpolation are complete.")
m("C54", "partial", ["C54_refuted", "C54_partial"],
  "False of the code: the stored conversions are closures over the loop variable and all use the mass of Z = 92 after the import (shown for lead with the shipped files). The stored data are converted with the right mass.")

m("C55", "proved", ["C55_weighted_sum", "C55_order", "C55_missing", "C55_between"])
m("C56", "partial", ["C56_isotopes", "C56_partial", "C57_refuted"],
  "The set of isotopes is proved for every sorted file; masses and abundances are proved for values with an uncertainty and are false of the code for values without (C57).")
m("C57", "partial", ["C57_refuted", "C57_partial"],
  "False of the code: a value without uncertainty is read as the default (abundance 0). Proved for values with uncertainty.")
m("C58", "partial", ["C58_refuted", "C58_partial"],
  "False of the code: the 22 elements whose single isotope is listed with abundance 1 without uncertainty (F, Na, Al, ..., Au) get the mass 0. Proved for all other elements with tabulated composition, on the whole shipped file.")
m("C59", "proved", ["C59_symbols", "C59_lookup"])
m("C60","partial",["C60_refuted", "C60_partial", "C60_none_partial", "C60_shipped_partial","C60_correct_iff"],"False of the code: the first line whose symbol contains the requested symbol is used (B gets the density of Be, S of Si, I of In). Proved for two-letter symbols and for letters that occur in no earlier symbol; exact condition in C60_correct_iff.")

m("C61", "proved", ["C61_brackets_integral"])
m("C62", "proved", ["C62_gap_formula", "C62_equidistant", "C62_constant"])
m("C63", "proved", ["C63_refinement"])
m("C64", "proved", ["C64_function_vs_values"])
m("C65","partial",["C65_mismatch_rejected_partial", "C65_mismatch_refuted","C65_accepted_iff","C65_two_values"],"False of the code when one of the arrays has exactly two entries (numpy broadcasting); proved otherwise; exact condition in C65_accepted_iff.")
m("C66", "proved", ["C66_rounded_order"])
m("C67", "proved", ["C67_exact_pieces"])
m("C68", "proved", ["C68_error_formula"])
m("C69","partial",["C69_error_bound_refuted", "C69_error_bound_partial","C69_factor_sharp"],"False of the code (errors added in quadrature); proved with the factor sqrt(n-1) and with the plain sum of errors; the factor cannot be improved (C69_factor_sharp).")
m("C70", "partial", ["C70_ndarray_refuted", "C70_ndarray_partial"],
  "False of the code: non-empty arrays raise ValueError; lists and empty arrays are accepted.")

m("C71", "partial", ["C71_refuted", "C71_partial"],
  "False of the code: the tolerance of the root search is an absolute energy (1.48e-8 MeV); proved bound 1.9e-8 MeV / Gamma.")

m("C72", "proved", ["C72_import", "C72_shipped"])
m("C73", "partial", ["C73_refuted", "C73_partial"],
  "The relation between the two units is proved for all elements and energies; positivity is false of the code for elements with mass 0 (see C58): their cross section per atom is 0 at every energy.")
m("C74", "proved", ["C74_shipped"])
m("C75", "proved", ["C75_gauss", "C75_voigt"])
m("C76", "partial", ["C76_refuted", "C76_conservation_partial"],
  "False of the code for targets other than the electron (the kinematics always uses the electron mass); proved for electrons, in both directions.")
m("C77", "partial", ["C77_refuted", "C77_energy_differential_partial"],
  "False of the code for targets other than the electron; proved for electrons.")
m("C78", "partial", ["C78_refuted", "C78_possible_energies_partial"],
  "False of the code: at impossible energies the result is nan instead of zero; the results are nonnegative numbers exactly at the possible energies.")
m("C79", "proved", ["C79_rounding", "C79_relative", "C79_bound"])
m("C80", "proved", ["C80_array", "C80_scalar"])
m("C81", "proved", ["C81_coverage", "C81_any_coverage"])
m("C82", "proved", ["C82_coverage_grid", "C82_limits_grid"])
m("C83", "partial", ["C83_refuted", "C83_half", "C83_broad_refuted", "C83_partial", "C83_narrow_partial"],
  "False of the code: at zero temperature every interval carries too little (for a coverage of 50 % less than a third), since quantiles come from a Lorentz curve of half the width; the same holds at positive temperatures if the Doppler-broadened width is at most an eighth of the natural width. Proved for zero width (with non-negative partial widths such a resonance has no cross section, so the result that matters is the next one), and up to 2.1 times the ratio of natural width and Doppler width for all other widths (within a few percent for narrow resonances).")
m("C84", "partial", ["KN.C84_refuted", "KN.C84_not_accurate", "KN.C84_partial"],
  "False of the code: near 1.95 eV (electrons) the computed value is negative, in any arithmetic that rounds to nearest; proved that the relative error is at most 150 u (1 + mc2/E)^3 (1 + ln(1 + 2 E/mc2)).")
m("C85", "partial", ["KN.C85_construction", "KN.C85_refuted", "KN.C85_sum", "KN.C85_sum_value", "KN.C85_partial"],
  "False of the code at E = 0 (ZeroDivisionError on floats, nan on arrays); proved at all positive energies, with the exact range.")
m("C86","proved",["C86_converges", "C86_equidistant"],"uniform continuity and induction over the partition")
m("C87","partial",["C87_refuted","C87_odd_grid","C87_odd_grid_pseudoVoigt_partial","C87_limits_partial"],"The bracket holds for coverages with an odd number of points (resonance energy on the grid). It is false for an even number: with two points both sums are equal and too small for every coverage. For limits, and for an even number of points, both sums are within 2 sigma(E_r)/min(sigma(a),sigma(b))/(n-1) of the integral, relative to the integral.")
m("C88","partial",["C88_energy_grid_partial","C88_pseudoVoigt_partial","C88_refuted"],"Proved for coverages below 1 (pseudo-Voigt: for all but extreme coverages, up to the tolerance of the quantile search). False at coverage 1 for Breit-Wigner and Gauss resonances: every point but the last is nan, the last is infinite.")
m("C89","partial",["C89_refuted","C89_partial"],"False for a numpy integer scalar as right summand: for a single cross section the sum is built but raises TypeError when evaluated, for a weighted sum AttributeError is raised at once. Proved for left summands and for products in both orders.")
m("C90","partial",["C90_refuted","C90_partial"],"False for lists (TypeError) and arrays (IndexError), which the documentation allows. Proved for dictionaries.")
m("C91","partial",["C91_refuted","C91_partial"],"False for arrays: the conversion functions are ignored. Proved for files.")
m("C92","partial",["C92_refuted","C92_partial","C92_width_at_construction"],"The width is computed once: it stays the sum at the time of construction. False after an assignment to partial_widths; then branching ratios do not sum to one. Proved as long as the dictionary is not changed.")
m("C93","proved",["C93_rounded_grid"],"Monotone rounding with relative error u, limits representable.")
m("C94","proved",["C94_breit_wigner"],"Standard model of floating-point arithmetic without overflow and underflow; energy difference of the levels exact, as for excitations from the ground state (otherwise see C203). Without overflow or underflow by C155.")
m("C95","proved",["C95_gauss","C95_uniform"],"As C94; exponentials and powers with four units of error. Underflow far from the resonance is excluded (C155).")
m("C96","proved",["C96_temperature"],"")
m("C97","proved",["C97_narrow"],"Pointwise convergence.")
m("C98","proved",["C98_continuity"],"Exact real arithmetic for logarithms and powers.")
m("C99","partial",["C99_refuted","C99_partial","C99_nd_partial"],"False for empty arrays, which raise ValueError. Proved for all arrays with at least one entry, of any shape in C99_nd_partial.")
m("C100","proved",["C100_expression_grid","C100_laws"],"Grid methods of constituents are arbitrary; a single cross section keeps its own grid.")
m("C101","partial",["C101_refuted","C101_partial"],"False for grids: sum starts with the number 0, which becomes a constant cross section, so that coverage requests raise and grids for limits get the additional points of the equidistant grid. Proved: same values, and the exact set of grid points.")
m("C102","proved",["C102_flux","C102_layers","C102_flux_exists"],"for arbitrary cross sections that return a number; nonnegative where monotonicity is claimed")
m("C103","proved",["C103_balance","C103_bounds"],"at each energy; the integral over the energy of the notebook is not interchanged with the one over the depth")
m("C104","proved",["C104_thin_target"],"quadrature by the exact integral")
m("C105","proved",["C105_self_absorption","C105_li6"],"quadrature by the exact integral; the first theorem holds for any resonance with a positive continuous cross section; the coverage must exceed 3.8e-8 divided by the width in MeV")
m("C106","partial",["C106_refuted","C106_partial"],"false: the function ignores its argument and uses the mean enrichment; right at the mean enrichment, error formula elsewhere")
m("C107","proved",["C107_width"],"")
m("C108", "proved", ["C108_cold_bound", "C108_hot_bound", "C108_leading_terms"], "exact integral instead of scipy.integrate.quad")
m("C109", "proved", ["C109_low_energy", "C109_thomson_differential", "C109_high_energy", "C109_vanishes"], "exact reals: the cancellation of the closed formula at low energy in floats is not modelled")
m("C110", "proved", ["C110_arguments_kept", "C110_classes_keep", "C110_result_new", "C110_pointwise", "C110_classes", "C110_grid_keeps", "C110_darboux"], "store model with in-place +=; scipy and numpy functions return new arrays (trusted); Compton and tabulated cross sections at positive energies")
m("C111", "partial", ["C111_refuted", "C111_partial"], "refuted: TypeError on lists in relative mode (all resonances), for Voigt and for Compton; holds for the other classes with absolute energies and for sums of them")
m("C112", "partial", ["C112_refuted", "C112_partial"], "refuted: the sign in the documentation is wrong, the code returns the cross section at E + E_r, i.e. the value for E - E_r is the cross section at E")
m("C113", "partial", ["C113_refuted", "C113_above", "C113_partial"], "refuted: if both limits lie nine standard deviations above a Gauss resonance, all points between the first and the last are infinite (the source overwrites only the ends); holds if the range contains a probability of at least 1.3e-15 per interval, with an explicit error bound. cdf and ppf are assumed correctly rounded")
m("C114", "partial", ["KN.C114_refuted", "KN.C114_nan", "KN.C114_partial"], "refuted: with the CODATA 2018 electron mass and 3.5 MeV the computed cosine at the computed Compton edge is below -1, so theta and cs_diff_dEp are nan; holds with an explicit error bound a few rounding errors away from the edge")
m("C115", "partial", ["Iso.C115_refuted", "Iso.C115_partial", "Iso.C115_own_list_partial"], "refuted: an array with two states raises ValueError, and a container that is still empty is silently replaced by a new list; holds for lists and dictionaries with at least one state and for the default")
m("C116", "proved", ["C116_rounded_bracket"], "explicit bound; np.sum is any binary summation tree that uses every summand once; overflow and underflow not modelled")
m("C117", "partial", ["C117_refuted", "C117_nodes_partial", "C117_partial", "C117_below", "C117_above", "C117_shipped_nodes", "C117_shipped_between_partial"], "False of the code at energies directly below an absorption edge, where the computed logarithms of the energy and of the edge are equal: the value above the edge is returned. Proved otherwise, with explicit error bounds, and for all shipped tables with 1e-12 (transmission through them: C195); overflow and underflow not modelled.")
m("C118", "proved", ["C118_angles", "C118_energies", "C118_lengths", "C118_list_of_energies"], "scattered energies that are possible (numpy returns nan elsewhere); energies given as a list are a TypeError, although documented as array_like")
m("C119", "partial", ["C119_refuted", "C119_partial"], "refuted for versions of scipy in which RootResults is no dictionary: TypeError; holds for the others, and whenever the fallback is used")
m("C120", "proved", ["C120_number", "C120_array", "C120_exact"], "")
m("C121", "partial", ["C121_refuted", "C121_partial"], "False of the code: Compton cross sections use the constant of CODATA 2014 under its old name; the deviation is between 1.6e-8 and 1.7e-8 for all energies. Resonances use the documented value (with CODATA 2018 or later; before, they cannot be constructed)")
m("C122", "partial", ["C122_refuted", "C122_partial"], "False of the code: a top-level package named tests is installed as well; everything the library needs is installed")
m("C123", "partial", ["C123_refuted", "C123_partial"], "False of the code: the example for attenuation coefficients imports a name that does not exist; the others work, and so does this one with the right import")
m("C124", "partial", ["C124_refuted", "C124_compton_partial", "C124_states_partial", "C124_thermal_partial", "C124_resonance_partial", "C124_resonance_refresh", "C124_resonance_order", "C124_integral_partial"], "False of the code: derived attributes are computed once, so the number of electrons, abundances and partial widths can be changed without effect on cross section, mass and total width. Proved: exact factor between an edited and a new Compton object and when it is 1, branching ratios after edits and when they add up to 1, the claim itself for thermal motion, what edits of a resonance change and how to bring a Breit-Wigner resonance up to date")
m("C125", "proved", ["C125_near", "C125_everywhere"], "Overflow and underflow: C155_pseudo_voigt.")
m("C126", "partial", ["C126_refuted", "C126_partial"], "refuted: where the natural width is at least twice the Doppler width, also at temperature zero, the pseudo-Voigt maximum exceeds the Voigt maximum by at least 40 % (the Cauchy component has half the documented width). Proved: deviations from Voigt and Gauss are bounded by a multiple of natural width over Doppler width, uniformly in the energy")
m("C127", "partial", ["C127_refuted", "C127_any_distribution", "C127_sum_refuted", "C127_partial"], "refuted: one-point probability grids of resonances are the upper limit, energy grids the lower limit; without points IndexError instead of an empty grid; a sum returns two points for one")
m("C128", "proved", ["C128_bounded", "C128_monotone"], "true lower and upper sums defined with infima and suprema over the closed intervals, independent of the loop; equality characterised")
m("C129", "partial", ["Sig.C129_refuted", "Sig.C129_no_common_keyword", "Sig.C129_partial", "Sig.C129_agree_partial"], "refuted: the parameters are called E or energy, limits or coverage_or_limits, n_points or n_points_per_cross_section depending on the class; proved: positional calls work for every class, and two classes accepting the same call bind the same values")
m("C130", "partial", ["C130_refuted", "C130_wrong_by_integral", "C130_partial", "C130_columns"], "refuted: a partition of shape (1, n) has length 1, nothing is integrated and (0, 0) is returned; proved: one-dimensional partitions, where parts sharing a point add up (see also C67); columns are treated like vectors, several rows with several entries are rejected")
m("C131", "proved", ["C131_integral", "C131_error", "C131_exact", "C131_true_error"], "rounding as any function with relative error at most u (no overflow, no subnormal results); the results of nquad are taken as given")
m("C132", "proved", ["C132_doubling", "C132_hole", "C132_absorption_maximum"], "count rate of the notebook with exact integrals; constant nonresonant cross section for the minimum and the maximum")
m("C133", "proved", ["C133_probability_grid", "C133_energy_grid", "C133_sum_grid", "C133_one_point"], "for a single point the last limit is returned (cf. C127), which is why it is excluded")
m("C134", "proved", ["C134_probability_grid", "C134_energy_grid", "C134_sum_grid", "C134_darboux"], "probability grids of pseudo-Voigt and Voigt resonances excluded: their quantiles are searched for the whole array at once and agree only up to the tolerance of the search")
m("C135", "proved", ["C135_bounds", "C135_li6"], "exact integrals instead of the quadrature")
m("C136", "proved", ["C136_cold"], "exact integrals instead of the quadrature")
m("C137", "proved", ["C137_recoil", "C137_doppler", "C137_temperature", "C137_roundtrip", "C137_element_mass"], "Standard model of floating-point arithmetic; no overflow or underflow by C155.")
m("C138", "partial", ["C138_refuted", "C138_partial"], "False of the code: np.isclose adds a relative tolerance to the absolute one. Proved for all runs: the samples with a warning are exactly those that miss the measured value r by more than 1e-4 + 1e-5 |r|, and no sample is worse than the start value.")
m("C139", "partial", ["C139_refuted", "C139_partial", "C139_stops", "C139_midpoint", "C139_converges_partial", "C139_width_partial"], "False of the code: the search stops at once if the first two values are on both sides of the measured value at equal distances. Proved for every function: the result is not worse than the first two points; exact result when the criterion to stop is met at once. Proved for start values that are large compared to the tolerance: the search ends by its criterion and finds every minimum within six times the start value, up to twice the tolerance. Consequences for the widths: C196, C197.")
m("C140", "partial", ["C140_refuted", "C140_few", "C140_partial"], "False of the code for fewer than 100 samples (exact messages given); proved for 100 samples or more.")
m("C141", "partial", ["C141_refuted", "C141_compton_partial", "C141_compton_energy_partial", "C141_debye_partial", "C141_thermal_partial", "C141_integrated_partial"], "False of the code or of the documentation: the documented energy-differential Compton formula lacks a division by the mass, the documented Debye formula has T/T_D in place of its third power, the documented velocity distribution is not normalized, and the documented pseudo-Voigt profile has its normal component at zero. Proved: the other formulas agree for all inputs, with the exact factor for the first two.")
m("C142", "partial", ["C142_refuted", "C142_scalar", "C142_no_endpoint", "C142_partial"], "False of the code: coverages of numpy types other than float64 raise an IndexError, a constant accepts a single limit (and returns 50 points up to the number of points) and takes a third integer for the number of points. Proved for every shape: Python numbers and np.float64 are coverages, the first two entries of a sequence are the limits.")
m("C143", "proved", ["C143_converges", "C143_rate", "C143_inside", "C143_pseudo_voigt"], "Pseudo-Voigt resonances are covered as further constituents under the conditions of C82.")
m("C144", "proved", ["C144_single", "C144_layers", "C144_shadow", "C144_notebook"], "for cross sections that return nonnegative numbers in the range of energies, among them Voigt profiles with the shipped table of tin; numerical quadrature is modelled by the exact integral")
m("C145", "proved", ["C145_half_life", "C145_areal_density"])
m("C146", "partial", ["C146_refuted", "C146_partial"], "False of the code: 14 entries of the table, for example hydrogen, are None, which raises TypeError. Proved for exactly the other entries.")
m("C147", "partial", ["C147_refuted", "C147_partial"], "False of the code: natural_element_densities does not exist in any module with data. The other four dictionaries can be imported.")
m("C148","partial",["C148_refuted","C148_partial"],"Refuted: on a descending partition the first number is an upper bound and subtracting the second gives a lower one; the documented bounds hold for continuous functions exactly if the two sums coincide.")
m("C149","partial",["C149_refuted","C149_iff"],"Refuted: a constant cross section evaluates to one number, which darboux rejects with a TypeError. Exact condition: the expression contains something else than constants.")
m("C150","partial",["C150_refuted","C150_partial"],"Refuted: the grid of every nonresonant cross section is equidistant in energy; for Compton scattering the shares strictly decrease. Constants have equal shares; bounds for decreasing cross sections.")
m("C151","partial",["C151_value","C151_limits_grid","C151_coverage_grid","C151_refuted","C151_partial"],"Values, integrals and both kinds of grid are proved for every continuous distribution. Refuted for coverage intervals: cdf(0.0) is called without the parameters, which raises a TypeError for distributions with shape parameters once the lower limit is negative.")
m("C152","partial",["Heap.C152_refuted","Heap.C152_exact","Heap.C152_partial"],"Refuted: the lists are kept by reference. Exact: the sum always reads the current contents of the two lists. An empty list of reactions is replaced by a new one.")
m("C153","partial",["C153_refuted","C153_partial","coverageIntervalR_exact"],"Refuted: for 1 - 2^-53 the sum 1.0 + coverage rounds to 2 and the upper limit is infinite. Proved with error bounds up to a coverage of 1 - 6 u.")
m("C154","proved",["C154_size","C154_same","C154_nonresonant"],"")
m("C155", "proved", ["C155_breit_wigner", "C155_gauss", "C155_recoil", "C155_doppler", "C155_klein_nishina", "C155_pseudo_voigt", "C155_voigt", "C155_compton_angle", "C155_compton_polarized", "C155_compton_energy", "exRange_accurate", "exRange_not_accurate", "exRangeKN_accurate", "exRangePV_accurate", "exRangeT_accurate", "exRangeT_angles"], "Gauss up to 14 Doppler widths from the resonance, Klein-Nishina between 2^-19 and 2^59 masses. An arithmetic with gradual underflow and arbitrary results after overflow meets the hypotheses (exRange_accurate), but not those of C94 (exRange_not_accurate). Pseudo-Voigt where the normal component is at least e^-200 of its maximum, widths between 2^-80 and 2^80 MeV. The error for polarized photons is small only compared with the cross section perpendicular to the polarization (C198). Per energy of the scattered photon, computed angles are assumed not to be very close to pi or pi/2, as in double precision (exRangeT_angles). Voigt with a routine for the profile that is accurate for arguments that are zero or between 2^-200 and 2^200; the intermediate results inside of this compiled routine are not modelled.")
m("C156", "partial", ["C156_refuted", "C156_partial", "C156_limits_partial"], "False at zero temperature: the points are quantiles of a Lorentz curve of half the width, so that the grid carries at most the fraction 2/pi*arctan(tan(pi c/2)/2) < c, for every c and n. Proved for natural widths that are small compared with the Doppler width: deviation at most 2.1 (coverage) or 4.2 (limits) times the ratio of the widths. Missing: the bound for natural widths of the order of the Doppler width.")
m("C157", "proved", ["C157_gauss", "C157_voigt", "C157_pseudoVoigt", "C157_maximum"], "Intervals of pseudo-Voigt resonances are not claimed: the approximation of the width and the mixing parameter is not monotone far in the tails.")
m("C158", "partial", ["C158_refuted", "C158_breitWigner", "C158_gauss", "C158_voigt", "C158_partial"], "False of the code for pseudo-Voigt: the full width at half maximum is smaller than the width of the formula for every positive width of the level, and half of the width of the level at temperature zero, since the Cauchy component has half the documented width. Proved for the other shapes, and for pseudo-Voigt up to twice the width of the level.")
m("C159", "partial", ["C159_partial", "C159_refuted", "C159_mismatch", "C159_order_refuted"], "Holds for arrays on the right, for expressions of any depth and arrays of one length (C159_partial). False for arrays on the left: the product is an object array that cannot be evaluated (C159_refuted). False for the order of summands when an array has one entry: the sum is accumulated in place (C159_order_refuted). Other lengths raise ValueError (C159_mismatch).")
m("C160", "proved", ["C160_broadcast", "C160_classes", "C160_compton", "C160_sum"], "")
m("C161", "proved", ["C161_flux", "C161_table", "C161_mismatch"], "")
m("C162", "proved", ["C162_balance", "C162_self_absorption", "C162_shape"], "")
m("C163", "proved", ["Heap.C163_programs", "Heap.C163_alias", "Heap.C163_accumulate", "Heap.C163_difference"], "Products of two cross sections are outside of the claim (C09); C163_alias covers them too.")
m("C164","proved",["C164_pieces","C164_sum","C164_add_number","C164_scale","C164_monotone"],"induction over the partition; minimum of a sum is at least the sum of the minima")
m("C165","partial",["C165_refuted","C165_partial","C165_grids_partial","C165_compton"],"False of the base class, whose default distribution is a box of fixed width (1 MeV). Proved for Breit-Wigner, Gauss, pseudo-Voigt and Voigt resonances, including the exceptions.")
m("C166", "proved", ["C166_decreasing","C166_jump","C166_shipped","C166_beyond_refuted"], "C166_decreasing and C166_jump hold for any sorted table; C166_shipped is about the dictionary xrmac_cm2_per_g after the import with the shipped files (rows compared by kernel evaluation). C166_beyond_refuted shows that the upper limit of 4 MeV is needed: lead absorbs 20 MeV photons more strongly than 4 MeV photons. Exact real arithmetic.")
m("C167", "proved", ["C167_azimuth","C167_forward","C167_energy","C167_growth"], "Exact real arithmetic. The sum over two perpendicular directions is the returned unpolarized cross section divided by pi (the factor of C45). The kinematics use the fixed electron mass (C46), the scale factor the mass of the object.")
m("C168", "partial", ["C168_refuted","C168_accepted_iff","C168_partial","C168_axes_rejected","C168_axes_accepted_iff","C168_axes_refuted"], "Refuted: a partition given as a column (n, 1) is accepted together with any non-empty row of values and gives the sum of all minima times the length of the range, for a constant as many times the integral as there are intervals between the values. C168_accepted_iff lists all matrices accepted with a vector of values. Holds: functions on matrices and matrices of values are rejected, except for a column with two entries, which is treated like a vector. C168_axes_*: the same for any number of axes (only the last one has to fit; shape (2, 1, ..., 1) is the only accepted shape of values with more than one axis).")
m("C169", "partial", ["C169_refuted","C169_voigt","C169_gauss"], "Refuted for pseudo-Voigt: the ratio to the Breit-Wigner and to the Voigt cross section tends to a number between 1/2 and 0.69 at every temperature (1/2 at temperature zero), since the Cauchy component has half the documented width. Proved for Voigt with explicit bounds: at most the fraction 3 Delta^2/Gamma^2 more and 2 Delta^2/(4 (E-E_r)^2+Gamma^2) less than Breit-Wigner at any energy, and a deviation that falls like 1/(E-E_r)^2.")
m("C170", "partial", ["C170_refuted","C170_partial","C170_equidistant"], "Refuted: a partition that contains an energy below the Compton edge (for example 0) or above the energy of the photon gives nan for both sums. Proved for partitions that start at the Compton edge, and for the angles. Exact arithmetic; the computed Compton edge itself may give nan (C114).")
m("C171", "proved", ["C171_constructed","C171_rejected","C171_one_order","C171_ordering_needed"], "The hypothesis is the documented meaning of partial_widths; C171_ordering_needed shows a resonance at a negative energy with positive cross sections when a dictionary names a higher-lying state. The positive resonance energy is for the classes without recoil correction.")
m("C172", "proved", ["C172_thin","C172_limit","C172_breit_wigner","C172_gauss"], "Integrals are exact, as in C105.")
m("C173", "partial", ["C173_exact","C173_once","C173_refuted","C173_partial","C173_different_numbers"], "Refuted with the usual treatment of repeated warnings: a text is printed once per program, and as the number in the text is always 50 for Breit-Wigner and Gauss resonances (C18) all their warnings have the same text; at most one of them is ever printed, whatever the resonances (C173_once), and for any two of them a second unphysical interval goes unannounced (C173_refuted). Proved: exactly which warnings are printed (C173_exact), the first one is, all of them are with the action 'always' (C173_partial), and two with different numbers are (C173_different_numbers).")
m("C174", "partial", ["C174_refuted","C174_breit_wigner","C174_voigt","C174_gauss_iff","C174_pseudo_voigt_cold","C174_partial"], "Proved for Breit-Wigner (with the exact condition for reaching the limit) and Voigt. False for Gauss exactly if the Doppler width is below sqrt(pi)/2 times partial width times branching ratio (C174_gauss_iff; at room temperature for a 10 eV state, C174_refuted), as the shape ignores the natural width; false for pseudo-Voigt, which reaches twice the limit without thermal motion because of the halved width of its Cauchy component (C32), and never more than that (C174_partial).")
m("C175", "proved", ["C175_integrated","C175_reverse_exists","C175_breit_wigner","C175_gauss"], "For Gauss the lines have widths proportional to the photon energies, therefore the comparison is at equal ratios of energy and resonance energy.")
m("C176", "partial", ["C176_refuted","C176_partial","C176_hydrogen"], "C176_refuted: the attenuation of an aluminium atom is zero at all energies (mass of elements with one isotope is read as zero, C58). C176_partial: the 62 elements with a nonzero mass: at every tabulated energy and outside of the table at least 0.9999 of Klein-Nishina, in between at least 0.8999 of it. C176_hydrogen: agreement within 0.3 % at the tabulated energies between 20 keV and 2 MeV. Missing: the 30 elements for which it is false; 0.01 % between the tabulated energies.")
m("C177", "partial", ["C177_refuted","C177_partial","C177_at_zero","C177_zero_value","C177_positive_energies"], "False if the value at zero energy is zero: the result is nan at every energy between zero and the next one (C177_zero_value; concrete table in C177_refuted). Proved for positive values: the row counts at zero only, at every positive energy the result is that of the table without it (C177_partial), hence the next tabulated value below the first positive energy. C177_positive_energies: the formulas of numpy in IEEE arithmetic agree with the interpolation used in the other properties for all tables of positive energies.")
m("C178", "partial", ["C178_refuted","C178_refuted_finite","C178_partial","C178_negative","C178_pseudoVoigt_wide","C178_pseudoVoigt_narrow"], "False: nothing is raised. Coverages beyond 1 (or below -1): the box, Breit-Wigner and Gauss resonances return two nan without a warning, and an equidistant grid consists of nan (C178_partial, all parameters; C178_refuted for 95). Pseudo-Voigt and Voigt resonances return nan if (|c| - 1) times the width is at least 3.8e-8 MeV (C178_pseudoVoigt_wide), but finite limits if |c| times the width is at most 2.7e-8 MeV (C178_pseudoVoigt_narrow; C178_refuted_finite: coverage 1.3, width 20 meV). Negative coverages between -1 and 0: the limits are exchanged (C178_negative, Breit-Wigner and Gauss). Not covered: pseudo-Voigt widths in between and negative coverages there.")
m("C179", "partial", ["C179_partial","C179_single_isotope","C179_refuted"], "Refuted for the 22 elements with a single isotope of abundance 1 (aluminium, gold, ...): their abundances add up to zero and their mass is zero, although the mass of the isotope in the file agrees with the listed weight. Proved for the other 62 elements with a tabulated composition; the remaining 34 have no listed weight.")
m("C180", "proved", ["C180_accuracy","C180_bounds"], "Relative error at most 3 eps + 40 u + 50 u T/T_D, where eps is the relative error of the quadrature (assumed to be a sum with nonnegative weights over nodes that are at least 100 u). No overflow or underflow.")
m("C181", "proved", ["C181_energy","C181_gauss_energy","C181_width","C181_voigt", "C181_voigt_wings","C181_gauss","KN.C181_compton"], "Exact arithmetic. C181_gauss_energy shows that the bound for a shift of the energy fails for Gauss resonances in the wings, C181_gauss that there is no upper bound in the wings when the temperature changes.")
m("C182", "partial", ["C182_refuted","C182_refuted_width","C182_partial","C182_gauss"], "False of the code: nothing is checked, only the ratio of temperature and mass enters, so a negative mass with a negative temperature gives the cross section of their absolute values, and a Gauss resonance of a level with a negative width is negative. Proved: a vanishing mass raises, one negative sign of two gives nan for all Doppler-broadened shapes, a width that is not positive gives nan for Breit-Wigner; exact condition for Gauss. Voigt profiles with negative widths are not modelled.")
m("C183","partial",["C183_partial","C183_refuted","C183_refuted_steep","C183_power","C183_fall","C183_rise"],"Refuted by two shipped tables: the coefficient of thulium rises from 12.00 at the K edge (0.0593896 MeV) to 14.09 at 0.06 MeV, and the one of chromium falls from 597.7 to 516.0 between its K edge (0.0059892 MeV) and 0.006 MeV, faster than the power -81 of the energy. Proved for all other elements (in molybdenum the power is 5 instead of 16/5, since the energies of two rows differ only in the last digits), including decrease for chromium and the limited fall for thulium. The general theorems say that log-log interpolation commutes with power laws.")
m("C184","partial",["C184_partial","C184_refuted","C184_tables"],"Refuted: the attenuation of an aluminium atom (13) is zero at all energies, the one of a magnesium atom (12) is not, because masses of elements with a single natural isotope are read as zero (C58). Proved for all pairs among the 62 elements with a nonzero mass.")
m("C185","proved",["C185_limits","C185_coverage","C185_exact","C185_sum"],"combination of the resonance grids (C11, C12), the closed-form integral (C19) and the partitioned quadrature (C67, C69) with any number of further coordinates")
m("C186","proved",["C186_breit_wigner","C186_gauss","C186_voigt","C186_pseudo_voigt","C186_quadrature"],"bounds of the tails for all four shapes; the example of tests/test_integration.py is an instance (Validation.lean)")
m("C187","proved",["C187_array","C187_number","C187_every_array","C187_every_number"],"Model/RoundedNewton; the fallback is a parameter. Example: double precision, correctly rounded functions, 2.5 MeV, quantiles 0.01, 0.5, 0.99.")
m("C188","proved",["C188_coverage_interval","C188_coverage_grid","C188_limits_grid","C188_increasing","C188_increasing_coverage"],"Model/RoundedPVGrid: the same code as in C113 (probGridF_rounded, coverageIntervalF_rounded) with the rounded search of C187. Example: double precision, correctly rounded functions, a level at 2 MeV, coverage 0.95.")
m("C189","proved",["C189_breit_wigner","C189_gauss","C189_pseudo_voigt"],"End-to-end bound of both computed Darboux sums on the computed grid: |L - I| <= G + gamma (I + G), with G the error of m + 1 intervals (including the misplaced grid points) and gamma the relative error of values and summation. Breit-Wigner and Gauss shapes; scipy's distribution functions are assumed to be rounded correctly, as in C113. Pseudo-Voigt shape: distribution with the errors of C187 and C188, exact energy-integrated cross section.")
m("C190", "proved", ["C190_sum", "C190_integral", "C190_points", "C190_constant", "C190_nonresonant", "C190_compton", "C190_breit_wigner", "C190_gauss", "C190_pseudo_voigt"], "C190_sum is the closure of the specification `Resolves` under weighted sums (hence under nesting), C190_integral the error of both Darboux sums, C190_points the size of the common grid; the remaining theorems provide the constituents.")
m("C191","proved",["C191_coverage_interval","C191_limits_grid","C191_resolves","C191_integral"],"the computed distribution function, densities and the fallback are arbitrary functions with bounded errors; quantiles are those at which the search of C187/C188 converges; C202_density bounds the error of the computed densities")
m("C192","proved",["C192_table","C192_shipped","C192_above","C192_resolves"],"computed logarithm and power are arbitrary functions with relative errors of at most 1e-15 (the logarithm monotone); no overflow or underflow; conversion of units by a factor is not part of the rounded model")
m("C193", "proved", ["C193_flux","C193_rate","C193_beam","C193_layers"], "Floating point with underflow as a monotone rounding with relative error u plus absolute error omega; overflow excluded. In the layers, the depth has to lie behind both the exact and the computed boundary.")
m("C194", "proved", ["C194_quadrature","C194_sharp","C194_thin","C194_li6"], "scipy's quad is represented by its documented tolerances, for integrands evaluated with bounded errors; what its rule of 21 points does for a given integrand is not modelled. The absolute tolerance of quad, 1.49e-8 MeV, is part of the bound.")
m("C195", "proved", ["C195_transmission", "C195_voigt", "C195_gauss"], "Levels with (4N+34)u <= 4.9e-12 for N decay channels (thousands in double precision); no underflow in the cross sections themselves; tables without conversion of units. C195_voigt: the same for Voigt resonances, with an accurate routine for the Voigt profile as a parameter and the bound of C202 on the roundings. C195_gauss: the same for Gauss resonances with the bound of C95, met within 30 Doppler widths.")
m("C196", "partial", ["C196_refuted", "C196_partial", "C196_thick"], "False of the code: for every diameter, enrichment and effective temperature there are a target mass and three widths of which the middle one has the largest R (thick targets: the coverage interval grows faster than the cross section at its ends, so that R falls). Proved for all targets and coverages: every width has a smaller one below which all R are smaller. For thick targets of any resonances, the larger minimum of the cross section between the limits decides.")
m("C197", "partial", ["C197_refuted", "C197_thick", "C197_partial"], "False of the code: for a thin absorber, and for a thick one, the notebook finds the start value (or 5 % more) for every width of the level and prints no warning. Proved for every run: samples without a warning are as close to the width of the level as the sum of the tolerance, the error of the computed self absorption and the error of the measured value, divided by the slope of the self absorption.")
m("C198", "partial", ["C198_refuted", "C198_angle", "C198_energy", "C198_polarized_partial", "C198_polarized_energy_partial"], "True of unpolarized photons, with an error that grows with E/me, also with overflow and underflow by C155 (and with me/E for the energy-differential cross section, which may also be nan at its ends, see C114). False of polarized photons: along the polarization, perpendicular to the beam, the computed value of a photon of low energy is zero. The error is always small compared with the cross section perpendicular to the polarization.")
m("C199", "partial", ["C199_refuted", "C199_partial"], "True of energies, up to 38 roundings times (E/me + 1 + me/E), unless the angle is nan (C114). False of angles: at every energy, all angles below 2^-28 come back as zero.")
m("C200", "partial", ["C200_refuted", "C200_angle_partial", "C200_energy_partial", "C200_polarized_partial", "C200_polarized_energy_partial"], "True between a hundredth and a thousand electron masses, for quadratures with an error of 1e-7. False of photons of about 2 eV: the integrals are positive and the computed total cross section is negative (C84). The choice of the nodes by QUADPACK is not modelled; all rules with nonnegative weights are covered, with a rounded summation.")
m("C201", "proved", ["C201_breitWigner", "C201_gauss", "C201_missed", "C201_missed_voigt", "C201_without_grid"], "Integrators are parameters: covariance under shifts, stretching and factors for the positive statements (rules with fixed relative nodes have it), a first step with any finite set of nodes for the negative ones. The absolute tolerance and the underflow checks of QUADPACK are not covariant; C185 covers integrators that are accurate to their reported error. For limits instead of a coverage see C185 and C189, for pseudo-Voigt resonances C189.")
m("C202", "proved", ["C202_voigt", "C202_voigt_everywhere", "C202_density"], "scipy.special.voigt_profile is compiled code and a parameter with an assumed relative error. For overflow and underflow see C155. C202_density is the hypothesis of C191 on computed densities. The energy difference of the levels is assumed to be exact, as in C94; otherwise see C203.")
m("C203", "proved", ["C203_breit_wigner", "C203_voigt", "C203_voigt_everywhere", "C203_gauss", "C203_narrow"], "scipy.special.voigt_profile is a parameter with an assumed relative error. Overflow and underflow are not modelled.")
m("C204", "proved", ["C204_breit_wigner", "C204_voigt", "C204_voigt_everywhere", "C204_gauss", "C204_narrow"], "scipy.special.voigt_profile is a parameter with an assumed relative error. Overflow and underflow are not modelled.")

done = {c["property"] for c in C}
ids = [json.loads(l)["id"] for l in open(os.path.join(here, "..", "properties.jsonl"))]
for i in ids:
    if i not in done:
        C.append({"property": i, "status": "not_applicable", "theorems": [], "note": "not yet modelled"})
C.sort(key=lambda c: ids.index(c["property"]))
json.dump({"claims": C}, open(os.path.join(here, "..", "MANIFEST.json"), "w"), indent=1, ensure_ascii=False)

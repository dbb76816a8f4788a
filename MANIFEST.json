{
 "claims": [
  {
   "property": "C01",
   "status": "proved",
   "theorems": [
    "Ries.C01_sum_evaluates_to_sum",
    "Ries.C01_resonances",
    "Ries.C01_resonance_sum"
   ],
   "note": ""
  },
  {
   "property": "C02",
   "status": "proved",
   "theorems": [
    "Ries.C02_scaling"
   ],
   "note": ""
  },
  {
   "property": "C03",
   "status": "proved",
   "theorems": [
    "Ries.C03_expression_compositional",
    "Ries.C03_laws"
   ],
   "note": ""
  },
  {
   "property": "C04",
   "status": "proved",
   "theorems": [
    "Ries.Heap.C04_frame",
    "Ries.Heap.C04_value",
    "Ries.Heap.C04_add_value",
    "Ries.Heap.C04_mul_value"
   ],
   "note": ""
  },
  {
   "property": "C05",
   "status": "partial",
   "theorems": [
    "Ries.Heap.C05_refuted",
    "Ries.Heap.C05_partial",
    "Ries.Heap.C05_product",
    "Ries.Heap.C05_nested"
   ],
   "note": "False of the code for CrossSection + WeightedSum (the operand is nested by reference); proved for all other operand kinds of a sum, and for products with a number."
  },
  {
   "property": "C06",
   "status": "partial",
   "theorems": [
    "Ries.C06_array_pointwise_partial",
    "Ries.C06_array_shape_refuted",
    "Ries.C06_array_shape_iff"
   ],
   "note": "Pointwise equality proved for all sums; the shape claim is false of the code for sums of constants only (a scalar is returned)."
  },
  {
   "property": "C07",
   "status": "proved",
   "theorems": [
    "Ries.C07_explicit_lists"
   ],
   "note": ""
  },
  {
   "property": "C08",
   "status": "partial",
   "theorems": [
    "Ries.C08_default_constructor_refuted",
    "Ries.C08_default_constructor_partial"
   ],
   "note": "False of the code: CrossSectionWeightedSum() raises TypeError. The calls with at least one argument are proved."
  },
  {
   "property": "C09",
   "status": "partial",
   "theorems": [
    "Ries.C09_call_returns_number_refuted",
    "Ries.C09_call_returns_number_partial",
    "Ries.C09_number_iff"
   ],
   "note": "False of the code: a product of two cross sections is accepted and its call returns an object. Proved when every product has a scalar factor."
  },
  {
   "property": "C10",
   "status": "proved",
   "theorems": [
    "Ries.C10_energy_grid",
    "Ries.C10_energy_grid_small"
   ],
   "note": ""
  },
  {
   "property": "C11",
   "status": "proved",
   "theorems": [
    "Ries.C11_limits_grid",
    "Ries.C11_ends_exact",
    "Ries.C127_any_distribution",
    "Ries.C11_pseudoVoigt_lengthPreserving"
   ],
   "note": ""
  },
  {
   "property": "C12",
   "status": "proved",
   "theorems": [
    "Ries.C12_coverage_grid"
   ],
   "note": ""
  },
  {
   "property": "C13",
   "status": "partial",
   "theorems": [
    "Ries.C13_refuted",
    "Ries.C13_partial",
    "Ries.C13_box_iff",
    "Ries.C13_pseudoVoigt_refuted",
    "Ries.C13_pseudoVoigt_not_ordered",
    "Ries.C13_pseudoVoigt_partial"
   ],
   "note": "False of the code for the box shape when the limits do not overlap the box (exact condition in C13_box_iff), and for narrow pseudo-Voigt resonances with limits above the resonance energy; proved for Breit-Wigner and Gauss, and for pseudo-Voigt with limits around the resonance energy."
  },
  {
   "property": "C14",
   "status": "proved",
   "theorems": [
    "Ries.C14_sum_grid",
    "Ries.C14_sum_grid_limits"
   ],
   "note": ""
  },
  {
   "property": "C15",
   "status": "partial",
   "theorems": [
    "Ries.C15_refuted",
    "Ries.C15_typeError",
    "Ries.C15_partial",
    "Ries.C15_all_shapes_partial",
    "Ries.C15_accepted_iff"
   ],
   "note": "False of the code: sums with a constant or nonresonant constituent raise TypeError on a coverage request; proved for sums of Breit-Wigner, Gauss, pseudo-Voigt and Voigt resonances; exact condition for nested sums in C15_accepted_iff."
  },
  {
   "property": "C16",
   "status": "proved",
   "theorems": [
    "Ries.C16_coverage_interval",
    "Ries.C16_coverage_grows",
    "Ries.C16_coverage_zero",
    "Ries.C16_coverage_one"
   ],
   "note": ""
  },
  {
   "property": "C17",
   "status": "partial",
   "theorems": [
    "Ries.C17_refuted",
    "Ries.C17_partial",
    "Ries.C17_negative_iff",
    "Ries.C17_pseudo_voigt"
   ],
   "note": "False of the code: negative lower limits are returned unchanged; proved that a warning is issued exactly then; exact condition for Breit-Wigner and Gauss in C17_negative_iff, for pseudo-Voigt up to the accuracy of the search in C17_pseudo_voigt."
  },
  {
   "property": "C18",
   "status": "partial",
   "theorems": [
    "Ries.C18_refuted",
    "Ries.C18_warning_occurs",
    "Ries.C18_partial"
   ],
   "note": "False of the code for Breit-Wigner and Gauss (cdf(0) is called without the distribution parameters: always 50 %); proved for pseudo-Voigt."
  },
  {
   "property": "C19",
   "status": "proved",
   "theorems": [
    "Ries.C19_box",
    "Ries.C19_analytic",
    "Ries.C19_pseudoVoigt",
    "Ries.C19_voigt"
   ],
   "note": ""
  },
  {
   "property": "C20",
   "status": "partial",
   "theorems": [
    "Ries.C20_refuted",
    "Ries.C20_partial",
    "Ries.C20_half_partial",
    "Ries.C20_gauss_partial",
    "Ries.C20_pseudo_voigt_partial",
    "Ries.C20_voigt_partial"
   ],
   "note": "False of the code: the shapes have mass at negative energies; exact value for Breit-Wigner and Gauss; for Gauss the missing fraction is below exp(-mc2/(2kT))/2; for pseudo-Voigt and Voigt strictly smaller as well, with an upper bound of the missing fraction."
  },
  {
   "property": "C21",
   "status": "proved",
   "theorems": [
    "Ries.C21_channel",
    "Ries.C21_channels_sum"
   ],
   "note": ""
  },
  {
   "property": "C22",
   "status": "proved",
   "theorems": [
    "Ries.C22_width_sum",
    "Ries.C22_width_perm",
    "Ries.C22_width_ge",
    "Ries.C22_ground"
   ],
   "note": ""
  },
  {
   "property": "C23",
   "status": "proved",
   "theorems": [
    "Ries.C23_formula",
    "Ries.C23_pos",
    "Ries.C23_scaling"
   ],
   "note": ""
  },
  {
   "property": "C24",
   "status": "proved",
   "theorems": [
    "Ries.C24_construction"
   ],
   "note": ""
  },
  {
   "property": "C25",
   "status": "proved",
   "theorems": [
    "Ries.C25_closed_form"
   ],
   "note": ""
  },
  {
   "property": "C26",
   "status": "proved",
   "theorems": [
    "Ries.C26_symmetric_peak",
    "Ries.C26_half_maximum",
    "Ries.C26_relative_mode"
   ],
   "note": ""
  },
  {
   "property": "C27",
   "status": "proved",
   "theorems": [
    "Ries.C27_recoil"
   ],
   "note": ""
  },
  {
   "property": "C28",
   "status": "partial",
   "theorems": [
    "Ries.C28_refuted",
    "Ries.C28_partial"
   ],
   "note": "False of the code: only the box class accepts a recoil correction; the others always use the bare level difference."
  },
  {
   "property": "C29",
   "status": "proved",
   "theorems": [
    "Ries.C29_temperature_roundtrip",
    "Ries.C29_width_roundtrip"
   ],
   "note": ""
  },
  {
   "property": "C30",
   "status": "proved",
   "theorems": [
    "Ries.C30_scaling",
    "Ries.C30_monotone"
   ],
   "note": ""
  },
  {
   "property": "C31",
   "status": "proved",
   "theorems": [
    "Ries.C31_convex",
    "Ries.C31_degenerate"
   ],
   "note": ""
  },
  {
   "property": "C32",
   "status": "partial",
   "theorems": [
    "Ries.C32_refuted",
    "Ries.C32_partial"
   ],
   "note": "Gauss limit proved. Lorentz limit false of the code: the Cauchy component has scale Gamma/4 instead of Gamma/2."
  },
  {
   "property": "C33",
   "status": "proved",
   "theorems": [
    "Ries.C33_scalar",
    "Ries.C33_fallback",
    "Ries.C33_median",
    "Ries.C33_array"
   ],
   "note": ""
  },
  {
   "property": "C34",
   "status": "partial",
   "theorems": [
    "Ries.C34_refuted",
    "Ries.C34_grid_none",
    "Ries.C34_partial",
    "Ries.C34_coverage_interval",
    "Ries.C34_median_no_fallback",
    "Ries.C34_sum_none"
   ],
   "note": "False of the code: if only some quantiles converge, ppf returns None, and the grid of every sum with such a resonance is a TypeError. Proved for arrays of equal or mirrored quantiles, hence for coverage_interval. C80 (exact arithmetic) and C187 (floating point) give conditions under which all quantiles converge."
  },
  {
   "property": "C35",
   "status": "proved",
   "theorems": [
    "Ries.C35_convolution",
    "Ries.C35_zero_temperature",
    "Ries.C35_zero_width"
   ],
   "note": ""
  },
  {
   "property": "C36",
   "status": "proved",
   "theorems": [
    "Ries.C36_bounds"
   ],
   "note": ""
  },
  {
   "property": "C37",
   "status": "proved",
   "theorems": [
    "Ries.C37_monotone",
    "Ries.C37_homogeneous"
   ],
   "note": ""
  },
  {
   "property": "C38",
   "status": "proved",
   "theorems": [
    "Ries.C38_limits",
    "Ries.C38_classical_bound"
   ],
   "note": ""
  },
  {
   "property": "C39",
   "status": "partial",
   "theorems": [
    "Ries.C39_refuted",
    "Ries.C39_partial"
   ],
   "note": "False of the shipped table: the keys 'Ma' and 'Va' are no element symbols; every other key is."
  },
  {
   "property": "C40",
   "status": "proved",
   "theorems": [
    "Ries.C40_compton_kinematics"
   ],
   "note": ""
  },
  {
   "property": "C41",
   "status": "proved",
   "theorems": [
    "Ries.C41_theta_energy_inverse"
   ],
   "note": ""
  },
  {
   "property": "C42",
   "status": "proved",
   "theorems": [
    "Ries.C42_angular_integral"
   ],
   "note": ""
  },
  {
   "property": "C43",
   "status": "proved",
   "theorems": [
    "Ries.C43_energy_integral"
   ],
   "note": ""
  },
  {
   "property": "C44",
   "status": "proved",
   "theorems": [
    "Ries.C44_differential_nonneg",
    "Ries.C44_total",
    "Ries.C44_growth"
   ],
   "note": ""
  },
  {
   "property": "C45",
   "status": "partial",
   "theorems": [
    "Ries.C45_azimuthal_average_refuted",
    "Ries.C45_azimuthal_average_partial"
   ],
   "note": "False of the code: the function is the azimuthal integral, 2*pi times the average."
  },
  {
   "property": "C46",
   "status": "partial",
   "theorems": [
    "Ries.C46_any_mass_refuted",
    "Ries.C46_any_mass_partial"
   ],
   "note": "False of the code for every mass other than the electron's (kinematics use the electron mass); proved exactly for the electron mass."
  },
  {
   "property": "C47",
   "status": "proved",
   "theorems": [
    "Ries.C47_proportional_Z"
   ],
   "note": ""
  },
  {
   "property": "C48",
   "status": "proved",
   "theorems": [
    "Ries.C48_nodes"
   ],
   "note": ""
  },
  {
   "property": "C49",
   "status": "proved",
   "theorems": [
    "Ries.C49_power_law",
    "Ries.C49_between",
    "Ries.C49_positive"
   ],
   "note": ""
  },
  {
   "property": "C50",
   "status": "partial",
   "theorems": [
    "Ries.C50_refuted",
    "Ries.C50_partial"
   ],
   "note": "False of the code for tables that are not sorted by energy (the interpolation sorts the rows, the fill values do not); proved for sorted tables, where an edge exactly at the smallest energy is excluded below the table."
  },
  {
   "property": "C51",
   "status": "proved",
   "theorems": [
    "Ries.C51_value_units",
    "Ries.C51_energy_units",
    "Ries.C51_shipped"
   ],
   "note": ""
  },
  {
   "property": "C52",
   "status": "proved",
   "theorems": [
    "Ries.C52_round_trip"
   ],
   "note": ""
  },
  {
   "property": "C53",
   "status": "partial",
   "theorems": [
    "Ries.C53_refuted",
    "Ries.C53_partial",
    "Ries.C53_table_partial"
   ],
   "note": "False of the code: without a final newline the last exponent digit of the third number is cut off (shipped 82.txt). The two columns used for interpolation are complete."
  },
  {
   "property": "C54",
   "status": "partial",
   "theorems": [
    "Ries.C54_refuted",
    "Ries.C54_partial"
   ],
   "note": "False of the code: the stored conversions are closures over the loop variable and all use the mass of Z = 92 after the import (shown for lead with the shipped files). The stored data are converted with the right mass."
  },
  {
   "property": "C55",
   "status": "proved",
   "theorems": [
    "Ries.C55_weighted_sum",
    "Ries.C55_order",
    "Ries.C55_missing",
    "Ries.C55_between"
   ],
   "note": ""
  },
  {
   "property": "C56",
   "status": "partial",
   "theorems": [
    "Ries.C56_isotopes",
    "Ries.C56_partial",
    "Ries.C57_refuted"
   ],
   "note": "The set of isotopes is proved for every sorted file; masses and abundances are proved for values with an uncertainty and are false of the code for values without (C57)."
  },
  {
   "property": "C57",
   "status": "partial",
   "theorems": [
    "Ries.C57_refuted",
    "Ries.C57_partial"
   ],
   "note": "False of the code: a value without uncertainty is read as the default (abundance 0). Proved for values with uncertainty."
  },
  {
   "property": "C58",
   "status": "partial",
   "theorems": [
    "Ries.C58_refuted",
    "Ries.C58_partial"
   ],
   "note": "False of the code: the 22 elements whose single isotope is listed with abundance 1 without uncertainty (F, Na, Al, ..., Au) get the mass 0. Proved for all other elements with tabulated composition, on the whole shipped file."
  },
  {
   "property": "C59",
   "status": "proved",
   "theorems": [
    "Ries.C59_symbols",
    "Ries.C59_lookup"
   ],
   "note": ""
  },
  {
   "property": "C60",
   "status": "partial",
   "theorems": [
    "Ries.C60_refuted",
    "Ries.C60_partial",
    "Ries.C60_none_partial",
    "Ries.C60_shipped_partial",
    "Ries.C60_correct_iff"
   ],
   "note": "False of the code: the first line whose symbol contains the requested symbol is used (B gets the density of Be, S of Si, I of In). Proved for two-letter symbols and for letters that occur in no earlier symbol; exact condition in C60_correct_iff."
  },
  {
   "property": "C61",
   "status": "proved",
   "theorems": [
    "Ries.C61_brackets_integral"
   ],
   "note": ""
  },
  {
   "property": "C62",
   "status": "proved",
   "theorems": [
    "Ries.C62_gap_formula",
    "Ries.C62_equidistant",
    "Ries.C62_constant"
   ],
   "note": ""
  },
  {
   "property": "C63",
   "status": "proved",
   "theorems": [
    "Ries.C63_refinement"
   ],
   "note": ""
  },
  {
   "property": "C64",
   "status": "proved",
   "theorems": [
    "Ries.C64_function_vs_values"
   ],
   "note": ""
  },
  {
   "property": "C65",
   "status": "partial",
   "theorems": [
    "Ries.C65_mismatch_rejected_partial",
    "Ries.C65_mismatch_refuted",
    "Ries.C65_accepted_iff",
    "Ries.C65_two_values"
   ],
   "note": "False of the code when one of the arrays has exactly two entries (numpy broadcasting); proved otherwise; exact condition in C65_accepted_iff."
  },
  {
   "property": "C66",
   "status": "proved",
   "theorems": [
    "Ries.C66_rounded_order"
   ],
   "note": ""
  },
  {
   "property": "C67",
   "status": "proved",
   "theorems": [
    "Ries.C67_exact_pieces"
   ],
   "note": ""
  },
  {
   "property": "C68",
   "status": "proved",
   "theorems": [
    "Ries.C68_error_formula"
   ],
   "note": ""
  },
  {
   "property": "C69",
   "status": "partial",
   "theorems": [
    "Ries.C69_error_bound_refuted",
    "Ries.C69_error_bound_partial",
    "Ries.C69_factor_sharp"
   ],
   "note": "False of the code (errors added in quadrature); proved with the factor sqrt(n-1) and with the plain sum of errors; the factor cannot be improved (C69_factor_sharp)."
  },
  {
   "property": "C70",
   "status": "partial",
   "theorems": [
    "Ries.C70_ndarray_refuted",
    "Ries.C70_ndarray_partial"
   ],
   "note": "False of the code: non-empty arrays raise ValueError; lists and empty arrays are accepted."
  },
  {
   "property": "C71",
   "status": "partial",
   "theorems": [
    "Ries.C71_refuted",
    "Ries.C71_partial"
   ],
   "note": "False of the code: the tolerance of the root search is an absolute energy (1.48e-8 MeV); proved bound 1.9e-8 MeV / Gamma."
  },
  {
   "property": "C72",
   "status": "proved",
   "theorems": [
    "Ries.C72_import",
    "Ries.C72_shipped"
   ],
   "note": ""
  },
  {
   "property": "C73",
   "status": "partial",
   "theorems": [
    "Ries.C73_refuted",
    "Ries.C73_partial"
   ],
   "note": "The relation between the two units is proved for all elements and energies; positivity is false of the code for elements with mass 0 (see C58): their cross section per atom is 0 at every energy."
  },
  {
   "property": "C74",
   "status": "proved",
   "theorems": [
    "Ries.C74_shipped"
   ],
   "note": ""
  },
  {
   "property": "C75",
   "status": "proved",
   "theorems": [
    "Ries.C75_gauss",
    "Ries.C75_voigt"
   ],
   "note": ""
  },
  {
   "property": "C76",
   "status": "partial",
   "theorems": [
    "Ries.C76_refuted",
    "Ries.C76_conservation_partial"
   ],
   "note": "False of the code for targets other than the electron (the kinematics always uses the electron mass); proved for electrons, in both directions."
  },
  {
   "property": "C77",
   "status": "partial",
   "theorems": [
    "Ries.C77_refuted",
    "Ries.C77_energy_differential_partial"
   ],
   "note": "False of the code for targets other than the electron; proved for electrons."
  },
  {
   "property": "C78",
   "status": "partial",
   "theorems": [
    "Ries.C78_refuted",
    "Ries.C78_possible_energies_partial"
   ],
   "note": "False of the code: at impossible energies the result is nan instead of zero; the results are nonnegative numbers exactly at the possible energies."
  },
  {
   "property": "C79",
   "status": "proved",
   "theorems": [
    "Ries.C79_rounding",
    "Ries.C79_relative",
    "Ries.C79_bound"
   ],
   "note": ""
  },
  {
   "property": "C80",
   "status": "proved",
   "theorems": [
    "Ries.C80_array",
    "Ries.C80_scalar"
   ],
   "note": ""
  },
  {
   "property": "C81",
   "status": "proved",
   "theorems": [
    "Ries.C81_coverage",
    "Ries.C81_any_coverage"
   ],
   "note": ""
  },
  {
   "property": "C82",
   "status": "proved",
   "theorems": [
    "Ries.C82_coverage_grid",
    "Ries.C82_limits_grid"
   ],
   "note": ""
  },
  {
   "property": "C83",
   "status": "partial",
   "theorems": [
    "Ries.C83_refuted",
    "Ries.C83_half",
    "Ries.C83_broad_refuted",
    "Ries.C83_partial",
    "Ries.C83_narrow_partial"
   ],
   "note": "False of the code: at zero temperature every interval carries too little (for a coverage of 50 % less than a third), since quantiles come from a Lorentz curve of half the width; the same holds at positive temperatures if the Doppler-broadened width is at most an eighth of the natural width. Proved for zero width (with non-negative partial widths such a resonance has no cross section, so the result that matters is the next one), and up to 2.1 times the ratio of natural width and Doppler width for all other widths (within a few percent for narrow resonances)."
  },
  {
   "property": "C84",
   "status": "partial",
   "theorems": [
    "Ries.KN.C84_refuted",
    "Ries.KN.C84_not_accurate",
    "Ries.KN.C84_partial"
   ],
   "note": "False of the code: near 1.95 eV (electrons) the computed value is negative, in any arithmetic that rounds to nearest; proved that the relative error is at most 150 u (1 + mc2/E)^3 (1 + ln(1 + 2 E/mc2))."
  },
  {
   "property": "C85",
   "status": "partial",
   "theorems": [
    "Ries.KN.C85_construction",
    "Ries.KN.C85_refuted",
    "Ries.KN.C85_sum",
    "Ries.KN.C85_sum_value",
    "Ries.KN.C85_partial"
   ],
   "note": "False of the code at E = 0 (ZeroDivisionError on floats, nan on arrays); proved at all positive energies, with the exact range."
  },
  {
   "property": "C86",
   "status": "proved",
   "theorems": [
    "Ries.C86_converges",
    "Ries.C86_equidistant"
   ],
   "note": "uniform continuity and induction over the partition"
  },
  {
   "property": "C87",
   "status": "partial",
   "theorems": [
    "Ries.C87_refuted",
    "Ries.C87_odd_grid",
    "Ries.C87_odd_grid_pseudoVoigt_partial",
    "Ries.C87_limits_partial"
   ],
   "note": "The bracket holds for coverages with an odd number of points (resonance energy on the grid). It is false for an even number: with two points both sums are equal and too small for every coverage. For limits, and for an even number of points, both sums are within 2 sigma(E_r)/min(sigma(a),sigma(b))/(n-1) of the integral, relative to the integral."
  },
  {
   "property": "C88",
   "status": "partial",
   "theorems": [
    "Ries.C88_energy_grid_partial",
    "Ries.C88_pseudoVoigt_partial",
    "Ries.C88_refuted"
   ],
   "note": "Proved for coverages below 1 (pseudo-Voigt: for all but extreme coverages, up to the tolerance of the quantile search). False at coverage 1 for Breit-Wigner and Gauss resonances: every point but the last is nan, the last is infinite."
  },
  {
   "property": "C89",
   "status": "partial",
   "theorems": [
    "Ries.C89_refuted",
    "Ries.C89_partial"
   ],
   "note": "False for a numpy integer scalar as right summand: for a single cross section the sum is built but raises TypeError when evaluated, for a weighted sum AttributeError is raised at once. Proved for left summands and for products in both orders."
  },
  {
   "property": "C90",
   "status": "partial",
   "theorems": [
    "Ries.C90_refuted",
    "Ries.C90_partial"
   ],
   "note": "False for lists (TypeError) and arrays (IndexError), which the documentation allows. Proved for dictionaries."
  },
  {
   "property": "C91",
   "status": "partial",
   "theorems": [
    "Ries.C91_refuted",
    "Ries.C91_partial"
   ],
   "note": "False for arrays: the conversion functions are ignored. Proved for files."
  },
  {
   "property": "C92",
   "status": "partial",
   "theorems": [
    "Ries.C92_refuted",
    "Ries.C92_partial",
    "Ries.C92_width_at_construction"
   ],
   "note": "The width is computed once: it stays the sum at the time of construction. False after an assignment to partial_widths; then branching ratios do not sum to one. Proved as long as the dictionary is not changed."
  },
  {
   "property": "C93",
   "status": "proved",
   "theorems": [
    "Ries.C93_rounded_grid"
   ],
   "note": "Monotone rounding with relative error u, limits representable."
  },
  {
   "property": "C94",
   "status": "proved",
   "theorems": [
    "Ries.C94_breit_wigner"
   ],
   "note": "Standard model of floating-point arithmetic without overflow and underflow; energy difference of the levels exact, as for excitations from the ground state (otherwise see C203). Without overflow or underflow by C155."
  },
  {
   "property": "C95",
   "status": "proved",
   "theorems": [
    "Ries.C95_gauss",
    "Ries.C95_uniform"
   ],
   "note": "As C94; exponentials and powers with four units of error. Underflow far from the resonance is excluded (C155)."
  },
  {
   "property": "C96",
   "status": "proved",
   "theorems": [
    "Ries.C96_temperature"
   ],
   "note": ""
  },
  {
   "property": "C97",
   "status": "proved",
   "theorems": [
    "Ries.C97_narrow"
   ],
   "note": "Pointwise convergence."
  },
  {
   "property": "C98",
   "status": "proved",
   "theorems": [
    "Ries.C98_continuity"
   ],
   "note": "Exact real arithmetic for logarithms and powers."
  },
  {
   "property": "C99",
   "status": "partial",
   "theorems": [
    "Ries.C99_refuted",
    "Ries.C99_partial",
    "Ries.C99_nd_partial"
   ],
   "note": "False for empty arrays, which raise ValueError. Proved for all arrays with at least one entry, of any shape in C99_nd_partial."
  },
  {
   "property": "C100",
   "status": "proved",
   "theorems": [
    "Ries.C100_expression_grid",
    "Ries.C100_laws"
   ],
   "note": "Grid methods of constituents are arbitrary; a single cross section keeps its own grid."
  },
  {
   "property": "C101",
   "status": "partial",
   "theorems": [
    "Ries.C101_refuted",
    "Ries.C101_partial"
   ],
   "note": "False for grids: sum starts with the number 0, which becomes a constant cross section, so that coverage requests raise and grids for limits get the additional points of the equidistant grid. Proved: same values, and the exact set of grid points."
  },
  {
   "property": "C102",
   "status": "proved",
   "theorems": [
    "Ries.C102_flux",
    "Ries.C102_layers",
    "Ries.C102_flux_exists"
   ],
   "note": "for arbitrary cross sections that return a number; nonnegative where monotonicity is claimed"
  },
  {
   "property": "C103",
   "status": "proved",
   "theorems": [
    "Ries.C103_balance",
    "Ries.C103_bounds"
   ],
   "note": "at each energy; the integral over the energy of the notebook is not interchanged with the one over the depth"
  },
  {
   "property": "C104",
   "status": "proved",
   "theorems": [
    "Ries.C104_thin_target"
   ],
   "note": "quadrature by the exact integral"
  },
  {
   "property": "C105",
   "status": "proved",
   "theorems": [
    "Ries.C105_self_absorption",
    "Ries.C105_li6"
   ],
   "note": "quadrature by the exact integral; the first theorem holds for any resonance with a positive continuous cross section; the coverage must exceed 3.8e-8 divided by the width in MeV"
  },
  {
   "property": "C106",
   "status": "partial",
   "theorems": [
    "Ries.C106_refuted",
    "Ries.C106_partial"
   ],
   "note": "false: the function ignores its argument and uses the mean enrichment; right at the mean enrichment, error formula elsewhere"
  },
  {
   "property": "C107",
   "status": "proved",
   "theorems": [
    "Ries.C107_width"
   ],
   "note": ""
  },
  {
   "property": "C108",
   "status": "proved",
   "theorems": [
    "Ries.C108_cold_bound",
    "Ries.C108_hot_bound",
    "Ries.C108_leading_terms"
   ],
   "note": "exact integral instead of scipy.integrate.quad"
  },
  {
   "property": "C109",
   "status": "proved",
   "theorems": [
    "Ries.C109_low_energy",
    "Ries.C109_thomson_differential",
    "Ries.C109_high_energy",
    "Ries.C109_vanishes"
   ],
   "note": "exact reals: the cancellation of the closed formula at low energy in floats is not modelled"
  },
  {
   "property": "C110",
   "status": "proved",
   "theorems": [
    "Ries.C110_arguments_kept",
    "Ries.C110_classes_keep",
    "Ries.C110_result_new",
    "Ries.C110_pointwise",
    "Ries.C110_classes",
    "Ries.C110_grid_keeps",
    "Ries.C110_darboux"
   ],
   "note": "store model with in-place +=; scipy and numpy functions return new arrays (trusted); Compton and tabulated cross sections at positive energies"
  },
  {
   "property": "C111",
   "status": "partial",
   "theorems": [
    "Ries.C111_refuted",
    "Ries.C111_partial"
   ],
   "note": "refuted: TypeError on lists in relative mode (all resonances), for Voigt and for Compton; holds for the other classes with absolute energies and for sums of them"
  },
  {
   "property": "C112",
   "status": "partial",
   "theorems": [
    "Ries.C112_refuted",
    "Ries.C112_partial"
   ],
   "note": "refuted: the sign in the documentation is wrong, the code returns the cross section at E + E_r, i.e. the value for E - E_r is the cross section at E"
  },
  {
   "property": "C113",
   "status": "partial",
   "theorems": [
    "Ries.C113_refuted",
    "Ries.C113_above",
    "Ries.C113_partial"
   ],
   "note": "refuted: if both limits lie nine standard deviations above a Gauss resonance, all points between the first and the last are infinite (the source overwrites only the ends); holds if the range contains a probability of at least 1.3e-15 per interval, with an explicit error bound. cdf and ppf are assumed correctly rounded"
  },
  {
   "property": "C114",
   "status": "partial",
   "theorems": [
    "Ries.KN.C114_refuted",
    "Ries.KN.C114_nan",
    "Ries.KN.C114_partial"
   ],
   "note": "refuted: with the CODATA 2018 electron mass and 3.5 MeV the computed cosine at the computed Compton edge is below -1, so theta and cs_diff_dEp are nan; holds with an explicit error bound a few rounding errors away from the edge"
  },
  {
   "property": "C115",
   "status": "partial",
   "theorems": [
    "Ries.Iso.C115_refuted",
    "Ries.Iso.C115_partial",
    "Ries.Iso.C115_own_list_partial"
   ],
   "note": "refuted: an array with two states raises ValueError, and a container that is still empty is silently replaced by a new list; holds for lists and dictionaries with at least one state and for the default"
  },
  {
   "property": "C116",
   "status": "proved",
   "theorems": [
    "Ries.C116_rounded_bracket"
   ],
   "note": "explicit bound; np.sum is any binary summation tree that uses every summand once; overflow and underflow not modelled"
  },
  {
   "property": "C117",
   "status": "partial",
   "theorems": [
    "Ries.C117_refuted",
    "Ries.C117_nodes_partial",
    "Ries.C117_partial",
    "Ries.C117_below",
    "Ries.C117_above",
    "Ries.C117_shipped_nodes",
    "Ries.C117_shipped_between_partial"
   ],
   "note": "False of the code at energies directly below an absorption edge, where the computed logarithms of the energy and of the edge are equal: the value above the edge is returned. Proved otherwise, with explicit error bounds, and for all shipped tables with 1e-12 (transmission through them: C195); overflow and underflow not modelled."
  },
  {
   "property": "C118",
   "status": "proved",
   "theorems": [
    "Ries.C118_angles",
    "Ries.C118_energies",
    "Ries.C118_lengths",
    "Ries.C118_list_of_energies"
   ],
   "note": "scattered energies that are possible (numpy returns nan elsewhere); energies given as a list are a TypeError, although documented as array_like"
  },
  {
   "property": "C119",
   "status": "partial",
   "theorems": [
    "Ries.C119_refuted",
    "Ries.C119_partial"
   ],
   "note": "refuted for versions of scipy in which RootResults is no dictionary: TypeError; holds for the others, and whenever the fallback is used"
  },
  {
   "property": "C120",
   "status": "proved",
   "theorems": [
    "Ries.C120_number",
    "Ries.C120_array",
    "Ries.C120_exact"
   ],
   "note": ""
  },
  {
   "property": "C121",
   "status": "partial",
   "theorems": [
    "Ries.C121_refuted",
    "Ries.C121_partial"
   ],
   "note": "False of the code: Compton cross sections use the constant of CODATA 2014 under its old name; the deviation is between 1.6e-8 and 1.7e-8 for all energies. Resonances use the documented value (with CODATA 2018 or later; before, they cannot be constructed)"
  },
  {
   "property": "C122",
   "status": "partial",
   "theorems": [
    "Ries.C122_refuted",
    "Ries.C122_partial"
   ],
   "note": "False of the code: a top-level package named tests is installed as well; everything the library needs is installed"
  },
  {
   "property": "C123",
   "status": "partial",
   "theorems": [
    "Ries.C123_refuted",
    "Ries.C123_partial"
   ],
   "note": "False of the code: the example for attenuation coefficients imports a name that does not exist; the others work, and so does this one with the right import"
  },
  {
   "property": "C124",
   "status": "partial",
   "theorems": [
    "Ries.C124_refuted",
    "Ries.C124_compton_partial",
    "Ries.C124_states_partial",
    "Ries.C124_thermal_partial",
    "Ries.C124_resonance_partial",
    "Ries.C124_resonance_refresh",
    "Ries.C124_resonance_order",
    "Ries.C124_integral_partial"
   ],
   "note": "False of the code: derived attributes are computed once, so the number of electrons, abundances and partial widths can be changed without effect on cross section, mass and total width. Proved: exact factor between an edited and a new Compton object and when it is 1, branching ratios after edits and when they add up to 1, the claim itself for thermal motion, what edits of a resonance change and how to bring a Breit-Wigner resonance up to date"
  },
  {
   "property": "C125",
   "status": "proved",
   "theorems": [
    "Ries.C125_near",
    "Ries.C125_everywhere"
   ],
   "note": "Overflow and underflow: C155_pseudo_voigt."
  },
  {
   "property": "C126",
   "status": "partial",
   "theorems": [
    "Ries.C126_refuted",
    "Ries.C126_partial"
   ],
   "note": "refuted: where the natural width is at least twice the Doppler width, also at temperature zero, the pseudo-Voigt maximum exceeds the Voigt maximum by at least 40 % (the Cauchy component has half the documented width). Proved: deviations from Voigt and Gauss are bounded by a multiple of natural width over Doppler width, uniformly in the energy"
  },
  {
   "property": "C127",
   "status": "partial",
   "theorems": [
    "Ries.C127_refuted",
    "Ries.C127_any_distribution",
    "Ries.C127_sum_refuted",
    "Ries.C127_partial"
   ],
   "note": "refuted: one-point probability grids of resonances are the upper limit, energy grids the lower limit; without points IndexError instead of an empty grid; a sum returns two points for one"
  },
  {
   "property": "C128",
   "status": "proved",
   "theorems": [
    "Ries.C128_bounded",
    "Ries.C128_monotone"
   ],
   "note": "true lower and upper sums defined with infima and suprema over the closed intervals, independent of the loop; equality characterised"
  },
  {
   "property": "C129",
   "status": "partial",
   "theorems": [
    "Ries.Sig.C129_refuted",
    "Ries.Sig.C129_no_common_keyword",
    "Ries.Sig.C129_partial",
    "Ries.Sig.C129_agree_partial"
   ],
   "note": "refuted: the parameters are called E or energy, limits or coverage_or_limits, n_points or n_points_per_cross_section depending on the class; proved: positional calls work for every class, and two classes accepting the same call bind the same values"
  },
  {
   "property": "C130",
   "status": "partial",
   "theorems": [
    "Ries.C130_refuted",
    "Ries.C130_wrong_by_integral",
    "Ries.C130_partial",
    "Ries.C130_columns"
   ],
   "note": "refuted: a partition of shape (1, n) has length 1, nothing is integrated and (0, 0) is returned; proved: one-dimensional partitions, where parts sharing a point add up (see also C67); columns are treated like vectors, several rows with several entries are rejected"
  },
  {
   "property": "C131",
   "status": "proved",
   "theorems": [
    "Ries.C131_integral",
    "Ries.C131_error",
    "Ries.C131_exact",
    "Ries.C131_true_error"
   ],
   "note": "rounding as any function with relative error at most u (no overflow, no subnormal results); the results of nquad are taken as given"
  },
  {
   "property": "C132",
   "status": "proved",
   "theorems": [
    "Ries.C132_doubling",
    "Ries.C132_hole",
    "Ries.C132_absorption_maximum"
   ],
   "note": "count rate of the notebook with exact integrals; constant nonresonant cross section for the minimum and the maximum"
  },
  {
   "property": "C133",
   "status": "proved",
   "theorems": [
    "Ries.C133_probability_grid",
    "Ries.C133_energy_grid",
    "Ries.C133_sum_grid",
    "Ries.C133_one_point"
   ],
   "note": "for a single point the last limit is returned (cf. C127), which is why it is excluded"
  },
  {
   "property": "C134",
   "status": "proved",
   "theorems": [
    "Ries.C134_probability_grid",
    "Ries.C134_energy_grid",
    "Ries.C134_sum_grid",
    "Ries.C134_darboux"
   ],
   "note": "probability grids of pseudo-Voigt and Voigt resonances excluded: their quantiles are searched for the whole array at once and agree only up to the tolerance of the search"
  },
  {
   "property": "C135",
   "status": "proved",
   "theorems": [
    "Ries.C135_bounds",
    "Ries.C135_li6"
   ],
   "note": "exact integrals instead of the quadrature"
  },
  {
   "property": "C136",
   "status": "proved",
   "theorems": [
    "Ries.C136_cold"
   ],
   "note": "exact integrals instead of the quadrature"
  },
  {
   "property": "C137",
   "status": "proved",
   "theorems": [
    "Ries.C137_recoil",
    "Ries.C137_doppler",
    "Ries.C137_temperature",
    "Ries.C137_roundtrip",
    "Ries.C137_element_mass"
   ],
   "note": "Standard model of floating-point arithmetic; no overflow or underflow by C155."
  },
  {
   "property": "C138",
   "status": "partial",
   "theorems": [
    "Ries.C138_refuted",
    "Ries.C138_partial"
   ],
   "note": "False of the code: np.isclose adds a relative tolerance to the absolute one. Proved for all runs: the samples with a warning are exactly those that miss the measured value r by more than 1e-4 + 1e-5 |r|, and no sample is worse than the start value."
  },
  {
   "property": "C139",
   "status": "partial",
   "theorems": [
    "Ries.C139_refuted",
    "Ries.C139_partial",
    "Ries.C139_stops",
    "Ries.C139_midpoint",
    "Ries.C139_converges_partial",
    "Ries.C139_width_partial"
   ],
   "note": "False of the code: the search stops at once if the first two values are on both sides of the measured value at equal distances. Proved for every function: the result is not worse than the first two points; exact result when the criterion to stop is met at once. Proved for start values that are large compared to the tolerance: the search ends by its criterion and finds every minimum within six times the start value, up to twice the tolerance. Consequences for the widths: C196, C197."
  },
  {
   "property": "C140",
   "status": "partial",
   "theorems": [
    "Ries.C140_refuted",
    "Ries.C140_few",
    "Ries.C140_partial"
   ],
   "note": "False of the code for fewer than 100 samples (exact messages given); proved for 100 samples or more."
  },
  {
   "property": "C141",
   "status": "partial",
   "theorems": [
    "Ries.C141_refuted",
    "Ries.C141_compton_partial",
    "Ries.C141_compton_energy_partial",
    "Ries.C141_debye_partial",
    "Ries.C141_thermal_partial",
    "Ries.C141_integrated_partial"
   ],
   "note": "False of the code or of the documentation: the documented energy-differential Compton formula lacks a division by the mass, the documented Debye formula has T/T_D in place of its third power, the documented velocity distribution is not normalized, and the documented pseudo-Voigt profile has its normal component at zero. Proved: the other formulas agree for all inputs, with the exact factor for the first two."
  },
  {
   "property": "C142",
   "status": "partial",
   "theorems": [
    "Ries.C142_refuted",
    "Ries.C142_scalar",
    "Ries.C142_no_endpoint",
    "Ries.C142_partial"
   ],
   "note": "False of the code: coverages of numpy types other than float64 raise an IndexError, a constant accepts a single limit (and returns 50 points up to the number of points) and takes a third integer for the number of points. Proved for every shape: Python numbers and np.float64 are coverages, the first two entries of a sequence are the limits."
  },
  {
   "property": "C143",
   "status": "proved",
   "theorems": [
    "Ries.C143_converges",
    "Ries.C143_rate",
    "Ries.C143_inside",
    "Ries.C143_pseudo_voigt"
   ],
   "note": "Pseudo-Voigt resonances are covered as further constituents under the conditions of C82."
  },
  {
   "property": "C144",
   "status": "proved",
   "theorems": [
    "Ries.C144_single",
    "Ries.C144_layers",
    "Ries.C144_shadow",
    "Ries.C144_notebook"
   ],
   "note": "for cross sections that return nonnegative numbers in the range of energies, among them Voigt profiles with the shipped table of tin; numerical quadrature is modelled by the exact integral"
  },
  {
   "property": "C145",
   "status": "proved",
   "theorems": [
    "Ries.C145_half_life",
    "Ries.C145_areal_density"
   ],
   "note": ""
  },
  {
   "property": "C146",
   "status": "partial",
   "theorems": [
    "Ries.C146_refuted",
    "Ries.C146_partial"
   ],
   "note": "False of the code: 14 entries of the table, for example hydrogen, are None, which raises TypeError. Proved for exactly the other entries."
  },
  {
   "property": "C147",
   "status": "partial",
   "theorems": [
    "Ries.C147_refuted",
    "Ries.C147_partial"
   ],
   "note": "False of the code: natural_element_densities does not exist in any module with data. The other four dictionaries can be imported."
  },
  {
   "property": "C148",
   "status": "partial",
   "theorems": [
    "Ries.C148_refuted",
    "Ries.C148_partial"
   ],
   "note": "Refuted: on a descending partition the first number is an upper bound and subtracting the second gives a lower one; the documented bounds hold for continuous functions exactly if the two sums coincide."
  },
  {
   "property": "C149",
   "status": "partial",
   "theorems": [
    "Ries.C149_refuted",
    "Ries.C149_iff"
   ],
   "note": "Refuted: a constant cross section evaluates to one number, which darboux rejects with a TypeError. Exact condition: the expression contains something else than constants."
  },
  {
   "property": "C150",
   "status": "partial",
   "theorems": [
    "Ries.C150_refuted",
    "Ries.C150_partial"
   ],
   "note": "Refuted: the grid of every nonresonant cross section is equidistant in energy; for Compton scattering the shares strictly decrease. Constants have equal shares; bounds for decreasing cross sections."
  },
  {
   "property": "C151",
   "status": "partial",
   "theorems": [
    "Ries.C151_value",
    "Ries.C151_limits_grid",
    "Ries.C151_coverage_grid",
    "Ries.C151_refuted",
    "Ries.C151_partial"
   ],
   "note": "Values, integrals and both kinds of grid are proved for every continuous distribution. Refuted for coverage intervals: cdf(0.0) is called without the parameters, which raises a TypeError for distributions with shape parameters once the lower limit is negative."
  },
  {
   "property": "C152",
   "status": "partial",
   "theorems": [
    "Ries.Heap.C152_refuted",
    "Ries.Heap.C152_exact",
    "Ries.Heap.C152_partial"
   ],
   "note": "Refuted: the lists are kept by reference. Exact: the sum always reads the current contents of the two lists. An empty list of reactions is replaced by a new one."
  },
  {
   "property": "C153",
   "status": "partial",
   "theorems": [
    "Ries.C153_refuted",
    "Ries.C153_partial",
    "Ries.coverageIntervalR_exact"
   ],
   "note": "Refuted: for 1 - 2^-53 the sum 1.0 + coverage rounds to 2 and the upper limit is infinite. Proved with error bounds up to a coverage of 1 - 6 u."
  },
  {
   "property": "C154",
   "status": "proved",
   "theorems": [
    "Ries.C154_size",
    "Ries.C154_same",
    "Ries.C154_nonresonant"
   ],
   "note": ""
  },
  {
   "property": "C155",
   "status": "proved",
   "theorems": [
    "Ries.C155_breit_wigner",
    "Ries.C155_gauss",
    "Ries.C155_recoil",
    "Ries.C155_doppler",
    "Ries.C155_klein_nishina",
    "Ries.C155_pseudo_voigt",
    "Ries.C155_voigt",
    "Ries.C155_compton_angle",
    "Ries.C155_compton_polarized",
    "Ries.C155_compton_energy",
    "Ries.exRange_accurate",
    "Ries.exRange_not_accurate",
    "Ries.exRangeKN_accurate",
    "Ries.exRangePV_accurate",
    "Ries.exRangeT_accurate",
    "Ries.exRangeT_angles"
   ],
   "note": "Gauss up to 14 Doppler widths from the resonance, Klein-Nishina between 2^-19 and 2^59 masses. An arithmetic with gradual underflow and arbitrary results after overflow meets the hypotheses (exRange_accurate), but not those of C94 (exRange_not_accurate). Pseudo-Voigt where the normal component is at least e^-200 of its maximum, widths between 2^-80 and 2^80 MeV. The error for polarized photons is small only compared with the cross section perpendicular to the polarization (C198). Per energy of the scattered photon, computed angles are assumed not to be very close to pi or pi/2, as in double precision (exRangeT_angles). Voigt with a routine for the profile that is accurate for arguments that are zero or between 2^-200 and 2^200; the intermediate results inside of this compiled routine are not modelled."
  },
  {
   "property": "C156",
   "status": "partial",
   "theorems": [
    "Ries.C156_refuted",
    "Ries.C156_partial",
    "Ries.C156_limits_partial"
   ],
   "note": "False at zero temperature: the points are quantiles of a Lorentz curve of half the width, so that the grid carries at most the fraction 2/pi*arctan(tan(pi c/2)/2) < c, for every c and n. Proved for natural widths that are small compared with the Doppler width: deviation at most 2.1 (coverage) or 4.2 (limits) times the ratio of the widths. Missing: the bound for natural widths of the order of the Doppler width."
  },
  {
   "property": "C157",
   "status": "proved",
   "theorems": [
    "Ries.C157_gauss",
    "Ries.C157_voigt",
    "Ries.C157_pseudoVoigt",
    "Ries.C157_maximum"
   ],
   "note": "Intervals of pseudo-Voigt resonances are not claimed: the approximation of the width and the mixing parameter is not monotone far in the tails."
  },
  {
   "property": "C158",
   "status": "partial",
   "theorems": [
    "Ries.C158_refuted",
    "Ries.C158_breitWigner",
    "Ries.C158_gauss",
    "Ries.C158_voigt",
    "Ries.C158_partial"
   ],
   "note": "False of the code for pseudo-Voigt: the full width at half maximum is smaller than the width of the formula for every positive width of the level, and half of the width of the level at temperature zero, since the Cauchy component has half the documented width. Proved for the other shapes, and for pseudo-Voigt up to twice the width of the level."
  },
  {
   "property": "C159",
   "status": "partial",
   "theorems": [
    "Ries.C159_partial",
    "Ries.C159_refuted",
    "Ries.C159_mismatch",
    "Ries.C159_order_refuted"
   ],
   "note": "Holds for arrays on the right, for expressions of any depth and arrays of one length (C159_partial). False for arrays on the left: the product is an object array that cannot be evaluated (C159_refuted). False for the order of summands when an array has one entry: the sum is accumulated in place (C159_order_refuted). Other lengths raise ValueError (C159_mismatch)."
  },
  {
   "property": "C160",
   "status": "proved",
   "theorems": [
    "Ries.C160_broadcast",
    "Ries.C160_classes",
    "Ries.C160_compton",
    "Ries.C160_sum"
   ],
   "note": ""
  },
  {
   "property": "C161",
   "status": "proved",
   "theorems": [
    "Ries.C161_flux",
    "Ries.C161_table",
    "Ries.C161_mismatch"
   ],
   "note": ""
  },
  {
   "property": "C162",
   "status": "proved",
   "theorems": [
    "Ries.C162_balance",
    "Ries.C162_self_absorption",
    "Ries.C162_shape"
   ],
   "note": ""
  },
  {
   "property": "C163",
   "status": "proved",
   "theorems": [
    "Ries.Heap.C163_programs",
    "Ries.Heap.C163_alias",
    "Ries.Heap.C163_accumulate",
    "Ries.Heap.C163_difference"
   ],
   "note": "Products of two cross sections are outside of the claim (C09); C163_alias covers them too."
  },
  {
   "property": "C164",
   "status": "proved",
   "theorems": [
    "Ries.C164_pieces",
    "Ries.C164_sum",
    "Ries.C164_add_number",
    "Ries.C164_scale",
    "Ries.C164_monotone"
   ],
   "note": "induction over the partition; minimum of a sum is at least the sum of the minima"
  },
  {
   "property": "C165",
   "status": "partial",
   "theorems": [
    "Ries.C165_refuted",
    "Ries.C165_partial",
    "Ries.C165_grids_partial",
    "Ries.C165_compton"
   ],
   "note": "False of the base class, whose default distribution is a box of fixed width (1 MeV). Proved for Breit-Wigner, Gauss, pseudo-Voigt and Voigt resonances, including the exceptions."
  },
  {
   "property": "C166",
   "status": "proved",
   "theorems": [
    "Ries.C166_decreasing",
    "Ries.C166_jump",
    "Ries.C166_shipped",
    "Ries.C166_beyond_refuted"
   ],
   "note": "C166_decreasing and C166_jump hold for any sorted table; C166_shipped is about the dictionary xrmac_cm2_per_g after the import with the shipped files (rows compared by kernel evaluation). C166_beyond_refuted shows that the upper limit of 4 MeV is needed: lead absorbs 20 MeV photons more strongly than 4 MeV photons. Exact real arithmetic."
  },
  {
   "property": "C167",
   "status": "proved",
   "theorems": [
    "Ries.C167_azimuth",
    "Ries.C167_forward",
    "Ries.C167_energy",
    "Ries.C167_growth"
   ],
   "note": "Exact real arithmetic. The sum over two perpendicular directions is the returned unpolarized cross section divided by pi (the factor of C45). The kinematics use the fixed electron mass (C46), the scale factor the mass of the object."
  },
  {
   "property": "C168",
   "status": "partial",
   "theorems": [
    "Ries.C168_refuted",
    "Ries.C168_accepted_iff",
    "Ries.C168_partial",
    "Ries.C168_axes_rejected",
    "Ries.C168_axes_accepted_iff",
    "Ries.C168_axes_refuted"
   ],
   "note": "Refuted: a partition given as a column (n, 1) is accepted together with any non-empty row of values and gives the sum of all minima times the length of the range, for a constant as many times the integral as there are intervals between the values. C168_accepted_iff lists all matrices accepted with a vector of values. Holds: functions on matrices and matrices of values are rejected, except for a column with two entries, which is treated like a vector. C168_axes_*: the same for any number of axes (only the last one has to fit; shape (2, 1, ..., 1) is the only accepted shape of values with more than one axis)."
  },
  {
   "property": "C169",
   "status": "partial",
   "theorems": [
    "Ries.C169_refuted",
    "Ries.C169_voigt",
    "Ries.C169_gauss"
   ],
   "note": "Refuted for pseudo-Voigt: the ratio to the Breit-Wigner and to the Voigt cross section tends to a number between 1/2 and 0.69 at every temperature (1/2 at temperature zero), since the Cauchy component has half the documented width. Proved for Voigt with explicit bounds: at most the fraction 3 Delta^2/Gamma^2 more and 2 Delta^2/(4 (E-E_r)^2+Gamma^2) less than Breit-Wigner at any energy, and a deviation that falls like 1/(E-E_r)^2."
  },
  {
   "property": "C170",
   "status": "partial",
   "theorems": [
    "Ries.C170_refuted",
    "Ries.C170_partial",
    "Ries.C170_equidistant"
   ],
   "note": "Refuted: a partition that contains an energy below the Compton edge (for example 0) or above the energy of the photon gives nan for both sums. Proved for partitions that start at the Compton edge, and for the angles. Exact arithmetic; the computed Compton edge itself may give nan (C114)."
  },
  {
   "property": "C171",
   "status": "proved",
   "theorems": [
    "Ries.C171_constructed",
    "Ries.C171_rejected",
    "Ries.C171_one_order",
    "Ries.C171_ordering_needed"
   ],
   "note": "The hypothesis is the documented meaning of partial_widths; C171_ordering_needed shows a resonance at a negative energy with positive cross sections when a dictionary names a higher-lying state. The positive resonance energy is for the classes without recoil correction."
  },
  {
   "property": "C172",
   "status": "proved",
   "theorems": [
    "Ries.C172_thin",
    "Ries.C172_limit",
    "Ries.C172_breit_wigner",
    "Ries.C172_gauss"
   ],
   "note": "Integrals are exact, as in C105."
  },
  {
   "property": "C173",
   "status": "partial",
   "theorems": [
    "Ries.C173_exact",
    "Ries.C173_once",
    "Ries.C173_refuted",
    "Ries.C173_partial",
    "Ries.C173_different_numbers"
   ],
   "note": "Refuted with the usual treatment of repeated warnings: a text is printed once per program, and as the number in the text is always 50 for Breit-Wigner and Gauss resonances (C18) all their warnings have the same text; at most one of them is ever printed, whatever the resonances (C173_once), and for any two of them a second unphysical interval goes unannounced (C173_refuted). Proved: exactly which warnings are printed (C173_exact), the first one is, all of them are with the action 'always' (C173_partial), and two with different numbers are (C173_different_numbers)."
  },
  {
   "property": "C174",
   "status": "partial",
   "theorems": [
    "Ries.C174_refuted",
    "Ries.C174_breit_wigner",
    "Ries.C174_voigt",
    "Ries.C174_gauss_iff",
    "Ries.C174_pseudo_voigt_cold",
    "Ries.C174_partial"
   ],
   "note": "Proved for Breit-Wigner (with the exact condition for reaching the limit) and Voigt. False for Gauss exactly if the Doppler width is below sqrt(pi)/2 times partial width times branching ratio (C174_gauss_iff; at room temperature for a 10 eV state, C174_refuted), as the shape ignores the natural width; false for pseudo-Voigt, which reaches twice the limit without thermal motion because of the halved width of its Cauchy component (C32), and never more than that (C174_partial)."
  },
  {
   "property": "C175",
   "status": "proved",
   "theorems": [
    "Ries.C175_integrated",
    "Ries.C175_reverse_exists",
    "Ries.C175_breit_wigner",
    "Ries.C175_gauss"
   ],
   "note": "For Gauss the lines have widths proportional to the photon energies, therefore the comparison is at equal ratios of energy and resonance energy."
  },
  {
   "property": "C176",
   "status": "partial",
   "theorems": [
    "Ries.C176_refuted",
    "Ries.C176_partial",
    "Ries.C176_hydrogen"
   ],
   "note": "C176_refuted: the attenuation of an aluminium atom is zero at all energies (mass of elements with one isotope is read as zero, C58). C176_partial: the 62 elements with a nonzero mass: at every tabulated energy and outside of the table at least 0.9999 of Klein-Nishina, in between at least 0.8999 of it. C176_hydrogen: agreement within 0.3 % at the tabulated energies between 20 keV and 2 MeV. Missing: the 30 elements for which it is false; 0.01 % between the tabulated energies."
  },
  {
   "property": "C177",
   "status": "partial",
   "theorems": [
    "Ries.C177_refuted",
    "Ries.C177_partial",
    "Ries.C177_at_zero",
    "Ries.C177_zero_value",
    "Ries.C177_positive_energies"
   ],
   "note": "False if the value at zero energy is zero: the result is nan at every energy between zero and the next one (C177_zero_value; concrete table in C177_refuted). Proved for positive values: the row counts at zero only, at every positive energy the result is that of the table without it (C177_partial), hence the next tabulated value below the first positive energy. C177_positive_energies: the formulas of numpy in IEEE arithmetic agree with the interpolation used in the other properties for all tables of positive energies."
  },
  {
   "property": "C178",
   "status": "partial",
   "theorems": [
    "Ries.C178_refuted",
    "Ries.C178_refuted_finite",
    "Ries.C178_partial",
    "Ries.C178_negative",
    "Ries.C178_pseudoVoigt_wide",
    "Ries.C178_pseudoVoigt_narrow"
   ],
   "note": "False: nothing is raised. Coverages beyond 1 (or below -1): the box, Breit-Wigner and Gauss resonances return two nan without a warning, and an equidistant grid consists of nan (C178_partial, all parameters; C178_refuted for 95). Pseudo-Voigt and Voigt resonances return nan if (|c| - 1) times the width is at least 3.8e-8 MeV (C178_pseudoVoigt_wide), but finite limits if |c| times the width is at most 2.7e-8 MeV (C178_pseudoVoigt_narrow; C178_refuted_finite: coverage 1.3, width 20 meV). Negative coverages between -1 and 0: the limits are exchanged (C178_negative, Breit-Wigner and Gauss). Not covered: pseudo-Voigt widths in between and negative coverages there."
  },
  {
   "property": "C179",
   "status": "partial",
   "theorems": [
    "Ries.C179_partial",
    "Ries.C179_single_isotope",
    "Ries.C179_refuted"
   ],
   "note": "Refuted for the 22 elements with a single isotope of abundance 1 (aluminium, gold, ...): their abundances add up to zero and their mass is zero, although the mass of the isotope in the file agrees with the listed weight. Proved for the other 62 elements with a tabulated composition; the remaining 34 have no listed weight."
  },
  {
   "property": "C180",
   "status": "proved",
   "theorems": [
    "Ries.C180_accuracy",
    "Ries.C180_bounds"
   ],
   "note": "Relative error at most 3 eps + 40 u + 50 u T/T_D, where eps is the relative error of the quadrature (assumed to be a sum with nonnegative weights over nodes that are at least 100 u). No overflow or underflow."
  },
  {
   "property": "C181",
   "status": "proved",
   "theorems": [
    "Ries.C181_energy",
    "Ries.C181_gauss_energy",
    "Ries.C181_width",
    "Ries.C181_voigt",
    "Ries.C181_voigt_wings",
    "Ries.C181_gauss",
    "Ries.KN.C181_compton"
   ],
   "note": "Exact arithmetic. C181_gauss_energy shows that the bound for a shift of the energy fails for Gauss resonances in the wings, C181_gauss that there is no upper bound in the wings when the temperature changes."
  },
  {
   "property": "C182",
   "status": "partial",
   "theorems": [
    "Ries.C182_refuted",
    "Ries.C182_refuted_width",
    "Ries.C182_partial",
    "Ries.C182_gauss"
   ],
   "note": "False of the code: nothing is checked, only the ratio of temperature and mass enters, so a negative mass with a negative temperature gives the cross section of their absolute values, and a Gauss resonance of a level with a negative width is negative. Proved: a vanishing mass raises, one negative sign of two gives nan for all Doppler-broadened shapes, a width that is not positive gives nan for Breit-Wigner; exact condition for Gauss. Voigt profiles with negative widths are not modelled."
  },
  {
   "property": "C183",
   "status": "partial",
   "theorems": [
    "Ries.C183_partial",
    "Ries.C183_refuted",
    "Ries.C183_refuted_steep",
    "Ries.C183_power",
    "Ries.C183_fall",
    "Ries.C183_rise"
   ],
   "note": "Refuted by two shipped tables: the coefficient of thulium rises from 12.00 at the K edge (0.0593896 MeV) to 14.09 at 0.06 MeV, and the one of chromium falls from 597.7 to 516.0 between its K edge (0.0059892 MeV) and 0.006 MeV, faster than the power -81 of the energy. Proved for all other elements (in molybdenum the power is 5 instead of 16/5, since the energies of two rows differ only in the last digits), including decrease for chromium and the limited fall for thulium. The general theorems say that log-log interpolation commutes with power laws."
  },
  {
   "property": "C184",
   "status": "partial",
   "theorems": [
    "Ries.C184_partial",
    "Ries.C184_refuted",
    "Ries.C184_tables"
   ],
   "note": "Refuted: the attenuation of an aluminium atom (13) is zero at all energies, the one of a magnesium atom (12) is not, because masses of elements with a single natural isotope are read as zero (C58). Proved for all pairs among the 62 elements with a nonzero mass."
  },
  {
   "property": "C185",
   "status": "proved",
   "theorems": [
    "Ries.C185_limits",
    "Ries.C185_coverage",
    "Ries.C185_exact",
    "Ries.C185_sum"
   ],
   "note": "combination of the resonance grids (C11, C12), the closed-form integral (C19) and the partitioned quadrature (C67, C69) with any number of further coordinates"
  },
  {
   "property": "C186",
   "status": "proved",
   "theorems": [
    "Ries.C186_breit_wigner",
    "Ries.C186_gauss",
    "Ries.C186_voigt",
    "Ries.C186_pseudo_voigt",
    "Ries.C186_quadrature"
   ],
   "note": "bounds of the tails for all four shapes; the example of tests/test_integration.py is an instance (Validation.lean)"
  },
  {
   "property": "C187",
   "status": "proved",
   "theorems": [
    "Ries.C187_array",
    "Ries.C187_number",
    "Ries.C187_every_array",
    "Ries.C187_every_number"
   ],
   "note": "Model/RoundedNewton; the fallback is a parameter. Example: double precision, correctly rounded functions, 2.5 MeV, quantiles 0.01, 0.5, 0.99."
  },
  {
   "property": "C188",
   "status": "proved",
   "theorems": [
    "Ries.C188_coverage_interval",
    "Ries.C188_coverage_grid",
    "Ries.C188_limits_grid",
    "Ries.C188_increasing",
    "Ries.C188_increasing_coverage"
   ],
   "note": "Model/RoundedPVGrid: the same code as in C113 (probGridF_rounded, coverageIntervalF_rounded) with the rounded search of C187. Example: double precision, correctly rounded functions, a level at 2 MeV, coverage 0.95."
  },
  {
   "property": "C189",
   "status": "proved",
   "theorems": [
    "Ries.C189_breit_wigner",
    "Ries.C189_gauss",
    "Ries.C189_pseudo_voigt"
   ],
   "note": "End-to-end bound of both computed Darboux sums on the computed grid: |L - I| <= G + gamma (I + G), with G the error of m + 1 intervals (including the misplaced grid points) and gamma the relative error of values and summation. Breit-Wigner and Gauss shapes; scipy's distribution functions are assumed to be rounded correctly, as in C113. Pseudo-Voigt shape: distribution with the errors of C187 and C188, exact energy-integrated cross section."
  },
  {
   "property": "C190",
   "status": "proved",
   "theorems": [
    "Ries.C190_sum",
    "Ries.C190_integral",
    "Ries.C190_points",
    "Ries.C190_constant",
    "Ries.C190_nonresonant",
    "Ries.C190_compton",
    "Ries.C190_breit_wigner",
    "Ries.C190_gauss",
    "Ries.C190_pseudo_voigt"
   ],
   "note": "C190_sum is the closure of the specification `Resolves` under weighted sums (hence under nesting), C190_integral the error of both Darboux sums, C190_points the size of the common grid; the remaining theorems provide the constituents."
  },
  {
   "property": "C191",
   "status": "proved",
   "theorems": [
    "Ries.C191_coverage_interval",
    "Ries.C191_limits_grid",
    "Ries.C191_resolves",
    "Ries.C191_integral"
   ],
   "note": "the computed distribution function, densities and the fallback are arbitrary functions with bounded errors; quantiles are those at which the search of C187/C188 converges; C202_density bounds the error of the computed densities"
  },
  {
   "property": "C192",
   "status": "proved",
   "theorems": [
    "Ries.C192_table",
    "Ries.C192_shipped",
    "Ries.C192_above",
    "Ries.C192_resolves"
   ],
   "note": "computed logarithm and power are arbitrary functions with relative errors of at most 1e-15 (the logarithm monotone); no overflow or underflow; conversion of units by a factor is not part of the rounded model"
  },
  {
   "property": "C193",
   "status": "proved",
   "theorems": [
    "Ries.C193_flux",
    "Ries.C193_rate",
    "Ries.C193_beam",
    "Ries.C193_layers"
   ],
   "note": "Floating point with underflow as a monotone rounding with relative error u plus absolute error omega; overflow excluded. In the layers, the depth has to lie behind both the exact and the computed boundary."
  },
  {
   "property": "C194",
   "status": "proved",
   "theorems": [
    "Ries.C194_quadrature",
    "Ries.C194_sharp",
    "Ries.C194_thin",
    "Ries.C194_li6"
   ],
   "note": "scipy's quad is represented by its documented tolerances, for integrands evaluated with bounded errors; what its rule of 21 points does for a given integrand is not modelled. The absolute tolerance of quad, 1.49e-8 MeV, is part of the bound."
  },
  {
   "property": "C195",
   "status": "proved",
   "theorems": [
    "Ries.C195_transmission",
    "Ries.C195_voigt",
    "Ries.C195_gauss"
   ],
   "note": "Levels with (4N+34)u <= 4.9e-12 for N decay channels (thousands in double precision); no underflow in the cross sections themselves; tables without conversion of units. C195_voigt: the same for Voigt resonances, with an accurate routine for the Voigt profile as a parameter and the bound of C202 on the roundings. C195_gauss: the same for Gauss resonances with the bound of C95, met within 30 Doppler widths."
  },
  {
   "property": "C196",
   "status": "partial",
   "theorems": [
    "Ries.C196_refuted",
    "Ries.C196_partial",
    "Ries.C196_thick"
   ],
   "note": "False of the code: for every diameter, enrichment and effective temperature there are a target mass and three widths of which the middle one has the largest R (thick targets: the coverage interval grows faster than the cross section at its ends, so that R falls). Proved for all targets and coverages: every width has a smaller one below which all R are smaller. For thick targets of any resonances, the larger minimum of the cross section between the limits decides."
  },
  {
   "property": "C197",
   "status": "partial",
   "theorems": [
    "Ries.C197_refuted",
    "Ries.C197_thick",
    "Ries.C197_partial"
   ],
   "note": "False of the code: for a thin absorber, and for a thick one, the notebook finds the start value (or 5 % more) for every width of the level and prints no warning. Proved for every run: samples without a warning are as close to the width of the level as the sum of the tolerance, the error of the computed self absorption and the error of the measured value, divided by the slope of the self absorption."
  },
  {
   "property": "C198",
   "status": "partial",
   "theorems": [
    "Ries.C198_refuted",
    "Ries.C198_angle",
    "Ries.C198_energy",
    "Ries.C198_polarized_partial",
    "Ries.C198_polarized_energy_partial"
   ],
   "note": "True of unpolarized photons, with an error that grows with E/me, also with overflow and underflow by C155 (and with me/E for the energy-differential cross section, which may also be nan at its ends, see C114). False of polarized photons: along the polarization, perpendicular to the beam, the computed value of a photon of low energy is zero. The error is always small compared with the cross section perpendicular to the polarization."
  },
  {
   "property": "C199",
   "status": "partial",
   "theorems": [
    "Ries.C199_refuted",
    "Ries.C199_partial"
   ],
   "note": "True of energies, up to 38 roundings times (E/me + 1 + me/E), unless the angle is nan (C114). False of angles: at every energy, all angles below 2^-28 come back as zero."
  },
  {
   "property": "C200",
   "status": "partial",
   "theorems": [
    "Ries.C200_refuted",
    "Ries.C200_angle_partial",
    "Ries.C200_energy_partial",
    "Ries.C200_polarized_partial",
    "Ries.C200_polarized_energy_partial"
   ],
   "note": "True between a hundredth and a thousand electron masses, for quadratures with an error of 1e-7. False of photons of about 2 eV: the integrals are positive and the computed total cross section is negative (C84). The choice of the nodes by QUADPACK is not modelled; all rules with nonnegative weights are covered, with a rounded summation."
  },
  {
   "property": "C201",
   "status": "proved",
   "theorems": [
    "Ries.C201_breitWigner",
    "Ries.C201_gauss",
    "Ries.C201_missed",
    "Ries.C201_missed_voigt",
    "Ries.C201_without_grid"
   ],
   "note": "Integrators are parameters: covariance under shifts, stretching and factors for the positive statements (rules with fixed relative nodes have it), a first step with any finite set of nodes for the negative ones. The absolute tolerance and the underflow checks of QUADPACK are not covariant; C185 covers integrators that are accurate to their reported error. For limits instead of a coverage see C185 and C189, for pseudo-Voigt resonances C189."
  },
  {
   "property": "C202",
   "status": "proved",
   "theorems": [
    "Ries.C202_voigt",
    "Ries.C202_voigt_everywhere",
    "Ries.C202_density"
   ],
   "note": "scipy.special.voigt_profile is compiled code and a parameter with an assumed relative error. For overflow and underflow see C155. C202_density is the hypothesis of C191 on computed densities. The energy difference of the levels is assumed to be exact, as in C94; otherwise see C203."
  },
  {
   "property": "C203",
   "status": "proved",
   "theorems": [
    "Ries.C203_breit_wigner",
    "Ries.C203_voigt",
    "Ries.C203_voigt_everywhere",
    "Ries.C203_gauss",
    "Ries.C203_narrow"
   ],
   "note": "scipy.special.voigt_profile is a parameter with an assumed relative error. Overflow and underflow are not modelled."
  },
  {
   "property": "C204",
   "status": "proved",
   "theorems": [
    "Ries.C204_breit_wigner",
    "Ries.C204_voigt",
    "Ries.C204_voigt_everywhere",
    "Ries.C204_gauss",
    "Ries.C204_narrow"
   ],
   "note": "scipy.special.voigt_profile is a parameter with an assumed relative error. Overflow and underflow are not modelled."
  }
 ]
}
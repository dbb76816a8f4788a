Ries.C01_sum_evaluates_to_sum: propext, Classical.choice, Quot.sound
Ries.C01_resonances: propext, Classical.choice, Quot.sound
Ries.C01_resonance_sum: propext, Classical.choice, Quot.sound
Ries.C02_scaling: propext, Classical.choice, Quot.sound
Ries.C03_expression_compositional: propext, Classical.choice, Quot.sound
Ries.C03_laws: propext, Classical.choice, Quot.sound
Ries.Heap.C04_frame: propext, Classical.choice, Quot.sound
Ries.Heap.C04_value: propext, Classical.choice, Quot.sound
Ries.Heap.C04_add_value: propext, Classical.choice, Quot.sound
Ries.Heap.C04_mul_value: propext, Classical.choice, Quot.sound
Ries.Heap.C05_refuted: propext, Classical.choice, Quot.sound
Ries.Heap.C05_partial: propext, Classical.choice, Quot.sound
Ries.Heap.C05_product: propext, Classical.choice, Quot.sound
Ries.Heap.C05_nested: propext, Classical.choice, Quot.sound
Ries.C06_array_pointwise_partial: propext, Classical.choice, Quot.sound
Ries.C06_array_shape_refuted: propext, Classical.choice, Quot.sound
Ries.C06_array_shape_iff: propext, Classical.choice, Quot.sound
Ries.C07_explicit_lists: propext, Classical.choice, Quot.sound
Ries.C08_default_constructor_refuted: propext, Classical.choice, Quot.sound
Ries.C08_default_constructor_partial: propext, Classical.choice, Quot.sound
Ries.C09_call_returns_number_refuted: propext, Classical.choice, Quot.sound
Ries.C09_call_returns_number_partial: propext, Classical.choice, Quot.sound
Ries.C09_number_iff: propext, Classical.choice, Quot.sound
Ries.C10_energy_grid: propext, Classical.choice, Quot.sound
Ries.C10_energy_grid_small: propext, Classical.choice, Quot.sound
Ries.C11_limits_grid: propext, Classical.choice, Quot.sound
Ries.C11_ends_exact: propext, Classical.choice, Quot.sound
Ries.C127_any_distribution: propext, Classical.choice, Quot.sound
Ries.C11_pseudoVoigt_lengthPreserving: propext, Classical.choice, Quot.sound
Ries.C12_coverage_grid: propext, Classical.choice, Quot.sound
Ries.C13_refuted: propext, Classical.choice, Quot.sound
Ries.C13_partial: propext, Classical.choice, Quot.sound
Ries.C13_box_iff: propext, Classical.choice, Quot.sound
Ries.C13_pseudoVoigt_refuted: propext, Classical.choice, Quot.sound
Ries.C13_pseudoVoigt_not_ordered: propext, Classical.choice, Quot.sound
Ries.C13_pseudoVoigt_partial: propext, Classical.choice, Quot.sound
Ries.C14_sum_grid: propext, Classical.choice, Quot.sound
Ries.C14_sum_grid_limits: propext, Classical.choice, Quot.sound
Ries.C15_refuted: propext, Classical.choice, Quot.sound
Ries.C15_typeError: propext, Classical.choice, Quot.sound
Ries.C15_partial: propext, Classical.choice, Quot.sound
Ries.C15_all_shapes_partial: propext, Classical.choice, Quot.sound
Ries.C15_accepted_iff: propext, Classical.choice, Quot.sound
Ries.C16_coverage_interval: propext, Classical.choice, Quot.sound
Ries.C16_coverage_grows: propext, Classical.choice, Quot.sound
Ries.C16_coverage_zero: propext, Classical.choice, Quot.sound
Ries.C16_coverage_one: propext, Classical.choice, Quot.sound
Ries.C17_refuted: propext, Classical.choice, Quot.sound
Ries.C17_partial: propext, Classical.choice, Quot.sound
Ries.C17_negative_iff: propext, Classical.choice, Quot.sound
Ries.C17_pseudo_voigt: propext, Classical.choice, Quot.sound
Ries.C18_refuted: propext, Classical.choice, Quot.sound
Ries.C18_warning_occurs: propext, Classical.choice, Quot.sound
Ries.C18_partial: propext, Classical.choice, Quot.sound
Ries.C19_box: propext, Classical.choice, Quot.sound
Ries.C19_analytic: propext, Classical.choice, Quot.sound
Ries.C19_pseudoVoigt: propext, Classical.choice, Quot.sound
Ries.C19_voigt: propext, Classical.choice, Quot.sound
Ries.C20_refuted: propext, Classical.choice, Quot.sound
Ries.C20_partial: propext, Classical.choice, Quot.sound
Ries.C20_half_partial: propext, Classical.choice, Quot.sound
Ries.C20_gauss_partial: propext, Classical.choice, Quot.sound
Ries.C20_pseudo_voigt_partial: propext, Classical.choice, Quot.sound
Ries.C20_voigt_partial: propext, Classical.choice, Quot.sound
Ries.C21_channel: propext, Classical.choice, Quot.sound
Ries.C21_channels_sum: propext, Classical.choice, Quot.sound
Ries.C22_width_sum: propext, Classical.choice, Quot.sound
Ries.C22_width_perm: propext, Classical.choice, Quot.sound
Ries.C22_width_ge: propext, Classical.choice, Quot.sound
Ries.C22_ground: propext, Classical.choice, Quot.sound
Ries.C23_formula: propext, Classical.choice, Quot.sound
Ries.C23_pos: propext, Classical.choice, Quot.sound
Ries.C23_scaling: propext, Classical.choice, Quot.sound
Ries.C24_construction: propext, Classical.choice, Quot.sound
Ries.C25_closed_form: propext, Classical.choice, Quot.sound
Ries.C26_symmetric_peak: propext, Classical.choice, Quot.sound
Ries.C26_half_maximum: propext, Classical.choice, Quot.sound
Ries.C26_relative_mode: propext, Classical.choice, Quot.sound
Ries.C27_recoil: propext, Classical.choice, Quot.sound
Ries.C28_refuted: propext, Classical.choice, Quot.sound
Ries.C28_partial: propext, Classical.choice, Quot.sound
Ries.C29_temperature_roundtrip: propext, Classical.choice, Quot.sound
Ries.C29_width_roundtrip: propext, Classical.choice, Quot.sound
Ries.C30_scaling: propext, Classical.choice, Quot.sound
Ries.C30_monotone: propext, Classical.choice, Quot.sound
Ries.C31_convex: propext, Classical.choice, Quot.sound
Ries.C31_degenerate: propext, Classical.choice, Quot.sound
Ries.C32_refuted: propext, Classical.choice, Quot.sound
Ries.C32_partial: propext, Classical.choice, Quot.sound
Ries.C33_scalar: propext, Classical.choice, Quot.sound
Ries.C33_fallback: propext, Classical.choice, Quot.sound
Ries.C33_median: propext, Classical.choice, Quot.sound
Ries.C33_array: propext, Classical.choice, Quot.sound
Ries.C34_refuted: propext, Classical.choice, Quot.sound
Ries.C34_grid_none: propext, Classical.choice, Quot.sound
Ries.C34_partial: propext, Classical.choice, Quot.sound
Ries.C34_coverage_interval: propext, Classical.choice, Quot.sound
Ries.C34_median_no_fallback: propext, Classical.choice, Quot.sound
Ries.C34_sum_none: propext, Classical.choice, Quot.sound
Ries.C35_convolution: propext, Classical.choice, Quot.sound
Ries.C35_zero_temperature: propext, Classical.choice, Quot.sound
Ries.C35_zero_width: propext, Classical.choice, Quot.sound
Ries.C36_bounds: propext, Classical.choice, Quot.sound
Ries.C37_monotone: propext, Classical.choice, Quot.sound
Ries.C37_homogeneous: propext, Classical.choice, Quot.sound
Ries.C38_limits: propext, Classical.choice, Quot.sound
Ries.C38_classical_bound: propext, Classical.choice, Quot.sound
Ries.C39_refuted: propext, Quot.sound
Ries.C39_partial: propext
Ries.C40_compton_kinematics: propext, Classical.choice, Quot.sound
Ries.C41_theta_energy_inverse: propext, Classical.choice, Quot.sound
Ries.C42_angular_integral: propext, Classical.choice, Quot.sound
Ries.C43_energy_integral: propext, Classical.choice, Quot.sound
Ries.C44_differential_nonneg: propext, Classical.choice, Quot.sound
Ries.C44_total: propext, Classical.choice, Quot.sound
Ries.C44_growth: propext, Classical.choice, Quot.sound
Ries.C45_azimuthal_average_refuted: propext, Classical.choice, Quot.sound
Ries.C45_azimuthal_average_partial: propext, Classical.choice, Quot.sound
Ries.C46_any_mass_refuted: propext, Classical.choice, Quot.sound
Ries.C46_any_mass_partial: propext, Classical.choice, Quot.sound
Ries.C47_proportional_Z: propext, Classical.choice, Quot.sound
Ries.C48_nodes: propext, Classical.choice, Quot.sound
Ries.C49_power_law: propext, Classical.choice, Quot.sound
Ries.C49_between: propext, Classical.choice, Quot.sound
Ries.C49_positive: propext, Classical.choice, Quot.sound
Ries.C50_refuted: propext, Classical.choice, Quot.sound
Ries.C50_partial: propext, Classical.choice, Quot.sound
Ries.C51_value_units: propext, Classical.choice, Quot.sound
Ries.C51_energy_units: propext, Classical.choice, Quot.sound
Ries.C51_shipped: propext, Classical.choice, Quot.sound
Ries.C52_round_trip: propext, Classical.choice, Quot.sound
Ries.C53_refuted: propext, Classical.choice, Quot.sound
Ries.C53_partial: propext, Classical.choice, Quot.sound
Ries.C53_table_partial: propext, Classical.choice, Quot.sound
Ries.C54_refuted: propext, Classical.choice, Quot.sound
Ries.C54_partial: propext, Classical.choice, Quot.sound
Ries.C55_weighted_sum: propext, Quot.sound
Ries.C55_order: propext, Quot.sound
Ries.C55_missing: propext, Quot.sound
Ries.C55_between: propext, Classical.choice, Quot.sound
Ries.C56_isotopes: propext, Classical.choice, Quot.sound
Ries.C56_partial: propext, Classical.choice, Quot.sound
Ries.C57_refuted: propext, Classical.choice, Quot.sound
Ries.C57_partial: propext, Classical.choice, Quot.sound
Ries.C58_refuted: propext, Classical.choice, Quot.sound
Ries.C58_partial: propext, Classical.choice, Quot.sound
Ries.C59_symbols: propext, Classical.choice, Quot.sound
Ries.C59_lookup: propext, Classical.choice, Quot.sound
Ries.C60_refuted: propext, Classical.choice, Quot.sound
Ries.C60_partial: propext, Classical.choice, Quot.sound
Ries.C60_none_partial: propext, Classical.choice, Quot.sound
Ries.C60_shipped_partial: propext, Classical.choice, Quot.sound
Ries.C60_correct_iff: propext, Classical.choice, Quot.sound
Ries.C61_brackets_integral: propext, Classical.choice, Quot.sound
Ries.C62_gap_formula: propext, Classical.choice, Quot.sound
Ries.C62_equidistant: propext, Classical.choice, Quot.sound
Ries.C62_constant: propext, Classical.choice, Quot.sound
Ries.C63_refinement: propext, Classical.choice, Quot.sound
Ries.C64_function_vs_values: propext, Classical.choice, Quot.sound
Ries.C65_mismatch_rejected_partial: propext, Classical.choice, Quot.sound
Ries.C65_mismatch_refuted: propext, Classical.choice, Quot.sound
Ries.C65_accepted_iff: propext, Classical.choice, Quot.sound
Ries.C65_two_values: propext, Classical.choice, Quot.sound
Ries.C66_rounded_order: propext, Classical.choice, Quot.sound
Ries.C67_exact_pieces: propext, Classical.choice, Quot.sound
Ries.C68_error_formula: propext, Classical.choice, Quot.sound
Ries.C69_error_bound_refuted: propext, Classical.choice, Quot.sound
Ries.C69_error_bound_partial: propext, Classical.choice, Quot.sound
Ries.C69_factor_sharp: propext, Classical.choice, Quot.sound
Ries.C70_ndarray_refuted: propext, Classical.choice, Quot.sound
Ries.C70_ndarray_partial: propext, Classical.choice, Quot.sound
Ries.C71_refuted: propext, Classical.choice, Quot.sound
Ries.C71_partial: propext, Classical.choice, Quot.sound
Ries.C72_import: propext, Classical.choice, Quot.sound
Ries.C72_shipped: propext, Classical.choice, Quot.sound
Ries.C73_refuted: propext, Classical.choice, Quot.sound
Ries.C73_partial: propext, Classical.choice, Quot.sound
Ries.C74_shipped: propext, Classical.choice, Quot.sound
Ries.C75_gauss: propext, Classical.choice, Quot.sound
Ries.C75_voigt: propext, Classical.choice, Quot.sound
Ries.C76_refuted: propext, Classical.choice, Quot.sound
Ries.C76_conservation_partial: propext, Classical.choice, Quot.sound
Ries.C77_refuted: propext, Classical.choice, Quot.sound
Ries.C77_energy_differential_partial: propext, Classical.choice, Quot.sound
Ries.C78_refuted: propext, Classical.choice, Quot.sound
Ries.C78_possible_energies_partial: propext, Classical.choice, Quot.sound
Ries.C79_rounding: propext, Classical.choice, Quot.sound
Ries.C79_relative: propext, Classical.choice, Quot.sound
Ries.C79_bound: propext, Classical.choice, Quot.sound
Ries.C80_array: propext, Classical.choice, Quot.sound
Ries.C80_scalar: propext, Classical.choice, Quot.sound
Ries.C81_coverage: propext, Classical.choice, Quot.sound
Ries.C81_any_coverage: propext, Classical.choice, Quot.sound
Ries.C82_coverage_grid: propext, Classical.choice, Quot.sound
Ries.C82_limits_grid: propext, Classical.choice, Quot.sound
Ries.C83_refuted: propext, Classical.choice, Quot.sound
Ries.C83_half: propext, Classical.choice, Quot.sound
Ries.C83_broad_refuted: propext, Classical.choice, Quot.sound
Ries.C83_partial: propext, Classical.choice, Quot.sound
Ries.C83_narrow_partial: propext, Classical.choice, Quot.sound
Ries.KN.C84_refuted: propext, Classical.choice, Quot.sound
Ries.KN.C84_not_accurate: propext, Classical.choice, Quot.sound
Ries.KN.C84_partial: propext, Classical.choice, Quot.sound
Ries.KN.C85_construction: propext, Classical.choice, Quot.sound
Ries.KN.C85_refuted: propext, Classical.choice, Quot.sound
Ries.KN.C85_sum: propext, Classical.choice, Quot.sound
Ries.KN.C85_sum_value: propext, Classical.choice, Quot.sound
Ries.KN.C85_partial: propext, Classical.choice, Quot.sound
Ries.C86_converges: propext, Classical.choice, Quot.sound
Ries.C86_equidistant: propext, Classical.choice, Quot.sound
Ries.C87_refuted: propext, Classical.choice, Quot.sound
Ries.C87_odd_grid: propext, Classical.choice, Quot.sound
Ries.C87_odd_grid_pseudoVoigt_partial: propext, Classical.choice, Quot.sound
Ries.C87_limits_partial: propext, Classical.choice, Quot.sound
Ries.C88_energy_grid_partial: propext, Classical.choice, Quot.sound
Ries.C88_pseudoVoigt_partial: propext, Classical.choice, Quot.sound
Ries.C88_refuted: propext, Classical.choice, Quot.sound
Ries.C89_refuted: propext, Classical.choice, Quot.sound
Ries.C89_partial: propext, Classical.choice, Quot.sound
Ries.C90_refuted: propext, Classical.choice, Quot.sound
Ries.C90_partial: propext, Classical.choice, Quot.sound
Ries.C91_refuted: propext, Classical.choice, Quot.sound
Ries.C91_partial: propext, Classical.choice, Quot.sound
Ries.C92_refuted: propext, Classical.choice, Quot.sound
Ries.C92_partial: propext, Classical.choice, Quot.sound
Ries.C92_width_at_construction: propext, Classical.choice, Quot.sound
Ries.C93_rounded_grid: propext, Classical.choice, Quot.sound
Ries.C94_breit_wigner: propext, Classical.choice, Quot.sound
Ries.C95_gauss: propext, Classical.choice, Quot.sound
Ries.C95_uniform: propext, Classical.choice, Quot.sound
Ries.C96_temperature: propext, Classical.choice, Quot.sound
Ries.C97_narrow: propext, Classical.choice, Quot.sound
Ries.C98_continuity: propext, Classical.choice, Quot.sound
Ries.C99_refuted: propext, Classical.choice, Quot.sound
Ries.C99_partial: propext, Classical.choice, Quot.sound
Ries.C99_nd_partial: propext, Classical.choice, Quot.sound
Ries.C100_expression_grid: propext, Classical.choice, Quot.sound
Ries.C100_laws: propext, Classical.choice, Quot.sound
Ries.C101_refuted: propext, Classical.choice, Quot.sound
Ries.C101_partial: propext, Classical.choice, Quot.sound
Ries.C102_flux: propext, Classical.choice, Quot.sound
Ries.C102_layers: propext, Classical.choice, Quot.sound
Ries.C102_flux_exists: propext, Classical.choice, Quot.sound
Ries.C103_balance: propext, Classical.choice, Quot.sound
Ries.C103_bounds: propext, Classical.choice, Quot.sound
Ries.C104_thin_target: propext, Classical.choice, Quot.sound
Ries.C105_self_absorption: propext, Classical.choice, Quot.sound
Ries.C105_li6: propext, Classical.choice, Quot.sound
Ries.C106_refuted: propext, Classical.choice, Quot.sound
Ries.C106_partial: propext, Classical.choice, Quot.sound
Ries.C107_width: propext, Classical.choice, Quot.sound
Ries.C108_cold_bound: propext, Classical.choice, Quot.sound
Ries.C108_hot_bound: propext, Classical.choice, Quot.sound
Ries.C108_leading_terms: propext, Classical.choice, Quot.sound
Ries.C109_low_energy: propext, Classical.choice, Quot.sound
Ries.C109_thomson_differential: propext, Classical.choice, Quot.sound
Ries.C109_high_energy: propext, Classical.choice, Quot.sound
Ries.C109_vanishes: propext, Classical.choice, Quot.sound
Ries.C110_arguments_kept: propext, Classical.choice, Quot.sound
Ries.C110_classes_keep: propext, Classical.choice, Quot.sound
Ries.C110_result_new: propext, Classical.choice, Quot.sound
Ries.C110_pointwise: propext, Classical.choice, Quot.sound
Ries.C110_classes: propext, Classical.choice, Quot.sound
Ries.C110_grid_keeps: propext, Classical.choice, Quot.sound
Ries.C110_darboux: propext, Classical.choice, Quot.sound
Ries.C111_refuted: propext, Classical.choice, Quot.sound
Ries.C111_partial: propext, Classical.choice, Quot.sound
Ries.C112_refuted: propext, Classical.choice, Quot.sound
Ries.C112_partial: propext, Classical.choice, Quot.sound
Ries.C113_refuted: propext, Classical.choice, Quot.sound
Ries.C113_above: propext, Classical.choice, Quot.sound
Ries.C113_partial: propext, Classical.choice, Quot.sound
Ries.KN.C114_refuted: propext, Classical.choice, Quot.sound
Ries.KN.C114_nan: propext, Classical.choice, Quot.sound
Ries.KN.C114_partial: propext, Classical.choice, Quot.sound
Ries.Iso.C115_refuted: propext, Quot.sound
Ries.Iso.C115_partial: propext
Ries.Iso.C115_own_list_partial: propext, Classical.choice, Quot.sound
Ries.C116_rounded_bracket: propext, Classical.choice, Quot.sound
Ries.C117_refuted: propext, Classical.choice, Quot.sound
Ries.C117_nodes_partial: propext, Classical.choice, Quot.sound
Ries.C117_partial: propext, Classical.choice, Quot.sound
Ries.C117_below: propext, Classical.choice, Quot.sound
Ries.C117_above: propext, Classical.choice, Quot.sound
Ries.C117_shipped_nodes: propext, Classical.choice, Quot.sound
Ries.C117_shipped_between_partial: propext, Classical.choice, Quot.sound
Ries.C118_angles: propext, Classical.choice, Quot.sound
Ries.C118_energies: propext, Classical.choice, Quot.sound
Ries.C118_lengths: propext, Classical.choice, Quot.sound
Ries.C118_list_of_energies: propext, Classical.choice, Quot.sound
Ries.C119_refuted: propext, Classical.choice, Quot.sound
Ries.C119_partial: propext, Classical.choice, Quot.sound
Ries.C120_number: propext, Classical.choice, Quot.sound
Ries.C120_array: propext, Classical.choice, Quot.sound
Ries.C120_exact: propext, Classical.choice, Quot.sound
Ries.C121_refuted: propext, Classical.choice, Quot.sound
Ries.C121_partial: propext, Classical.choice, Quot.sound
Ries.C122_refuted: propext, Classical.choice, Quot.sound
Ries.C122_partial: propext, Classical.choice, Quot.sound
Ries.C123_refuted: propext, Classical.choice, Quot.sound
Ries.C123_partial: propext, Classical.choice, Quot.sound
Ries.C124_refuted: propext, Classical.choice, Quot.sound
Ries.C124_compton_partial: propext, Classical.choice, Quot.sound
Ries.C124_states_partial: propext, Classical.choice, Quot.sound
Ries.C124_thermal_partial: propext, Classical.choice, Quot.sound
Ries.C124_resonance_partial: propext, Classical.choice, Quot.sound
Ries.C124_resonance_refresh: propext, Classical.choice, Quot.sound
Ries.C124_resonance_order: propext, Classical.choice, Quot.sound
Ries.C124_integral_partial: propext, Classical.choice, Quot.sound
Ries.C125_near: propext, Classical.choice, Quot.sound
Ries.C125_everywhere: propext, Classical.choice, Quot.sound
Ries.C126_refuted: propext, Classical.choice, Quot.sound
Ries.C126_partial: propext, Classical.choice, Quot.sound
Ries.C127_refuted: propext, Classical.choice, Quot.sound
Ries.C127_sum_refuted: propext, Classical.choice, Quot.sound
Ries.C127_partial: propext, Classical.choice, Quot.sound
Ries.C128_bounded: propext, Classical.choice, Quot.sound
Ries.C128_monotone: propext, Classical.choice, Quot.sound
Ries.Sig.C129_refuted: propext
Ries.Sig.C129_no_common_keyword: propext, Classical.choice, Quot.sound
Ries.Sig.C129_partial: propext, Quot.sound
Ries.Sig.C129_agree_partial: propext, Classical.choice, Quot.sound
Ries.C130_refuted: propext, Classical.choice, Quot.sound
Ries.C130_wrong_by_integral: propext, Classical.choice, Quot.sound
Ries.C130_partial: propext, Classical.choice, Quot.sound
Ries.C130_columns: propext, Classical.choice, Quot.sound
Ries.C131_integral: propext, Classical.choice, Quot.sound
Ries.C131_error: propext, Classical.choice, Quot.sound
Ries.C131_exact: propext, Classical.choice, Quot.sound
Ries.C131_true_error: propext, Classical.choice, Quot.sound
Ries.C132_doubling: propext, Classical.choice, Quot.sound
Ries.C132_hole: propext, Classical.choice, Quot.sound
Ries.C132_absorption_maximum: propext, Classical.choice, Quot.sound
Ries.C133_probability_grid: propext, Classical.choice, Quot.sound
Ries.C133_energy_grid: propext, Classical.choice, Quot.sound
Ries.C133_sum_grid: propext, Classical.choice, Quot.sound
Ries.C133_one_point: propext, Classical.choice, Quot.sound
Ries.C134_probability_grid: propext, Classical.choice, Quot.sound
Ries.C134_energy_grid: propext, Classical.choice, Quot.sound
Ries.C134_sum_grid: propext, Classical.choice, Quot.sound
Ries.C134_darboux: propext, Classical.choice, Quot.sound
Ries.C135_bounds: propext, Classical.choice, Quot.sound
Ries.C135_li6: propext, Classical.choice, Quot.sound
Ries.C136_cold: propext, Classical.choice, Quot.sound
Ries.C137_recoil: propext, Classical.choice, Quot.sound
Ries.C137_doppler: propext, Classical.choice, Quot.sound
Ries.C137_temperature: propext, Classical.choice, Quot.sound
Ries.C137_roundtrip: propext, Classical.choice, Quot.sound
Ries.C137_element_mass: propext, Classical.choice, Quot.sound
Ries.C138_refuted: propext, Classical.choice, Quot.sound
Ries.C138_partial: propext, Classical.choice, Quot.sound
Ries.C139_refuted: propext, Classical.choice, Quot.sound
Ries.C139_partial: propext, Classical.choice, Quot.sound
Ries.C139_stops: propext, Classical.choice, Quot.sound
Ries.C139_midpoint: propext, Classical.choice, Quot.sound
Ries.C139_converges_partial: propext, Classical.choice, Quot.sound
Ries.C139_width_partial: propext, Classical.choice, Quot.sound
Ries.C140_refuted: propext, Classical.choice, Quot.sound
Ries.C140_few: propext, Classical.choice, Quot.sound
Ries.C140_partial: propext, Classical.choice, Quot.sound
Ries.C141_refuted: propext, Classical.choice, Quot.sound
Ries.C141_compton_partial: propext, Classical.choice, Quot.sound
Ries.C141_compton_energy_partial: propext, Classical.choice, Quot.sound
Ries.C141_debye_partial: propext, Classical.choice, Quot.sound
Ries.C141_thermal_partial: propext, Classical.choice, Quot.sound
Ries.C141_integrated_partial: propext, Classical.choice, Quot.sound
Ries.C142_refuted: propext, Classical.choice, Quot.sound
Ries.C142_scalar: propext, Classical.choice, Quot.sound
Ries.C142_no_endpoint: propext, Classical.choice, Quot.sound
Ries.C142_partial: propext, Classical.choice, Quot.sound
Ries.C143_converges: propext, Classical.choice, Quot.sound
Ries.C143_rate: propext, Classical.choice, Quot.sound
Ries.C143_inside: propext, Classical.choice, Quot.sound
Ries.C143_pseudo_voigt: propext, Classical.choice, Quot.sound
Ries.C144_single: propext, Classical.choice, Quot.sound
Ries.C144_layers: propext, Classical.choice, Quot.sound
Ries.C144_shadow: propext, Classical.choice, Quot.sound
Ries.C144_notebook: propext, Classical.choice, Quot.sound
Ries.C145_half_life: propext, Classical.choice, Quot.sound
Ries.C145_areal_density: propext, Classical.choice, Quot.sound
Ries.C146_refuted: propext, Classical.choice, Quot.sound
Ries.C146_partial: propext, Classical.choice, Quot.sound
Ries.C147_refuted: propext, Classical.choice, Quot.sound
Ries.C147_partial: propext, Classical.choice, Quot.sound
Ries.C148_refuted: propext, Classical.choice, Quot.sound
Ries.C148_partial: propext, Classical.choice, Quot.sound
Ries.C149_refuted: propext, Classical.choice, Quot.sound
Ries.C149_iff: propext, Classical.choice, Quot.sound
Ries.C150_refuted: propext, Classical.choice, Quot.sound
Ries.C150_partial: propext, Classical.choice, Quot.sound
Ries.C151_value: propext, Classical.choice, Quot.sound
Ries.C151_limits_grid: propext, Classical.choice, Quot.sound
Ries.C151_coverage_grid: propext, Classical.choice, Quot.sound
Ries.C151_refuted: propext, Classical.choice, Quot.sound
Ries.C151_partial: propext, Classical.choice, Quot.sound
Ries.Heap.C152_refuted: propext, Classical.choice, Quot.sound
Ries.Heap.C152_exact: propext, Classical.choice, Quot.sound
Ries.Heap.C152_partial: propext, Classical.choice, Quot.sound
Ries.C153_refuted: propext, Classical.choice, Quot.sound
Ries.C153_partial: propext, Classical.choice, Quot.sound
Ries.coverageIntervalR_exact: propext, Classical.choice, Quot.sound
Ries.C154_size: propext, Classical.choice, Quot.sound
Ries.C154_same: propext, Classical.choice, Quot.sound
Ries.C154_nonresonant: propext, Classical.choice, Quot.sound
Ries.C155_breit_wigner: propext, Classical.choice, Quot.sound
Ries.C155_gauss: propext, Classical.choice, Quot.sound
Ries.C155_recoil: propext, Classical.choice, Quot.sound
Ries.C155_doppler: propext, Classical.choice, Quot.sound
Ries.C155_klein_nishina: propext, Classical.choice, Quot.sound
Ries.C155_pseudo_voigt: propext, Classical.choice, Quot.sound
Ries.C155_voigt: propext, Classical.choice, Quot.sound
Ries.C155_compton_angle: propext, Classical.choice, Quot.sound
Ries.C155_compton_polarized: propext, Classical.choice, Quot.sound
Ries.C155_compton_energy: propext, Classical.choice, Quot.sound
Ries.exRange_accurate: propext, Classical.choice, Quot.sound
Ries.exRange_not_accurate: propext, Classical.choice, Quot.sound
Ries.exRangeKN_accurate: propext, Classical.choice, Quot.sound
Ries.exRangePV_accurate: propext, Classical.choice, Quot.sound
Ries.exRangeT_accurate: propext, Classical.choice, Quot.sound
Ries.exRangeT_angles: propext, Classical.choice, Quot.sound
Ries.C156_refuted: propext, Classical.choice, Quot.sound
Ries.C156_partial: propext, Classical.choice, Quot.sound
Ries.C156_limits_partial: propext, Classical.choice, Quot.sound
Ries.C157_gauss: propext, Classical.choice, Quot.sound
Ries.C157_voigt: propext, Classical.choice, Quot.sound
Ries.C157_pseudoVoigt: propext, Classical.choice, Quot.sound
Ries.C157_maximum: propext, Classical.choice, Quot.sound
Ries.C158_refuted: propext, Classical.choice, Quot.sound
Ries.C158_breitWigner: propext, Classical.choice, Quot.sound
Ries.C158_gauss: propext, Classical.choice, Quot.sound
Ries.C158_voigt: propext, Classical.choice, Quot.sound
Ries.C158_partial: propext, Classical.choice, Quot.sound
Ries.C159_partial: propext, Classical.choice, Quot.sound
Ries.C159_refuted: propext, Classical.choice, Quot.sound
Ries.C159_mismatch: propext, Classical.choice, Quot.sound
Ries.C159_order_refuted: propext, Classical.choice, Quot.sound
Ries.C160_broadcast: propext, Classical.choice, Quot.sound
Ries.C160_classes: propext, Classical.choice, Quot.sound
Ries.C160_compton: propext, Classical.choice, Quot.sound
Ries.C160_sum: propext, Classical.choice, Quot.sound
Ries.C161_flux: propext, Classical.choice, Quot.sound
Ries.C161_table: propext, Classical.choice, Quot.sound
Ries.C161_mismatch: propext, Classical.choice, Quot.sound
Ries.C162_balance: propext, Classical.choice, Quot.sound
Ries.C162_self_absorption: propext, Classical.choice, Quot.sound
Ries.C162_shape: propext, Classical.choice, Quot.sound
Ries.Heap.C163_programs: propext, Classical.choice, Quot.sound
Ries.Heap.C163_alias: propext, Classical.choice, Quot.sound
Ries.Heap.C163_accumulate: propext, Classical.choice, Quot.sound
Ries.Heap.C163_difference: propext, Classical.choice, Quot.sound
Ries.C164_pieces: propext, Classical.choice, Quot.sound
Ries.C164_sum: propext, Classical.choice, Quot.sound
Ries.C164_add_number: propext, Classical.choice, Quot.sound
Ries.C164_scale: propext, Classical.choice, Quot.sound
Ries.C164_monotone: propext, Classical.choice, Quot.sound
Ries.C165_refuted: propext, Classical.choice, Quot.sound
Ries.C165_partial: propext, Classical.choice, Quot.sound
Ries.C165_grids_partial: propext, Classical.choice, Quot.sound
Ries.C165_compton: propext, Classical.choice, Quot.sound
Ries.C166_decreasing: propext, Classical.choice, Quot.sound
Ries.C166_jump: propext, Classical.choice, Quot.sound
Ries.C166_shipped: propext, Classical.choice, Quot.sound
Ries.C166_beyond_refuted: propext, Classical.choice, Quot.sound
Ries.C167_azimuth: propext, Classical.choice, Quot.sound
Ries.C167_forward: propext, Classical.choice, Quot.sound
Ries.C167_energy: propext, Classical.choice, Quot.sound
Ries.C167_growth: propext, Classical.choice, Quot.sound
Ries.C168_refuted: propext, Classical.choice, Quot.sound
Ries.C168_accepted_iff: propext, Classical.choice, Quot.sound
Ries.C168_partial: propext, Classical.choice, Quot.sound
Ries.C168_axes_rejected: propext, Classical.choice, Quot.sound
Ries.C168_axes_accepted_iff: propext, Classical.choice, Quot.sound
Ries.C168_axes_refuted: propext, Classical.choice, Quot.sound
Ries.C169_refuted: propext, Classical.choice, Quot.sound
Ries.C169_voigt: propext, Classical.choice, Quot.sound
Ries.C169_gauss: propext, Classical.choice, Quot.sound
Ries.C170_refuted: propext, Classical.choice, Quot.sound
Ries.C170_partial: propext, Classical.choice, Quot.sound
Ries.C170_equidistant: propext, Classical.choice, Quot.sound
Ries.C171_constructed: propext, Classical.choice, Quot.sound
Ries.C171_rejected: propext, Classical.choice, Quot.sound
Ries.C171_one_order: propext, Classical.choice, Quot.sound
Ries.C171_ordering_needed: propext, Classical.choice, Quot.sound
Ries.C172_thin: propext, Classical.choice, Quot.sound
Ries.C172_limit: propext, Classical.choice, Quot.sound
Ries.C172_breit_wigner: propext, Classical.choice, Quot.sound
Ries.C172_gauss: propext, Classical.choice, Quot.sound
Ries.C173_exact: propext, Classical.choice, Quot.sound
Ries.C173_once: propext, Classical.choice, Quot.sound
Ries.C173_refuted: propext, Classical.choice, Quot.sound
Ries.C173_partial: propext, Classical.choice, Quot.sound
Ries.C173_different_numbers: propext, Classical.choice, Quot.sound
Ries.C174_refuted: propext, Classical.choice, Quot.sound
Ries.C174_breit_wigner: propext, Classical.choice, Quot.sound
Ries.C174_voigt: propext, Classical.choice, Quot.sound
Ries.C174_gauss_iff: propext, Classical.choice, Quot.sound
Ries.C174_pseudo_voigt_cold: propext, Classical.choice, Quot.sound
Ries.C174_partial: propext, Classical.choice, Quot.sound
Ries.C175_integrated: propext, Classical.choice, Quot.sound
Ries.C175_reverse_exists: propext, Classical.choice, Quot.sound
Ries.C175_breit_wigner: propext, Classical.choice, Quot.sound
Ries.C175_gauss: propext, Classical.choice, Quot.sound
Ries.C176_refuted: propext, Classical.choice, Quot.sound
Ries.C176_partial: propext, Classical.choice, Quot.sound
Ries.C176_hydrogen: propext, Classical.choice, Quot.sound
Ries.C177_refuted: propext, Classical.choice, Quot.sound
Ries.C177_partial: propext, Classical.choice, Quot.sound
Ries.C177_at_zero: propext, Classical.choice, Quot.sound
Ries.C177_zero_value: propext, Classical.choice, Quot.sound
Ries.C177_positive_energies: propext, Classical.choice, Quot.sound
Ries.C178_refuted: propext, Classical.choice, Quot.sound
Ries.C178_refuted_finite: propext, Classical.choice, Quot.sound
Ries.C178_partial: propext, Classical.choice, Quot.sound
Ries.C178_negative: propext, Classical.choice, Quot.sound
Ries.C178_pseudoVoigt_wide: propext, Classical.choice, Quot.sound
Ries.C178_pseudoVoigt_narrow: propext, Classical.choice, Quot.sound
Ries.C179_partial: propext, Classical.choice, Quot.sound
Ries.C179_single_isotope: propext, Classical.choice, Quot.sound
Ries.C179_refuted: propext, Classical.choice, Quot.sound
Ries.C180_accuracy: propext, Classical.choice, Quot.sound
Ries.C180_bounds: propext, Classical.choice, Quot.sound
Ries.C181_energy: propext, Classical.choice, Quot.sound
Ries.C181_gauss_energy: propext, Classical.choice, Quot.sound
Ries.C181_width: propext, Classical.choice, Quot.sound
Ries.C181_voigt: propext, Classical.choice, Quot.sound
Ries.C181_voigt_wings: propext, Classical.choice, Quot.sound
Ries.C181_gauss: propext, Classical.choice, Quot.sound
Ries.KN.C181_compton: propext, Classical.choice, Quot.sound
Ries.C182_refuted: propext, Classical.choice, Quot.sound
Ries.C182_refuted_width: propext, Classical.choice, Quot.sound
Ries.C182_partial: propext, Classical.choice, Quot.sound
Ries.C182_gauss: propext, Classical.choice, Quot.sound
Ries.C183_partial: propext, Classical.choice, Quot.sound
Ries.C183_refuted: propext, Classical.choice, Quot.sound
Ries.C183_refuted_steep: propext, Classical.choice, Quot.sound
Ries.C183_power: propext, Classical.choice, Quot.sound
Ries.C183_fall: propext, Classical.choice, Quot.sound
Ries.C183_rise: propext, Classical.choice, Quot.sound
Ries.C184_partial: propext, Classical.choice, Quot.sound
Ries.C184_refuted: propext, Classical.choice, Quot.sound
Ries.C184_tables: propext, Classical.choice, Quot.sound
Ries.C185_limits: propext, Classical.choice, Quot.sound
Ries.C185_coverage: propext, Classical.choice, Quot.sound
Ries.C185_exact: propext, Classical.choice, Quot.sound
Ries.C185_sum: propext, Classical.choice, Quot.sound
Ries.C186_breit_wigner: propext, Classical.choice, Quot.sound
Ries.C186_gauss: propext, Classical.choice, Quot.sound
Ries.C186_voigt: propext, Classical.choice, Quot.sound
Ries.C186_pseudo_voigt: propext, Classical.choice, Quot.sound
Ries.C186_quadrature: propext, Classical.choice, Quot.sound
Ries.C187_array: propext, Classical.choice, Quot.sound
Ries.C187_number: propext, Classical.choice, Quot.sound
Ries.C187_every_array: propext, Classical.choice, Quot.sound
Ries.C187_every_number: propext, Classical.choice, Quot.sound
Ries.C188_coverage_interval: propext, Classical.choice, Quot.sound
Ries.C188_coverage_grid: propext, Classical.choice, Quot.sound
Ries.C188_limits_grid: propext, Classical.choice, Quot.sound
Ries.C188_increasing: propext, Classical.choice, Quot.sound
Ries.C188_increasing_coverage: propext, Classical.choice, Quot.sound
Ries.C189_breit_wigner: propext, Classical.choice, Quot.sound
Ries.C189_gauss: propext, Classical.choice, Quot.sound
Ries.C189_pseudo_voigt: propext, Classical.choice, Quot.sound
Ries.C190_sum: propext, Classical.choice, Quot.sound
Ries.C190_integral: propext, Classical.choice, Quot.sound
Ries.C190_points: propext, Classical.choice, Quot.sound
Ries.C190_constant: propext, Classical.choice, Quot.sound
Ries.C190_nonresonant: propext, Classical.choice, Quot.sound
Ries.C190_compton: propext, Classical.choice, Quot.sound
Ries.C190_breit_wigner: propext, Classical.choice, Quot.sound
Ries.C190_gauss: propext, Classical.choice, Quot.sound
Ries.C190_pseudo_voigt: propext, Classical.choice, Quot.sound
Ries.C191_coverage_interval: propext, Classical.choice, Quot.sound
Ries.C191_limits_grid: propext, Classical.choice, Quot.sound
Ries.C191_resolves: propext, Classical.choice, Quot.sound
Ries.C191_integral: propext, Classical.choice, Quot.sound
Ries.C192_table: propext, Classical.choice, Quot.sound
Ries.C192_shipped: propext, Classical.choice, Quot.sound
Ries.C192_above: propext, Classical.choice, Quot.sound
Ries.C192_resolves: propext, Classical.choice, Quot.sound
Ries.C193_flux: propext, Classical.choice, Quot.sound
Ries.C193_rate: propext, Classical.choice, Quot.sound
Ries.C193_beam: propext, Classical.choice, Quot.sound
Ries.C193_layers: propext, Classical.choice, Quot.sound
Ries.C194_quadrature: propext, Classical.choice, Quot.sound
Ries.C194_sharp: propext, Classical.choice, Quot.sound
Ries.C194_thin: propext, Classical.choice, Quot.sound
Ries.C194_li6: propext, Classical.choice, Quot.sound
Ries.C195_transmission: propext, Classical.choice, Quot.sound
Ries.C195_voigt: propext, Classical.choice, Quot.sound
Ries.C195_gauss: propext, Classical.choice, Quot.sound
Ries.C196_refuted: propext, Classical.choice, Quot.sound
Ries.C196_partial: propext, Classical.choice, Quot.sound
Ries.C196_thick: propext, Classical.choice, Quot.sound
Ries.C197_refuted: propext, Classical.choice, Quot.sound
Ries.C197_thick: propext, Classical.choice, Quot.sound
Ries.C197_partial: propext, Classical.choice, Quot.sound
Ries.C198_refuted: propext, Classical.choice, Quot.sound
Ries.C198_angle: propext, Classical.choice, Quot.sound
Ries.C198_energy: propext, Classical.choice, Quot.sound
Ries.C198_polarized_partial: propext, Classical.choice, Quot.sound
Ries.C198_polarized_energy_partial: propext, Classical.choice, Quot.sound
Ries.C199_refuted: propext, Classical.choice, Quot.sound
Ries.C199_partial: propext, Classical.choice, Quot.sound
Ries.C200_refuted: propext, Classical.choice, Quot.sound
Ries.C200_angle_partial: propext, Classical.choice, Quot.sound
Ries.C200_energy_partial: propext, Classical.choice, Quot.sound
Ries.C200_polarized_partial: propext, Classical.choice, Quot.sound
Ries.C200_polarized_energy_partial: propext, Classical.choice, Quot.sound
Ries.C201_breitWigner: propext, Classical.choice, Quot.sound
Ries.C201_gauss: propext, Classical.choice, Quot.sound
Ries.C201_missed: propext, Classical.choice, Quot.sound
Ries.C201_missed_voigt: propext, Classical.choice, Quot.sound
Ries.C201_without_grid: propext, Classical.choice, Quot.sound
Ries.C202_voigt: propext, Classical.choice, Quot.sound
Ries.C202_voigt_everywhere: propext, Classical.choice, Quot.sound
Ries.C202_density: propext, Classical.choice, Quot.sound
Ries.C203_breit_wigner: propext, Classical.choice, Quot.sound
Ries.C203_voigt: propext, Classical.choice, Quot.sound
Ries.C203_voigt_everywhere: propext, Classical.choice, Quot.sound
Ries.C203_gauss: propext, Classical.choice, Quot.sound
Ries.C203_narrow: propext, Classical.choice, Quot.sound
Ries.C204_breit_wigner: propext, Classical.choice, Quot.sound
Ries.C204_voigt: propext, Classical.choice, Quot.sound
Ries.C204_voigt_everywhere: propext, Classical.choice, Quot.sound
Ries.C204_gauss: propext, Classical.choice, Quot.sound
Ries.C204_narrow: propext, Classical.choice, Quot.sound

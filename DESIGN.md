# Formal model of `ries` in Lean 4

`properties.jsonl` states the properties in words, `MANIFEST.json` names the theorem(s) for each, this file says
what is modelled, how each property is proved or refuted, and what has to be trusted.

## 1. Layout

* `lean/Verif/Model/*` – shallow model of the Python code, function by function; every definition cites the file
  and lines it models and says where it simplifies.
* `lean/Verif/Spec/*` – small vocabularies used in theorem statements that do not refer to the model's
  helpers (meaning of an expression tree, written form of a data file, list of element symbols, iterated integral, ...).
* `lean/Verif/Lemmas/*` – helper lemmas.
* `lean/Verif/Props/*` – the property theorems `Cxx_...`; next to each an `example` shows that its hypotheses are met
  by a concrete non-trivial case.
* `lean/Verif/Data/*` – transcriptions of the shipped data files, generated by `tools/gen_elements.py` and
  `tools/gen_xrmac.py`; `tools/check_data.sh` regenerates them and compares.
* `seeded/mutations.json`, `tools/mutate.py`, `seeded/LOG.jsonl` – wrong versions of the model and which
  theorems reject them (section 6).
* `axioms.txt` (written by `tools/axioms.py`) – the axioms each theorem of the manifest depends on.

## 2. Modelling conventions

* A Python `int`/`float`/numpy float is an exact real number. Rounding is modelled where a property is about it: Darboux
  sums (C66 with any monotone rounding, C116 with any relative error and any order of summation), and with relative errors:
  sums and products of cross sections (C79), single resonances, the Klein-Nishina formula, grids and scattering angles
  (`Model/Rounded*`), partitioned quadratures (C131). The values inf and nan are constructors of `Fl` where the code can produce them.
* Exceptions are values (`Except Err`); a theorem that says a call succeeds excludes exceptions.
* Dictionaries are association lists in insertion order; text is a list of characters; decimal numbers in files are
  read exactly.
* Objects are immutable trees in `Model/CrossSection` and addresses into a store with mutable list cells in
  `Model/Heap` (aliasing, C04/C05). `Lemmas/Heap` proves that both evaluate alike (`C04_add_value`, `C04_mul_value`).
* Calls into numpy/scipy are modelled by their documented meaning, or by the algorithm where the result
  depends on it (`np.linspace`, `np.unique`, `np.roll` and broadcasting, `np.interp` and `interp1d` with its stable sort and fill
  values, `scipy.optimize.newton` in its scalar and array form). `scipy.integrate.quad`
  is the exact integral; `nquad` is an arbitrary function in C67–C70 (what it must satisfy is a hypothesis). `scipy.stats.norm/cauchy/uniform` are given
  by their pdf, cdf and ppf with scipy's argument conventions; `scipy.special.voigt_profile` by its documented convolution (in the rounded models by any routine with a bounded relative error, C202).
  `scipy.constants` are arbitrary positive reals (`PhysConst`), so every theorem holds for any CODATA release.
  The exception is `Model/Constants` (C121): it contains the numbers of three CODATA releases for the names that the code looks up.
  scipy is not available here, so these numbers and the merging of releases in scipy's dictionary are trusted.

## 3. What is modelled

| source file | model | not modelled |
|---|---|---|
| `cross_section.py` | `Model/CrossSection` (all operators, calls, constructors, also on arrays), `Model/Grid`, `Model/Heap`, `Model/Programs` (user programs with names, augmented assignment, loops), `Model/Rounded`, `Model/RoundedGrid`, `Model/RoundedSumGrid` (common grids and integrals of sums), `Model/Inputs` (numpy scalars as operands), `Model/ArrayFactors` (numpy arrays as factors), `Model/Arrays` (stored arrays, in-place addition), `Model/NdArrays` (arrays of any shape), `Model/Signatures` (parameter names and argument binding), `Model/LimitTypes` (types of limits and coverages) | – |
| `integration/darboux.py` | `Model/Darboux`, `darbouxA` in `Model/Arrays`, rounded with any summation order: `darbouxRounded` in `Model/Darboux`, `Model/DarbouxShapes` (arrays with two axes), `Model/DarbouxAxes` (any number of axes) | – |
| `integration/quad_partition.py` | `Model/QuadPartition` (also with rounding, and for two-dimensional partitions) | the inside of `nquad` (what it does with rows of a matrix as limits is in the comment of `quadPartitionAny`) |
| `nonresonant/nonresonant.py`, `klein_nishina.py` | `Model/KleinNishina`, `Model/NonresonantLeaf`, `Model/RoundedKN`, `Model/RoundedTheta`, `Model/RoundedComptonAngles`, `Model/KNArrays`, `Model/ComptonSpectrum` (arrays with impossible scattered energies), `knCall` in `Model/Arrays`, `constGrid` in `Model/Grid` | `E = 0` in the real-valued functions (excluded by hypotheses; see `totalFl`, `thetaFl`) |
| `nonresonant/xrmac.py` | `Model/Xrmac`, `Model/RoundedXrmac` (interpolation), `Model/XrmacZero` (tabulated zero energies), `Model/XrmacReader` (file format), `Model/XrmacModule` (module variables and closures), `xrmacCallA` in `Model/Arrays`, `Model/Inputs` (conversion functions) | negative tabulated energies (nan as nodes; scipy documents the behaviour of `interp1d` as undefined) |
| `constituents/state.py` | `Model/State`, `Model/Inputs` (states edited after construction) | – |
| `constituents/natural_element_data.py`, `element.py`, `isotope.py` | `Model/Elements`, `Model/RoundedThermal` (rounded masses), `Model/Inputs` (elements given by lists), `Model/Isotope` (excited states) | – |
| `resonance/resonance.py`, `breit_wigner.py`, `gauss.py` | `Model/Resonance`, `Model/Dist`, `Model/RoundedReso`, `Model/RoundedCentred` (relative energies), `Model/RoundedProbGrid`, `Model/RoundedPVGrid`, `Model/RoundedIntegral`, `Model/RoundedPVIntegral`, `Model/Arrays` (evaluation on stored arrays and lists), `Model/Warnings` (which warnings are printed) | constant parts of the texts of the warnings; changes of the warning filters while a program runs |
| `resonance/pseudo_voigt.py`, `voigt.py` | `Model/PseudoVoigt` incl. Newton iteration, `Model/RoundedNewton`, `Model/RoundedPV`, `Model/RoundedVoigt`, `Model/RoundedVoigtValue`, `pvPdf`, `voigtPdf` in `Model/Arrays` | `PV.ppfArray` is for arrays with two or more quantiles (scipy uses its scalar routine for one: `PV.ppfOne`) |
| `resonance/recoil.py`, `maxwell_boltzmann.py` | `Model/Recoil`, `Model/RoundedThermal`, `Model/Unphysical` (masses and temperatures of any sign; Voigt profiles with negative widths are left out) | – |
| `resonance/debye_model.py` | `Model/Debye` incl. the table, `Model/DebyeArray`, `Model/DebyeNd` (arrays of any shape), `Model/RoundedDebye` | – |
| `nist_elements/elements.txt`, `geant4_densities/element_densities.txt`, `nist_xrmac/*.txt` | `Data/*` (complete) | – |
| `tests/test_Phi_alpha_plot.py` | `Model/Beam` (class `BeamInTarget`, at single depths and energies), `Model/NdArrays` (on arrays of any shape) | plots |
| `notebooks/layer_target.ipynb`, `notebooks/6Li.ipynb` | `Model/Notebooks` (the functions, with exact integrals for `quad` and `nquad`), `Model/RoundedFlux` (flux and rates in floating point), `Model/RoundedSelfAbs` (self absorption with numerical quadrature), `Model/MonteCarlo` (loop over random samples, simplex search of scipy in one dimension) | plots, tables, the time in progress messages |
| `tests/` | assertions of the tests that exact arithmetic can decide, repeated on the model (`Validation`); these are tests of the model, not claims | tests of plots; of the tests that depend on rounding, the ones of `test_klein_nishina.py` are C199 and C200, for all energies |
| `setup.py`, `MANIFEST.in` | `Model/Package` (package discovery, data files, the list of files of the repository) | byte compilation, metadata, source distributions |
| examples in the documentation of the modules | `Model/Docs` | – |
| attributes assigned after construction (Compton, thermal motion, elements, states, resonances) | `Model/Edits`, `Model/EditsReso` | — (assignment of another distribution: `Spec/UserDist`) |
| `source/` (Sphinx sources) | not modelled | |

## 4. Properties

"refuted" means: the property as stated is false of the code; a theorem `..._refuted` gives a concrete witness, and a
theorem `..._partial` proves the part that does hold. The properties are kept as stated because they are what the
documentation leads a user to expect.

<!-- table -->

| id | property | status | how modelled and proved | theorems | what is missing / false |
|---|---|---|---|---|---|
| C01 | Adding cross sections adds their values | proved | expression meaning by induction over nested sums (`CrossSection`) | `C01_sum_evaluates_to_sum`, `C01_resonances`, `C01_resonance_sum` |  |
| C02 | Scaling a cross section scales its values | proved | as C01 | `C02_scaling` |  |
| C03 | Any arithmetic expression evaluates compositionally | proved | specification `Expr.denote` of any expression tree; induction over the tree | `C03_expression_compositional`, `C03_laws` |  |
| C04 | Arithmetic never mutates its operands | proved | store model `Heap`; frame invariant by induction over histories of operations | `Heap.C04_frame`, `Heap.C04_value`, `Heap.C04_add_value`, `Heap.C04_mul_value` |  |
| C05 | A sum or product is independent of its operands after construction | refuted, partial | `Heap`; edit of an operand after construction; nested operand is shared: refuted | `Heap.C05_refuted`, `Heap.C05_partial`, `Heap.C05_product`, `Heap.C05_nested` | False of the code for CrossSection + WeightedSum (the operand is nested by reference); proved for all other operand kinds of a sum, and for products with a number. |
| C06 | Array evaluation is pointwise | refuted, partial | `callArr` with broadcasting; induction over the sum | `C06_array_pointwise_partial`, `C06_array_shape_refuted`, `C06_array_shape_iff` | Pointwise equality proved for all sums; the shape claim is false of the code for sums of constants only (a scalar is returned). |
| C07 | Scale-factor list must cover the reaction list | proved | case analysis of the evaluation loop | `C07_explicit_lists` |  |
| C08 | Every constructor default is usable | refuted, partial | constructor with `Option` arguments | `C08_default_constructor_refuted`, `C08_default_constructor_partial` | False of the code: CrossSectionWeightedSum() raises TypeError. The calls with at least one argument are proved. |
| C09 | A cross section evaluates to a number | refuted, partial | products of two cross sections are values of `Obj`; refuted by evaluating one | `C09_call_returns_number_refuted`, `C09_call_returns_number_partial`, `C09_number_iff` | False of the code: a product of two cross sections is accepted and its call returns an object. Proved when every product has a scalar factor. |
| C10 | Equidistant energy grid | proved | closed form of `linspace` | `C10_energy_grid`, `C10_energy_grid_small` |  |
| C11 | Equal-probability grid over given limits | proved | `Resonance.probGrid` over an arbitrary distribution with inverse pair cdf/ppf | `C11_limits_grid`, `C11_ends_exact`, `C127_any_distribution`, `C11_pseudoVoigt_lengthPreserving` |  |
| C12 | Equal-probability grid for a requested coverage | proved | as C11, for a coverage | `C12_coverage_grid` |  |
| C13 | Grid points stay ordered and inside the limits for every resonance shape | refuted, partial | order of cdf/ppf; exact criterion for the box; pseudo-Voigt by C82, refuted for narrow ones (root search stops after one step) | `C13_refuted`, `C13_partial`, `C13_box_iff`, `C13_pseudoVoigt_refuted`, `C13_pseudoVoigt_not_ordered`, `C13_pseudoVoigt_partial` | False of the code for the box shape when the limits do not overlap the box (exact condition in C13_box_iff), and for narrow pseudo-Voigt resonances with limits above the resonance energy; proved for Breit-Wigner and Gauss, and for pseudo-Voigt with limits around the resonance energy. |
| C14 | Grid of a sum is the sorted duplicate-free union | proved | `npUnique`: sorted, duplicate-free, same members; induction over nested sums | `C14_sum_grid`, `C14_sum_grid_limits` |  |
| C15 | A coverage request works on sums | refuted, partial | evaluation of the constant's grid method; refuted | `C15_refuted`, `C15_typeError`, `C15_partial`, `C15_all_shapes_partial`, `C15_accepted_iff` | False of the code: sums with a constant or nonresonant constituent raise TypeError on a coverage request; proved for sums of Breit-Wigner, Gauss, pseudo-Voigt and Voigt resonances; exact condition for nested sums in C15_accepted_iff. |
| C16 | Coverage interval carries the requested probability | proved | cdf of the returned limits; integral of the pdf | `C16_coverage_interval`, `C16_coverage_grows`, `C16_coverage_zero`, `C16_coverage_one` |  |
| C17 | Coverage interval never has a negative lower limit | refuted, partial | witness: broad Breit-Wigner | `C17_refuted`, `C17_partial`, `C17_negative_iff`, `C17_pseudo_voigt` | False of the code: negative lower limits are returned unchanged; proved that a warning is issued exactly then; exact condition for Breit-Wigner and Gauss in C17_negative_iff, for pseudo-Voigt up to the accuracy of the search in C17_pseudo_voigt. |
| C18 | The warning reports the reachable coverage | refuted, partial | the call `cdf(0.0)` without parameters is in the model | `C18_refuted`, `C18_warning_occurs`, `C18_partial` | False of the code for Breit-Wigner and Gauss (cdf(0) is called without the distribution parameters: always 50 %); proved for pseudo-Voigt. |
| C19 | Integrated cross section equals its closed form | proved | integrals over the real line of normal, Cauchy, uniform, mixtures, convolution (Fubini) | `C19_box`, `C19_analytic`, `C19_pseudoVoigt`, `C19_voigt` |  |
| C20 | Cross section over physical energies | refuted, partial | strict positivity of the tail integral; arctan formula | `C20_refuted`, `C20_partial`, `C20_half_partial`, `C20_gauss_partial`, `C20_pseudo_voigt_partial`, `C20_voigt_partial` | False of the code: the shapes have mass at negative energies; exact value for Breit-Wigner and Gauss; for Gauss the missing fraction is below exp(-mc2/(2kT))/2; for pseudo-Voigt and Voigt strictly smaller as well, with an upper bound of the missing fraction. |
| C21 | Branching ratios partition the excitation cross section | proved | sum over the dictionary of partial widths | `C21_channel`, `C21_channels_sum` |  |
| C22 | Total width is the sum of the partial widths | proved | list sums | `C22_width_sum`, `C22_width_perm`, `C22_width_ge`, `C22_ground` |  |
| C23 | Integrated cross section formula | proved | algebra | `C23_formula`, `C23_pos`, `C23_scaling` |  |
| C24 | Resonance construction fails exactly on bad states | proved | case analysis of `mkResonance`: success iff conditions | `C24_construction` |  |
| C25 | Breit-Wigner closed form | proved | algebra | `C25_closed_form` |  |
| C26 | Resonance shapes are symmetric with their maximum at the resonance energy | proved | monotonicity of the densities; Voigt by unimodality of the convolution | `C26_symmetric_peak`, `C26_half_maximum`, `C26_relative_mode` |  |
| C27 | Recoil correction conserves energy and momentum | proved | algebra: conservation laws as specification | `C27_recoil` |  |
| C28 | Every resonance model can be recoil-corrected | refuted, partial | constructor signatures; refuted | `C28_refuted`, `C28_partial` | False of the code: only the box class accepts a recoil correction; the others always use the bare level difference. |
| C29 | Doppler width and effective temperature are inverse | proved | algebra with `sqrt` | `C29_temperature_roundtrip`, `C29_width_roundtrip` |  |
| C30 | Doppler width scaling laws | proved | algebra, monotonicity | `C30_scaling`, `C30_monotone` |  |
| C31 | Pseudo-Voigt mixing is a convex combination | proved | polynomial inequalities for eta and the width (fifth root) | `C31_convex`, `C31_degenerate` |  |
| C32 | Pseudo-Voigt limiting cases are exact | refuted, partial | evaluation at zero width / zero temperature; refuted at zero temperature | `C32_refuted`, `C32_partial` | Gauss limit proved. Lorentz limit false of the code: the Cauchy component has scale Gamma/4 instead of Gamma/2. |
| C33 | Pseudo-Voigt PPF inverts the CDF | proved | explicit Newton loop; a converged value is a fixed point up to the tolerance | `C33_scalar`, `C33_fallback`, `C33_median`, `C33_array` |  |
| C34 | Pseudo-Voigt PPF always returns quantiles | refuted, partial | array Newton with flags; witness with one converging and one diverging quantile | `C34_refuted`, `C34_grid_none`, `C34_partial`, `C34_coverage_interval`, `C34_median_no_fallback`, `C34_sum_none` | False of the code: if only some quantiles converge, ppf returns None, and the grid of every sum with such a resonance is a TypeError. Proved for arrays of equal or mirrored quantiles, hence for coverage_interval. C80 (exact arithmetic) and C187 (floating point) give conditions under which all quantiles converge. |
| C35 | Voigt resonance is the Doppler convolution | proved | convolution integral | `C35_convolution`, `C35_zero_temperature`, `C35_zero_width` |  |
| C36 | Debye effective temperature bounds | proved | series-free bounds on the Debye integrand | `C36_bounds` |  |
| C37 | Debye effective temperature is monotone and homogeneous | proved | substitution, monotone integrals | `C37_monotone`, `C37_homogeneous` |  |
| C38 | Debye limits | proved | squeeze arguments, limits of filters | `C38_limits`, `C38_classical_bound` |  |
| C39 | Debye temperature table is keyed by element symbols | refuted, partial | `decide +kernel` over the table; refuted | `C39_refuted`, `C39_partial` | False of the shipped table: the keys 'Ma' and 'Va' are no element symbols; every other key is. |
| C40 | Compton kinematics | proved | algebra and `cos` | `C40_compton_kinematics` |  |
| C41 | Scattering angle and scattered energy are inverse | proved | `arccos`/`cos` | `C41_theta_energy_inverse` |  |
| C42 | Angular integrals reproduce the total cross section | proved | fundamental theorem of calculus with explicit antiderivative | `C42_angular_integral` |  |
| C43 | Energy integrals reproduce the total cross section | proved | substitution from C42 | `C43_energy_integral` |  |
| C44 | Compton cross sections are positive and fall with energy | proved | derivative sign / integrand monotone in the energy | `C44_differential_nonneg`, `C44_total`, `C44_growth` |  |
| C45 | Unpolarized solid-angle cross section is the azimuthal average | refuted, partial | azimuthal integral computed; refuted | `C45_azimuthal_average_refuted`, `C45_azimuthal_average_partial` | False of the code: the function is the azimuthal integral, 2*pi times the average. |
| C46 | Differential and total cross sections agree for any mass | refuted, partial | exact condition on the mass; refuted | `C46_any_mass_refuted`, `C46_any_mass_partial` | False of the code for every mass other than the electron's (kinematics use the electron mass); proved exactly for the electron mass. |
| C47 | Compton cross sections are proportional to Z | proved | algebra | `C47_proportional_Z` |  |
| C48 | Interpolation reproduces the table | proved | induction over the sorted table | `C48_nodes` |  |
| C49 | Interpolation stays between neighbouring entries and follows a power law | proved | piecewise power law; induction | `C49_power_law`, `C49_between`, `C49_positive` |  |
| C50 | Outside the table the boundary values are used | refuted, partial | fill values; refuted by an unsorted table | `C50_refuted`, `C50_partial` | False of the code for tables that are not sorted by energy (the interpolation sorts the rows, the fill values do not); proved for sorted tables, where an edge exactly at the smallest energy is excluded below the table. |
| C51 | The two unit systems contain the same data | proved | linearity of the conversion under interpolation | `C51_value_units`, `C51_energy_units`, `C51_shipped` |  |
| C52 | Table lines are parsed exactly | proved | print/parse round trip by induction over the file | `C52_round_trip` |  |
| C53 | The last line of a table is read like every other line | refuted, partial | slice `[:-2]` on a line without newline; refuted on the shipped file 82.txt | `C53_refuted`, `C53_partial`, `C53_table_partial` | False of the code: without a final newline the last exponent digit of the third number is cut off (shipped 82.txt). The two columns used for interpolation are complete. |
| C54 | A stored unit conversion belongs to its element | refuted, partial | closures over the global loop variable; refuted on the shipped files | `C54_refuted`, `C54_partial` | False of the code: the stored conversions are closures over the loop variable and all use the mass of Z = 92 after the import (shown for lead with the shipped files). The stored data are converted with the right mass. |
| C55 | Element mass is the abundance-weighted mean | proved | list sums, permutation, convexity | `C55_weighted_sum`, `C55_order`, `C55_missing`, `C55_between` |  |
| C56 | NIST reader returns exactly the isotopes of the element | refuted, partial | print/parse round trip for any sorted list of elements | `C56_isotopes`, `C56_partial`, `C57_refuted` | The set of isotopes is proved for every sorted file; masses and abundances are proved for values with an uncertainty and are false of the code for values without (C57). |
| C57 | NIST values are read with or without an uncertainty | refuted, partial | slice up to '('; refuted | `C57_refuted`, `C57_partial` | False of the code: a value without uncertainty is read as the default (abundance 0). Proved for values with uncertainty. |
| C58 | Natural elements have a physical mass | refuted, partial | kernel evaluation over the whole shipped file; refuted | `C58_refuted`, `C58_partial` | False of the code: the 22 elements whose single isotope is listed with abundance 1 without uncertainty (F, Na, Al, ..., Au) get the mass 0. Proved for all other elements with tabulated composition, on the whole shipped file. |
| C59 | Element symbol table | proved | general theorem plus shipped file | `C59_symbols`, `C59_lookup` |  |
| C60 | Density lookup returns the density of the requested element | refuted, partial | substring test on two characters; refuted on the shipped file | `C60_refuted`, `C60_partial`, `C60_none_partial`, `C60_shipped_partial`, `C60_correct_iff` | False of the code: the first line whose symbol contains the requested symbol is used (B gets the density of Be, S of Si, I of In). Proved for two-letter symbols and for letters that occur in no earlier symbol; exact condition in C60_correct_iff. |
| C61 | Darboux sums bracket the integral | proved | Darboux inequality by induction over the grid | `C61_brackets_integral` |  |
| C62 | Darboux gap formula | proved | list sums | `C62_gap_formula`, `C62_equidistant`, `C62_constant` |  |
| C63 | Darboux refinement | proved | induction over inserted points | `C63_refinement` |  |
| C64 | Passing the function or its values is equivalent | proved | evaluation | `C64_function_vs_values` |  |
| C65 | Darboux rejects mismatched input | refuted, partial | broadcasting rules; refuted for two-entry arrays | `C65_mismatch_rejected_partial`, `C65_mismatch_refuted`, `C65_accepted_iff`, `C65_two_values` | False of the code when one of the arrays has exactly two entries (numpy broadcasting); proved otherwise; exact condition in C65_accepted_iff. |
| C66 | Lower sum never exceeds upper sum in floating point | proved | any monotone rounding, any summation tree | `C66_rounded_order` |  |
| C67 | Partitioned quadrature is the whole integral | proved | additivity over the pieces, `nquad` a parameter that is exact | `C67_exact_pieces` |  |
| C68 | Partition error estimate | proved | loop invariant | `C68_error_formula` |  |
| C69 | The returned error bounds the true error | refuted, partial | Cauchy-Schwarz; refuted | `C69_error_bound_refuted`, `C69_error_bound_partial`, `C69_factor_sharp` | False of the code (errors added in quadrature); proved with the factor sqrt(n-1) and with the plain sum of errors; the factor cannot be improved (C69_factor_sharp). |
| C70 | Integration limits of further coordinates may be an array | refuted, partial | truth value of an array; refuted | `C70_ndarray_refuted`, `C70_ndarray_partial` | False of the code: non-empty arrays raise ValueError; lists and empty arrays are accepted. |
| C71 | Quantile accuracy does not depend on the width of the resonance | refuted, partial | residual bound from the Newton tolerance; refuted by a narrow resonance | `C71_refuted`, `C71_partial` | False of the code: the tolerance of the root search is an absolute energy (1.48e-8 MeV); proved bound 1.9e-8 MeV / Gamma. |
| C72 | One element object per atomic number | proved | invariant of the import loop; shipped file | `C72_import`, `C72_shipped` |  |
| C73 | Attenuation per atom is mass attenuation times the mass of the atom, and positive | refuted, partial | composition of reader, conversion and interpolation; refuted on the shipped files | `C73_refuted`, `C73_partial` | The relation between the two units is proved for all elements and energies; positivity is false of the code for elements with mass 0 (see C58): their cross section per atom is 0 at every energy. |
| C74 | All shipped attenuation tables are usable at every nonnegative energy | proved | composition of reader and interpolation for the shipped files | `C74_shipped` |  |
| C75 | Doppler broadening is that of a thermal gas | proved | Maxwell-Boltzmann velocities as specification; change of variables | `C75_gauss`, `C75_voigt` |  |
| C76 | Compton scattering conserves energy and momentum | refuted, partial | four-momentum conservation as specification | `C76_refuted`, `C76_conservation_partial` | False of the code for targets other than the electron (the kinematics always uses the electron mass); proved for electrons, in both directions. |
| C77 | Energy-differential Compton cross section | refuted, partial | derivative of the angular integral | `C77_refuted`, `C77_energy_differential_partial` | False of the code for targets other than the electron; proved for electrons. |
| C78 | Impossible scattered energies have cross section zero | refuted, partial | `np.arccos` outside [-1,1] is nan; refuted | `C78_refuted`, `C78_possible_energies_partial` | False of the code: at impossible energies the result is nan instead of zero; the results are nonnegative numbers exactly at the possible energies. |
| C79 | Rounding errors of composed cross sections stay small | proved | rounding after each operation with relative error u; induction over the expression tree | `C79_rounding`, `C79_relative`, `C79_bound` |  |
| C80 | The quantile search converges for all but extreme quantiles | proved | each Newton step on the concave side reduces error times density to a quarter; 50 iterations suffice | `C80_array`, `C80_scalar` |  |
| C81 | Pseudo-Voigt coverage intervals are symmetric and carry the requested fraction | proved | C80 plus symmetry | `C81_coverage`, `C81_any_coverage` |  |
| C82 | Pseudo-Voigt grids have equal shares | proved | C80 applied to every grid point | `C82_coverage_grid`, `C82_limits_grid` |  |
| C83 | Voigt coverage intervals carry the requested fraction | refuted, partial | Lorentz quantiles of half the width; refuted at T = 0; proved for narrow widths (probabilities of intervals under Voigt, pseudo-Voigt and normal distribution differ by multiples of w/d) | `C83_refuted`, `C83_half`, `C83_broad_refuted`, `C83_partial`, `C83_narrow_partial` | False of the code: at zero temperature every interval carries too little (for a coverage of 50 % less than a third), since quantiles come from a Lorentz curve of half the width; the same holds at positive temperatures if the Doppler-broadened width is at most an eighth of the natural width. Proved for zero width (with non-negative partial widths such a resonance has no cross section, so the result that matters is the next one), and up to 2.1 times the ratio of natural width and Doppler width for all other widths (within a few percent for narrow resonances). |
| C84 | The computed Compton cross section is accurate | refuted, partial | rounding after each operation; forward error analysis; refuted with rounding to nearest (cancellation) | `KN.C84_refuted`, `KN.C84_not_accurate`, `KN.C84_partial` | False of the code: near 1.95 eV (electrons) the computed value is negative, in any arithmetic that rounds to nearest; proved that the relative error is at most 150 u (1 + mc2/E)^3 (1 + ln(1 + 2 E/mc2)). |
| C85 | The total Compton cross section can be evaluated at every nonnegative energy | refuted, partial | branches of `x ** -3`, quotient and logarithm; refuted at E = 0 | `KN.C85_construction`, `KN.C85_refuted`, `KN.C85_sum`, `KN.C85_sum_value`, `KN.C85_partial` | False of the code at E = 0 (ZeroDivisionError on floats, nan on arrays); proved at all positive energies, with the exact range. |
| C86 | Darboux sums converge | proved | uniform continuity, induction over the partition | `C86_converges`, `C86_equidistant` | uniform continuity and induction over the partition |
| C87 | A resonance can be integrated with Darboux sums on its own grid | refuted, partial | peak on the grid: piecewise monotone (C61); error bound by total variation times the largest step; refuted for two points | `C87_refuted`, `C87_odd_grid`, `C87_odd_grid_pseudoVoigt_partial`, `C87_limits_partial` | The bracket holds for coverages with an odd number of points (resonance energy on the grid). It is false for an even number: with two points both sums are equal and too small for every coverage. For limits, and for an even number of points, both sums are within 2 sigma(E_r)/min(sigma(a),sigma(b))/(n-1) of the integral, relative to the integral. |
| C88 | The energy grid for a coverage covers the requested fraction | refuted, partial | coverage interval (C22) and spacing of the grid (C10); quantiles 0 and 1 are infinite: refuted | `C88_energy_grid_partial`, `C88_pseudoVoigt_partial`, `C88_refuted` | Proved for coverages below 1 (pseudo-Voigt: for all but extreme coverages, up to the tolerance of the quantile search). False at coverage 1 for Breit-Wigner and Gauss resonances: every point but the last is nan, the last is infinite. |
| C89 | Numpy scalars can be used like Python numbers | refuted, partial | `Model/Inputs` (operator dispatch with numpy scalars); case distinction on the operand | `C89_refuted`, `C89_partial` | False for a numpy integer scalar as right summand: for a single cross section the sum is built but raises TypeError when evaluated, for a weighted sum AttributeError is raised at once. Proved for left summands and for products in both orders. |
| C90 | Elements can be built from lists, arrays or dictionaries | refuted, partial | `Model/Inputs` (indexing by loop variable); case distinction on the container | `C90_refuted`, `C90_partial` | False for lists (TypeError) and arrays (IndexError), which the documentation allows. Proved for dictionaries. |
| C91 | Unit conversions are applied to tabulated data | refuted, partial | `Model/Inputs`; induction over the lines of the file; a table of three points for the refutation | `C91_refuted`, `C91_partial` | False for arrays: the conversion functions are ignored. Proved for files. |
| C92 | The width of a state is the sum of its partial widths | refuted, partial | `Model/Inputs` (states sharing dictionaries); induction over the steps | `C92_refuted`, `C92_partial`, `C92_width_at_construction` | The width is computed once: it stays the sum at the time of construction. False after an assignment to partial_widths; then branching ratios do not sum to one. Proved as long as the dictionary is not changed. |
| C93 | Energy grids are well-formed in floating point | proved | `Model/RoundedGrid`; relative error bounds, monotone rounding | `C93_rounded_grid` | Monotone rounding with relative error u, limits representable. |
| C94 | Breit-Wigner values are accurate in floating point | proved | `Model/RoundedReso`; calculus of relative errors (`Rel`), induction over the partial widths | `C94_breit_wigner` | Standard model of floating-point arithmetic without overflow and underflow; energy difference of the levels exact, as for excitations from the ground state (otherwise see C203). Without overflow or underflow by C155. |
| C95 | Gauss values are accurate in floating point | proved | as C94; perturbation of the exponent | `C95_gauss`, `C95_uniform` | As C94; exponentials and powers with four units of error. Underflow far from the resonance is excluded (C155). |
| C96 | Voigt profile and temperature | proved | dominated convergence; substitution to a fixed Gaussian; strict antitonicity of the integrand | `C96_temperature` |  |
| C97 | Narrow resonances look Gaussian | proved | dominated convergence for the Voigt integral; continuity of the pseudo-Voigt parameters | `C97_narrow` | Pointwise convergence. |
| C98 | Tabulated cross sections are continuous except at absorption edges | proved | recursion over the nodes with one-sided limits | `C98_continuity` | Exact real arithmetic for logarithms and powers. |
| C99 | Effective temperatures of arrays | refuted, partial | broadcasting of lists and of shapes, induction over the entries; refuted | `C99_refuted`, `C99_partial`, `C99_nd_partial` | False for empty arrays, which raise ValueError. Proved for all arrays with at least one entry, of any shape in C99_nd_partial. |
| C100 | Grids of arithmetic expressions | proved | grid methods used by an expression as an inductive relation; induction over the tree | `C100_expression_grid`, `C100_laws` | Grid methods of constituents are arbitrary; a single cross section keeps its own grid. |
| C101 | The built-in sum behaves like addition | refuted, partial | as C100; refuted by two Breit-Wigner resonances and a coverage | `C101_refuted`, `C101_partial` | False for grids: sum starts with the number 0, which becomes a constant cross section, so that coverage requests raise and grids for limits get the additional points of the equidistant grid. Proved: same values, and the exact set of grid points. |
| C102 | Photon flux in a layered target | proved | spec `Attenuates`: the differential equation; uniqueness by constancy of F exp(c ρ), existence by a piecewise exponential | `C102_flux`, `C102_layers`, `C102_flux_exists` | for arbitrary cross sections that return a number; nonnegative where monotonicity is claimed |
| C103 | Photon balance of a layered target | proved | C102 and the fundamental theorem of calculus in each layer | `C103_balance`, `C103_bounds` | at each energy; the integral over the energy of the notebook is not interchanged with the one over the depth |
| C104 | Thin-target approximation | proved | pointwise bounds on exp, monotonicity of the inner integral in the depth | `C104_thin_target` | quadrature by the exact integral |
| C105 | Self absorption | proved | closed form of the inner integral, strict monotonicity of integrals, minimum of σ on the interval; scatterer: comparison with the cross section at which the absorption equals its average | `C105_self_absorption`, `C105_li6` | quadrature by the exact integral; the first theorem holds for any resonance with a positive continuous cross section; the coverage must exceed 3.8e-8 divided by the width in MeV |
| C106 | Molar mass for a given enrichment | refuted, partial | refuted (argument ignored); `_partial`: identity at the mean, error elsewhere | `C106_refuted`, `C106_partial` | false: the function ignores its argument and uses the mean enrichment; right at the mean enrichment, error formula elsewhere |
| C107 | Broader levels absorb more | proved | g·L(E; g) is increasing in g for the Lorentz curve L, strict under the convolution integral | `C107_width` |  |
| C108 | Expansions of the effective temperature | proved | Bose integral as geometric series with zeta(4); coth inequality by four derivatives; limits by squeezing | `C108_cold_bound`, `C108_hot_bound`, `C108_leading_terms` | exact integral instead of scipy.integrate.quad |
| C109 | Compton scattering at low and high energies | proved | angular integral expanded with rational bounds of the Klein-Nishina integrand; limits of the closed formula | `C109_low_energy`, `C109_thomson_differential`, `C109_high_energy`, `C109_vanishes` | exact reals: the cancellation of the closed formula at low energy in floats is not modelled |
| C110 | Evaluation on arrays changes no array and works entry by entry | proved | store of arrays with allocation and in-place addition; frame and freshness invariants of the accumulation loop; pointwise refinement by induction over the tree | `C110_arguments_kept`, `C110_classes_keep`, `C110_result_new`, `C110_pointwise`, `C110_classes`, `C110_grid_keeps`, `C110_darboux` | store model with in-place +=; scipy and numpy functions return new arrays (trusted); Compton and tabulated cross sections at positive energies |
| C111 | Lists of energies are accepted like arrays | refuted, partial | same store model with lists: the first operation on a list raises for the refuted classes | `C111_refuted`, `C111_partial` | refuted: TypeError on lists in relative mode (all resonances), for Voigt and for Compton; holds for the other classes with absolute energies and for sums of them |
| C112 | Relative energies as documented | refuted, partial | C26 at E = 0 | `C112_refuted`, `C112_partial` | refuted: the sign in the documentation is wrong, the code returns the cross section at E + E_r, i.e. the value for E - E_r is the cross section at E |
| C113 | Equal-probability grids in floating point | refuted, partial | rounded linspace between rounded probabilities, quantiles rounded; tail bound of the normal distribution; monotonicity and error bound of the rounded grid (C93) | `C113_refuted`, `C113_above`, `C113_partial` | refuted: if both limits lie nine standard deviations above a Gauss resonance, all points between the first and the last are infinite (the source overwrites only the ends); holds if the range contains a probability of at least 1.3e-15 per interval, with an explicit error bound. cdf and ppf are assumed correctly rounded |
| C114 | The Compton edge has a scattering angle | refuted, partial | kinematics with a rounding after every operation; evaluation of rounding to nearest on concrete numbers; error analysis of the computed cosine | `KN.C114_refuted`, `KN.C114_nan`, `KN.C114_partial` | refuted: with the CODATA 2018 electron mass and 3.5 MeV the computed cosine at the computed Compton edge is below -1, so theta and cs_diff_dEp are nan; holds with an explicit error bound a few rounding errors away from the edge |
| C115 | Isotopes keep their excited states | refuted, partial | store of containers, `x or []` with Python's truth values; freshness by induction over the sequence of constructions | `Iso.C115_refuted`, `Iso.C115_partial`, `Iso.C115_own_list_partial` | refuted: an array with two states raises ValueError, and a container that is still empty is silently replaced by a new list; holds for lists and dictionaries with at least one state and for the default |
| C116 | Darboux sums bracket the integral in floating point | proved | induction over the summation tree with relative errors; exact bracket of C61 | `C116_rounded_bracket` | explicit bound; np.sum is any binary summation tree that uses every summand once; overflow and underflow not modelled |
| C117 | Tabulated cross sections in floating point | refuted, partial | error analysis of log10, linear interpolation and power for any monotone rounding; separation of the shipped energies checked in the kernel | `C117_refuted`, `C117_nodes_partial`, `C117_partial`, `C117_below`, `C117_above`, `C117_shipped_nodes`, `C117_shipped_between_partial` | False of the code at energies directly below an absorption edge, where the computed logarithms of the energy and of the edge are equal: the value above the edge is returned. Proved otherwise, with explicit error bounds, and for all shipped tables with 1e-12 (transmission through them: C195); overflow and underflow not modelled. |
| C118 | Compton kinematics and differential cross sections work entry by entry on arrays | proved | `Model/KNArrays` writes the functions with numpy operations on the array store of `Model/Arrays`; a small calculus (`Computes`) carries the values of entries, lengths and the freshness of results through each operation | `C118_angles`, `C118_energies`, `C118_lengths`, `C118_list_of_energies` | scattered energies that are possible (numpy returns nan elsewhere); energies given as a list are a TypeError, although documented as array_like |
| C119 | One quantile in an array is treated like the number | refuted, partial | `PV.ppfOne` follows the scalar branch of `scipy.optimize.newton` and the test `False not in` on its result, with the version of scipy as a parameter | `C119_refuted`, `C119_partial` | refuted for versions of scipy in which RootResults is no dictionary: TypeError; holds for the others, and whenever the fallback is used |
| C120 | Quantiles of the pseudo-Voigt distribution are accurate in floating point | proved | `Model/RoundedNewton` rounds every operation of the search; a converged step bounds the last correction, which bounds the residual through the slope of the distribution function | `C120_number`, `C120_array`, `C120_exact` |  |
| C121 | The documented value of hbar c is used throughout | refuted, partial | `Model/Constants` has the tables of constants and the names that the code looks up; the cross section scales with the square of the constant | `C121_refuted`, `C121_partial` | False of the code: Compton cross sections use the constant of CODATA 2014 under its old name; the deviation is between 1.6e-8 and 1.7e-8 for all energies. Resonances use the documented value (with CODATA 2018 or later; before, they cannot be constructed) |
| C122 | An installation contains what the library needs and nothing else | refuted, partial | `Model/Package` models package discovery, the patterns of `MANIFEST.in` and relative paths; the file list is checked by the kernel, larger source directories by monotonicity | `C122_refuted`, `C122_partial` | False of the code: a top-level package named tests is installed as well; everything the library needs is installed |
| C123 | The examples in the documentation work | refuted, partial | `Model/Docs` interprets the scripts on the module variables of `Model/XrmacModule` and `Model/Elements` | `C123_refuted`, `C123_partial` | False of the code: the example for attenuation coefficients imports a name that does not exist; the others work, and so does this one with the right import |
| C124 | Attributes changed after construction | refuted, partial | `Model/Edits` gives the objects all their attributes and lets programs assign them; induction over the assignments | `C124_refuted`, `C124_compton_partial`, `C124_states_partial`, `C124_thermal_partial`, `C124_resonance_partial`, `C124_resonance_refresh`, `C124_resonance_order`, `C124_integral_partial` | False of the code: derived attributes are computed once, so the number of electrons, abundances and partial widths can be changed without effect on cross section, mass and total width. Proved: exact factor between an edited and a new Compton object and when it is 1, branching ratios after edits and when they add up to 1, the claim itself for thermal motion, what edits of a resonance change and how to bring a Breit-Wigner resonance up to date |
| C125 | Pseudo-Voigt values are accurate in floating point | proved | `Model/RoundedPV` rounds every operation, also the exponent 0.2; relative errors through the fifth root, cancellation in the mixing parameter bounded, Gauss component compared with the Cauchy component | `C125_near`, `C125_everywhere` | Overflow and underflow: C155_pseudo_voigt. |
| C126 | Pseudo-Voigt and Voigt cross sections agree within 1.2 % | refuted, partial | second differences of the normal density bounded by a rational function whose integral against the Cauchy density is again a Cauchy integral; normal densities of different scale; bounds on the width and mixing polynomials | `C126_refuted`, `C126_partial` | refuted: where the natural width is at least twice the Doppler width, also at temperature zero, the pseudo-Voigt maximum exceeds the Voigt maximum by at least 40 % (the Cauchy component has half the documented width). Proved: deviations from Voigt and Gauss are bounded by a multiple of natural width over Doppler width, uniformly in the energy |
| C127 | Grids with one point or none | refuted, partial | `setEnds` and `linspace` for 0 and 1 points; for arbitrary length-preserving distributions | `C127_refuted`, `C127_any_distribution`, `C127_sum_refuted`, `C127_partial` | refuted: one-point probability grids of resonances are the upper limit, energy grids the lower limit; without points IndexError instead of an empty grid; a sum returns two points for one |
| C128 | The Darboux sums returned are true lower and upper sums | proved | Spec in Props/DarbouxTrue: partition sums with `sInf`/`sSup` of the image of each closed interval; proof by comparing min/max of end values with infimum/supremum piece by piece, equality by uniqueness of a sum of nonnegative terms. | `C128_bounded`, `C128_monotone` | true lower and upper sums defined with infima and suprema over the closed intervals, independent of the loop; equality characterised |
| C129 | All cross-section classes can be called with the same argument names | refuted, partial | Model of Python argument binding (positional, keyword, defaults) and of the signatures along the method resolution order (Model/Signatures); finite tables for the classes, binding proved for all argument values. | `Sig.C129_refuted`, `Sig.C129_no_common_keyword`, `Sig.C129_partial`, `Sig.C129_agree_partial` | refuted: the parameters are called E or energy, limits or coverage_or_limits, n_points or n_points_per_cross_section depending on the class; proved: positional calls work for every class, and two classes accepting the same call bind the same values |
| C130 | The partitioned quadrature accepts the documented shape of the partition | refuted, partial | Model/QuadPartition, partition as a vector or a matrix of rows; `len` counts rows. Negation for all inputs, additivity over concatenated partitions. | `C130_refuted`, `C130_wrong_by_integral`, `C130_partial`, `C130_columns` | refuted: a partition of shape (1, n) has length 1, nothing is integrated and (0, 0) is returned; proved: one-dimensional partitions, where parts sharing a point add up (see also C67); columns are treated like vectors, several rows with several entries are rejected |
| C131 | Rounding errors of partitioned quadratures are bounded by the number of pieces | proved | Model/QuadPartition, loop with rounded operations; induction over the partition with the accumulated value and its magnitude. | `C131_integral`, `C131_error`, `C131_exact`, `C131_true_error` | rounding as any function with relative error at most u (no overflow, no subnormal results); the results of nquad are taken as given |
| C132 | Reactions in a thick target | proved | Model/Beam and the count rate of Model/Notebooks; strict subadditivity of 1 - exp(-x) under the integral; for the maximum, monotonicity of t exp(-tZ) up to t = 1/Z and continuity of the line shape. | `C132_doubling`, `C132_hole`, `C132_absorption_maximum` | count rate of the notebook with exact integrals; constant nonresonant cross section for the minimum and the maximum |
| C133 | Order of the limits of a grid | proved | Every distribution used (including the Newton iteration for the pseudo-Voigt quantiles) commutes with reversing its list argument; `np.unique` does not depend on the order. | `C133_probability_grid`, `C133_energy_grid`, `C133_sum_grid`, `C133_one_point` | for a single point the last limit is returned (cf. C127), which is why it is excluded |
| C134 | Finer grids contain the coarser ones | proved | `linspace` with k(m+1)+1 points is an array whose every k-th element equals the one of the coarse array (also for infinite ends); the line shapes work element by element; for the sums, every interval of the coarse grid is split and the values on both sides of the maximum are monotone. | `C134_probability_grid`, `C134_energy_grid`, `C134_sum_grid`, `C134_darboux` | probability grids of pseudo-Voigt and Voigt resonances excluded: their quantiles are searched for the whole array at once and agree only up to the tolerance of the search |
| C135 | Limits of the self absorption | proved | Integrals of the absorption compared pointwise with the value at the minimum and maximum of the cross section; the Voigt profile is bounded by the peak of the Breit-Wigner profile and by the peak of the normal distribution. | `C135_bounds`, `C135_li6` | exact integrals instead of the quadrature |
| C136 | Without Doppler broadening the self absorption does not depend on the width | proved | Substitution E - E_r = Γ x: the cross section and the coverage interval scale with Γ. | `C136_cold` | exact integrals instead of the quadrature |
| C137 | Recoil, Doppler widths, temperatures and element masses are accurate in floating point | proved | Model/RoundedThermal: products of relative errors (no subtraction occurs in these formulas); induction over the list of isotopes and over the summation tree. | `C137_recoil`, `C137_doppler`, `C137_temperature`, `C137_roundtrip`, `C137_element_mass` | Standard model of floating-point arithmetic; no overflow or underflow by C155. |
| C138 | A failed inversion is reported | refuted, partial | loop over an arbitrary sequence of draws with explicit lists and warnings (`Model/MonteCarlo`); invariant by induction over the passes; refuted without an absorber with the function R of the notebook | `C138_refuted`, `C138_partial` | False of the code: np.isclose adds a relative tolerance to the absolute one. Proved for all runs: the samples with a warning are exactly those that miss the measured value r by more than 1e-4 + 1e-5 |r|, and no sample is worse than the start value. |
| C139 | The inversion by minimization finds the width | refuted, partial | one-dimensional Nelder-Mead search written out (`Simplex`); invariant of the loop; witness: linear self absorption and a measured value in the middle; convergence by a progress measure over the place of the minimum relative to the simplex (`Lemmas/Simplex`) | `C139_refuted`, `C139_partial`, `C139_stops`, `C139_midpoint`, `C139_converges_partial`, `C139_width_partial` | False of the code: the search stops at once if the first two values are on both sides of the measured value at equal distances. Proved for every function: the result is not worse than the first two points; exact result when the criterion to stop is met at once. Proved for start values that are large compared to the tolerance: the search ends by its criterion and finds every minimum within six times the start value, up to twice the tolerance. Consequences for the widths: C196, C197. |
| C140 | Progress messages keep up | refuted, partial | invariant of the loop by induction over the passes, exact messages for fewer than 100 samples | `C140_refuted`, `C140_few`, `C140_partial` | False of the code for fewer than 100 samples (exact messages given); proved for 100 samples or more. |
| C141 | Documented formulas are what the functions compute | refuted, partial | documented formulas transcribed in `Spec/DocFormulas`, compared with the modelled functions for all inputs | `C141_refuted`, `C141_compton_partial`, `C141_compton_energy_partial`, `C141_debye_partial`, `C141_thermal_partial`, `C141_integrated_partial` | False of the code or of the documentation: the documented energy-differential Compton formula lacks a division by the mass, the documented Debye formula has T/T_D in place of its third power, the documented velocity distribution is not normalized, and the documented pseudo-Voigt profile has its normal component at zero. Proved: the other formulas agree for all inputs, with the exact factor for the first two. |
| C142 | Coverages and limits of every numeric type | refuted, partial | argument by its Python type (`Model/LimitTypes`), case by case for all shapes | `C142_refuted`, `C142_scalar`, `C142_no_endpoint`, `C142_partial` | False of the code: coverages of numpy types other than float64 raise an IndexError, a constant accepts a single limit (and returns 50 points up to the number of points) and takes a third integer for the number of points. Proved for every shape: Python numbers and np.float64 are coverages, the first two entries of a sequence are the limits. |
| C143 | Integrals over the grid of a sum of cross sections converge | proved | distance of neighbouring points of the union is at most the one of a constituent; induction over the nesting of sums; C86 | `C143_converges`, `C143_rate`, `C143_inside`, `C143_pseudo_voigt` | Pseudo-Voigt resonances are covered as further constituents under the conditions of C82. |
| C144 | Reaction rates in the layers of a target | proved | Fubini on the range of energies times the layer, the inner integral by its antiderivative; then comparison of the integrands | `C144_single`, `C144_layers`, `C144_shadow`, `C144_notebook` | for cross sections that return nonnegative numbers in the range of energies, among them Voigt profiles with the shipped table of tin; numerical quadrature is modelled by the exact integral |
| C145 | Widths from half lives, areal densities from masses | proved | real algebra with `exp` and `log` | `C145_half_life`, `C145_areal_density` |  |
| C146 | Effective temperatures of all elements in the Debye table | refuted, partial | table look-up decided in the kernel, the bounds from C36 | `C146_refuted`, `C146_partial` | False of the code: 14 entries of the table, for example hydrogen, are None, which raises TypeError. Proved for exactly the other entries. |
| C147 | Dictionaries named in the documentation can be imported | refuted, partial | names of the modules after import (model of C123); case analysis over modules, for all data files | `C147_refuted`, `C147_partial` | False of the code: natural_element_densities does not exist in any module with data. The other four dictionaries can be imported. |
| C148 | Darboux sums accept a partition in either direction | refuted, partial | exact real Darboux sums; the descending case is reduced to the ascending one by reversal | `C148_refuted`, `C148_partial` | Refuted: on a descending partition the first number is an upper bound and subtracting the second gives a lower one; the documented bounds hold for continuous functions exactly if the two sums coincide. |
| C149 | Every cross section can be integrated with Darboux sums over its own grid | refuted, partial | array evaluation of `Model/Arrays` composed with `Model/Darboux` | `C149_refuted`, `C149_iff` | Refuted: a constant cross section evaluates to one number, which darboux rejects with a TypeError. Exact condition: the expression contains something else than constants. |
| C150 | Equal-probability grids of nonresonant cross sections have equal shares | refuted, partial | equidistant grid; the total Compton cross section is strictly decreasing (C44), so shares are compared by translation of the integrals | `C150_refuted`, `C150_partial` | Refuted: the grid of every nonresonant cross section is equidistant in energy; for Compton scattering the shares strictly decrease. Constants have equal shares; bounds for decreasing cross sections. |
| C151 | User-defined probability distributions | refuted, partial | contract of a continuous distribution in `Spec/UserDist`; monotone distribution function, measure-theoretic integrals; Student's distribution as counterexample | `C151_value`, `C151_limits_grid`, `C151_coverage_grid`, `C151_refuted`, `C151_partial` | Values, integrals and both kinds of grid are proved for every continuous distribution. Refuted for coverage intervals: cdf(0.0) is called without the parameters, which raises a TypeError for distributions with shape parameters once the lower limit is negative. |
| C152 | A weighted sum does not depend on the lists it was built from | refuted, partial | store model `Model/Heap`; a weighted-sum cell keeps the addresses of the lists | `Heap.C152_refuted`, `Heap.C152_exact`, `Heap.C152_partial` | Refuted: the lists are kept by reference. Exact: the sum always reads the current contents of the two lists. An empty list of reactions is replaced by a new one. |
| C153 | Coverage intervals are finite in floating point | refuted, partial | rounded arithmetic after every operation, correctly rounded quantile functions | `C153_refuted`, `C153_partial`, `coverageIntervalR_exact` | Refuted: for 1 - 2^-53 the sum 1.0 + coverage rounds to 2 and the upper limit is infinite. Proved with error bounds up to a coverage of 1 - 6 u. |
| C154 | Number of points of the grid of a sum | proved | cardinalities of unions of finite sets; `np.unique` as sorting without duplicates | `C154_size`, `C154_same`, `C154_nonresonant` |  |
| C155 | No overflow or underflow spoils a physical cross section | proved | The rounded model of C84, C94, C95, C125, C137, C198 and C202 with an arithmetic about which nothing is assumed for results that overflow or underflow. Every intermediate result is bounded by powers of two (`Same`, an interval calculus for exponents), hence the arithmetic can be replaced by one that is accurate everywhere. Differences in the Klein-Nishina brackets, and one minus the mixing parameter of pseudo-Voigt profiles, are multiples of a power of two; so is a computed cosine that is at least one half (an assumption on the arithmetic). Double precision numbers near pi and pi/2 are told apart from them by twenty digits of pi. | `C155_breit_wigner`, `C155_gauss`, `C155_recoil`, `C155_doppler`, `C155_klein_nishina`, `C155_pseudo_voigt`, `C155_voigt`, `C155_compton_angle`, `C155_compton_polarized`, `C155_compton_energy`, `exRange_accurate`, `exRange_not_accurate`, `exRangeKN_accurate`, `exRangePV_accurate`, `exRangeT_accurate`, `exRangeT_angles` | Gauss up to 14 Doppler widths from the resonance, Klein-Nishina between 2^-19 and 2^59 masses. An arithmetic with gradual underflow and arbitrary results after overflow meets the hypotheses (exRange_accurate), but not those of C94 (exRange_not_accurate). Pseudo-Voigt where the normal component is at least e^-200 of its maximum, widths between 2^-80 and 2^80 MeV. The error for polarized photons is small only compared with the cross section perpendicular to the polarization (C198). Per energy of the scattered photon, computed angles are assumed not to be very close to pi or pi/2, as in double precision (exRangeT_angles). Voigt with a routine for the profile that is accurate for arguments that are zero or between 2^-200 and 2^200; the intermediate results inside of this compiled routine are not modelled. |
| C156 | Equal-probability grids of Voigt resonances have equal shares | refuted, partial | same quantiles as the pseudo-Voigt resonance (C82); probabilities of intervals: Cauchy average of second differences of the normal cdf, Fubini; refuted at T = 0 | `C156_refuted`, `C156_partial`, `C156_limits_partial` | False at zero temperature: the points are quantiles of a Lorentz curve of half the width, so that the grid carries at most the fraction 2/pi*arctan(tan(pi c/2)/2) < c, for every c and n. Proved for natural widths that are small compared with the Doppler width: deviation at most 2.1 (coverage) or 4.2 (limits) times the ratio of the widths. Missing: the bound for natural widths of the order of the Doppler width. |
| C157 | Thermal motion spreads a resonance | proved | probability of a symmetric interval as an average of shifted Cauchy intervals over the normal distribution (Fubini), which shrink with the shift; width and mixing polynomials are monotone | `C157_gauss`, `C157_voigt`, `C157_pseudoVoigt`, `C157_maximum` | Intervals of pseudo-Voigt resonances are not claimed: the approximation of the width and the mixing parameter is not monotone far in the tails. |
| C158 | Full widths at half maximum | refuted, partial | values of both components at their half widths; for Voigt, averages over shifts of a pointwise inequality (cosh >= 1 for the normal, a rational inequality for the Cauchy density), existence by the intermediate value theorem | `C158_refuted`, `C158_breitWigner`, `C158_gauss`, `C158_voigt`, `C158_partial` | False of the code for pseudo-Voigt: the full width at half maximum is smaller than the width of the formula for every positive width of the level, and half of the width of the level at temperature zero, since the Cauchy component has half the documented width. Proved for the other shapes, and for pseudo-Voigt up to twice the width of the level. |
| C159 | Arrays of factors act entry by entry, from either side | refuted, partial | `Model/ArrayFactors`: values are numbers or one-dimensional arrays with numpy broadcasting and in-place addition; induction on the expression with the invariant that every object built is a constituent or a weighted sum whose scale factors fit; negations by computation for all cross sections | `C159_partial`, `C159_refuted`, `C159_mismatch`, `C159_order_refuted` | Holds for arrays on the right, for expressions of any depth and arrays of one length (C159_partial). False for arrays on the left: the product is an object array that cannot be evaluated (C159_refuted). False for the order of summands when an array has one entry: the sum is accumulated in place (C159_order_refuted). Other lengths raise ValueError (C159_mismatch). |
| C160 | Arrays of any shape are evaluated entry by entry | proved | `Model/NdArrays`: arrays are a shape and a function of the index, operators with the broadcasting rules of numpy; shapes form a partial order (can be stretched to) in which the broadcast shape is the join; induction on the function body and on the nesting of sums | `C160_broadcast`, `C160_classes`, `C160_compton`, `C160_sum` |  |
| C161 | Photon flux on a table of depths and energies | proved | `Model/NdArrays`: the class `BeamInTarget` on arrays; from the join property of broadcasting | `C161_flux`, `C161_table`, `C161_mismatch` |  |
| C162 | Absorption densities add up to the self absorption | proved | `Model/Notebooks`: derivative of the flux, fundamental theorem, Fubini; monotony of x·exp(-xρ) below and above 1/ρ | `C162_balance`, `C162_self_absorption`, `C162_shape` |  |
| C163 | Names in a program behave like values | proved | `Model/Programs`: statements executed on names and the store of `Model/Heap`; simulation of a denotational semantics on functions of the energy, by induction on the program, with the frame and refinement lemmas of C04 | `Heap.C163_programs`, `Heap.C163_alias`, `Heap.C163_accumulate`, `Heap.C163_difference` | Products of two cross sections are outside of the claim (C09); C163_alias covers them too. |
| C164 | Darboux sums respect the arithmetic of cross sections | proved | sums over consecutive pairs: induction over the partition, inequalities between minima and maxima of sums; composed objects via C149 | `C164_pieces`, `C164_sum`, `C164_add_number`, `C164_scale`, `C164_monotone` | induction over the partition; minimum of a sum is at least the sum of the minima |
| C165 | Scaling all energies scales the cross sections | refuted, partial | substitution in every formula of the model (partial widths, width, Doppler width, pseudo-Voigt parameters, Voigt integral, quantiles); refuted for the box of the base class | `C165_refuted`, `C165_partial`, `C165_grids_partial`, `C165_compton` | False of the base class, whose default distribution is a box of fixed width (1 MeV). Proved for Breit-Wigner, Gauss, pseudo-Voigt and Voigt resonances, including the exceptions. |
| C166 | Attenuation against energy: edges jump up, and it falls from the last edge to 4 MeV | proved | induction over the rows: the piecewise linear interpolation of the logarithms is strictly decreasing where consecutive rows decrease; jumps from C98 and the lexicographic order of the rows; the rows of the 92 shipped tables are compared by kernel evaluation | `C166_decreasing`, `C166_jump`, `C166_shipped`, `C166_beyond_refuted` | C166_decreasing and C166_jump hold for any sorted table; C166_shipped is about the dictionary xrmac_cm2_per_g after the import with the shipped files (rows compared by kernel evaluation). C166_beyond_refuted shows that the upper limit of 4 MeV is needed: lead absorbs 20 MeV photons more strongly than 4 MeV photons. Exact real arithmetic. |
| C167 | Angular distribution of Compton scattering | proved | the cross sections as polynomials in the energy ratio r; extrema from sin^2 + cos^2 = 1, monotonicity from the factorization of the difference of r^3 + r - 2 q r^2 at two ratios, with two explicit energies where q^2 > 3/4 | `C167_azimuth`, `C167_forward`, `C167_energy`, `C167_growth` | Exact real arithmetic. The sum over two perpendicular directions is the returned unpolarized cross section divided by pi (the factor of C45). The kinematics use the fixed electron mass (C46), the scale factor the mass of the object. |
| C168 | Darboux sums of arrays with several axes | refuted, partial | numpy's roll, slice, row assignment and broadcast on matrices written out; sum over an outer product factorizes, telescoping of the steps | `C168_refuted`, `C168_accepted_iff`, `C168_partial`, `C168_axes_rejected`, `C168_axes_accepted_iff`, `C168_axes_refuted` | Refuted: a partition given as a column (n, 1) is accepted together with any non-empty row of values and gives the sum of all minima times the length of the range, for a constant as many times the integral as there are intervals between the values. C168_accepted_iff lists all matrices accepted with a vector of values. Holds: functions on matrices and matrices of values are rejected, except for a column with two entries, which is treated like a vector. C168_axes_*: the same for any number of axes (only the last one has to fit; shape (2, 1, ..., 1) is the only accepted shape of values with more than one axis). |
| C169 | Resonances far from their maximum | refuted, partial | pointwise bounds of the average of two mirrored Lorentz curves, integrated with the second and fourth moment of the normal distribution (integration by parts); limits by squeezing | `C169_refuted`, `C169_voigt`, `C169_gauss` | Refuted for pseudo-Voigt: the ratio to the Breit-Wigner and to the Voigt cross section tends to a number between 1/2 and 0.69 at every temperature (1/2 at temperature zero), since the Cauchy component has half the documented width. Proved for Voigt with explicit bounds: at most the fraction 3 Delta^2/Gamma^2 more and 2 Delta^2/(4 (E-E_r)^2+Gamma^2) less than Breit-Wigner at any energy, and a deviation that falls like 1/(E-E_r)^2. |
| C170 | Compton spectra can be integrated with Darboux sums | refuted, partial | values that may be nan: one nan makes both sums nan (induction over the partition); with finite values the sums are those of `darboux`, which converge by C86 to the integrals of C42 and C43 | `C170_refuted`, `C170_partial`, `C170_equidistant` | Refuted: a partition that contains an energy below the Compton edge (for example 0) or above the energy of the photon gives nan for both sums. Proved for partitions that start at the Compton edge, and for the angles. Exact arithmetic; the computed Compton edge itself may give nan (C114). |
| C171 | States given in the wrong order are rejected | proved | a level scheme as documented (names used once, widths to lower-lying levels only) and the characterisation of construction in C24 | `C171_constructed`, `C171_rejected`, `C171_one_order`, `C171_ordering_needed` | The hypothesis is the documented meaning of partial_widths; C171_ordering_needed shows a resonance at a negative energy with positive cross sections when a dictionary names a higher-lying state. The positive resonance energy is for the classes without recoil correction. |
| C172 | Self absorption of thin targets | proved | quotient of integrals with x - x^2/2 <= 1 - exp(-x) <= x; the upper bound for thick scatterers from the monotonicity in C105; antiderivative of the squared Cauchy density, the squared normal density is a normal density | `C172_thin`, `C172_limit`, `C172_breit_wigner`, `C172_gauss` | Integrals are exact, as in C105. |
| C173 | Every unphysical coverage interval is announced to the user | refuted, partial | The registry Python keeps of printed warnings as a list of texts, a program as a list of calls; induction over the calls, the number in the text from C18. | `C173_exact`, `C173_once`, `C173_refuted`, `C173_partial`, `C173_different_numbers` | Refuted with the usual treatment of repeated warnings: a text is printed once per program, and as the number in the text is always 50 for Breit-Wigner and Gauss resonances (C18) all their warnings have the same text; at most one of them is ever printed, whatever the resonances (C173_once), and for any two of them a second unphysical interval goes unannounced (C173_refuted). Proved: exactly which warnings are printed (C173_exact), the first one is, all of them are with the action 'always' (C173_partial), and two with different numbers are (C173_different_numbers). |
| C174 | No cross section exceeds the unitarity limit | refuted, partial | Integrated cross section as the limit times pi/2 times widths; maxima of the shapes; the Voigt maximum falls with the temperature. | `C174_refuted`, `C174_breit_wigner`, `C174_voigt`, `C174_gauss_iff`, `C174_pseudo_voigt_cold`, `C174_partial` | Proved for Breit-Wigner (with the exact condition for reaching the limit) and Voigt. False for Gauss exactly if the Doppler width is below sqrt(pi)/2 times partial width times branching ratio (C174_gauss_iff; at room temperature for a 10 eV state, C174_refuted), as the shape ignores the natural width; false for pseudo-Voigt, which reaches twice the limit without thermal motion because of the halved width of its Cauchy component (C32), and never more than that (C174_partial). |
| C175 | A reaction and its reverse obey reciprocity | proved | Formulas of both constructions from one dictionary of partial widths; shift or scaling of the densities. | `C175_integrated`, `C175_reverse_exists`, `C175_breit_wigner`, `C175_gauss` | For Gauss the lines have widths proportional to the photon energies, therefore the comparison is at equal ratios of energy and resonance energy. |
| C176 | Tabulated attenuation and Compton scattering are consistent | refuted, partial | Import of the shipped files as in C73; the logarithm in the Klein-Nishina formula is enclosed between rational bounds at 36 energies, all rows of all tables are compared with them by the kernel, and the comparison is extended to all energies because the cross section decreases, but more slowly than 1/E (C44), and the tabulated energies are at most a factor 1.5 apart. Refuted for the elements whose mass is read as zero. | `C176_refuted`, `C176_partial`, `C176_hydrogen` | C176_refuted: the attenuation of an aluminium atom is zero at all energies (mass of elements with one isotope is read as zero, C58). C176_partial: the 62 elements with a nonzero mass: at every tabulated energy and outside of the table at least 0.9999 of Klein-Nishina, in between at least 0.8999 of it. C176_hydrogen: agreement within 0.3 % at the tabulated energies between 20 keV and 2 MeV. Missing: the 30 elements for which it is false; 0.01 % between the tabulated energies. |
| C177 | Tables that contain the energy zero | refuted, partial | np.interp with its second formula for nan written out in IEEE arithmetic on reals, infinities and nan; cases at a node at minus infinity, induction over the rows for energy zero. | `C177_refuted`, `C177_partial`, `C177_at_zero`, `C177_zero_value`, `C177_positive_energies` | False if the value at zero energy is zero: the result is nan at every energy between zero and the next one (C177_zero_value; concrete table in C177_refuted). Proved for positive values: the row counts at zero only, at every positive energy the result is that of the table without it (C177_partial), hence the next tabulated value below the first positive energy. C177_positive_energies: the formulas of numpy in IEEE arithmetic agree with the interpolation used in the other properties for all tables of positive energies. |
| C178 | Coverages outside the interval from 0 to 1 | refuted, partial | refuted with concrete resonances; quantile functions outside [0, 1] by cases; no component of the Newton iteration converges for an impossible quantile (invariant of the loop), unless the first step is below the tolerance | `C178_refuted`, `C178_refuted_finite`, `C178_partial`, `C178_negative`, `C178_pseudoVoigt_wide`, `C178_pseudoVoigt_narrow` | False: nothing is raised. Coverages beyond 1 (or below -1): the box, Breit-Wigner and Gauss resonances return two nan without a warning, and an equidistant grid consists of nan (C178_partial, all parameters; C178_refuted for 95). Pseudo-Voigt and Voigt resonances return nan if (|c| - 1) times the width is at least 3.8e-8 MeV (C178_pseudoVoigt_wide), but finite limits if |c| times the width is at most 2.7e-8 MeV (C178_pseudoVoigt_narrow; C178_refuted_finite: coverage 1.3, width 20 meV). Negative coverages between -1 and 0: the limits are exchanged (C178_negative, Breit-Wigner and Gauss). Not covered: pseudo-Voigt widths in between and negative coverages there. |
| C179 | Masses of natural elements agree with the standard atomic weights | refuted, partial | The column of standard atomic weights of the shipped file is parsed by a reader of its own (intervals `[a,b]` and values `v(u)`), and compared by a kernel computation with the exact masses of the elements that the model of the import creates | `C179_partial`, `C179_single_isotope`, `C179_refuted` | Refuted for the 22 elements with a single isotope of abundance 1 (aluminium, gold, ...): their abundances add up to zero and their mass is zero, although the mass of the isotope in the file agrees with the listed weight. Proved for the other 62 elements with a tabulated composition; the remaining 34 have no listed weight. |
| C180 | Effective temperatures are accurate in floating point | proved | The function with every operation rounded. Each computed integrand has nine relative errors and an absolute one from the cancellation, bounded by the integrand over t; the sum of the latter is compared with the integral by monotonicity of t^2 phi(t); the error of the upper limit by the scaling behaviour of the integral | `C180_accuracy`, `C180_bounds` | Relative error at most 3 eps + 40 u + 50 u T/T_D, where eps is the relative error of the quadrature (assumed to be a sum with nonnegative weights over nodes that are at least 100 u). No overflow or underflow. |
| C181 | Small errors of the input cause small relative errors of the cross sections | proved | The logarithm of the Lorentz profile is Lipschitz with constant 1/gamma, its product with gamma grows at most quadratically; both carry over to the convolution with a Gauss profile. For the Doppler width the comparison is made between the Gauss kernels. Compton: E times the cross section increases (C44_growth and its differential version). Upper bound for Voigt wings: weighted mean inequality under the integral, Jensen's inequality. | `C181_energy`, `C181_gauss_energy`, `C181_width`, `C181_voigt`, `C181_voigt_wings`, `C181_gauss`, `KN.C181_compton` | Exact arithmetic. C181_gauss_energy shows that the bound for a shift of the energy fails for Gauss resonances in the wings, C181_gauss that there is no upper bound in the wings when the temperature changes. |
| C182 | Unphysical parameters are not turned into a cross section | refuted, partial | Model of construction and evaluation in which the square root of a negative number is nan (Model/Unphysical.lean), shown to agree with the other model where mass and temperature have the same sign (value_eq_build); case analysis on the class | `C182_refuted`, `C182_refuted_width`, `C182_partial`, `C182_gauss` | False of the code: nothing is checked, only the ratio of temperature and mass enters, so a negative mass with a negative temperature gives the cross section of their absolute values, and a Gauss resonance of a level with a negative width is negative. Proved: a vanishing mass raises, one negative sign of two gives nan for all Doppler-broadened shapes, a width that is not positive gives nan for Breit-Wigner; exact condition for Gauss. Voigt profiles with negative widths are not modelled. |
| C183 | Attenuation beyond the last absorption edge follows a tame power law | refuted, partial | `Props/XrmacPower`; an affine map of the nodes maps the interpolation, so multiplying rows by powers of the energy reduces the limits of the slope to the decrease of C166; rows of the 92 files by evaluation (`Lemmas/ShippedXrmacEdges`) | `C183_partial`, `C183_refuted`, `C183_refuted_steep`, `C183_power`, `C183_fall`, `C183_rise` | Refuted by two shipped tables: the coefficient of thulium rises from 12.00 at the K edge (0.0593896 MeV) to 14.09 at 0.06 MeV, and the one of chromium falls from 597.7 to 516.0 between its K edge (0.0059892 MeV) and 0.006 MeV, faster than the power -81 of the energy. Proved for all other elements (in molybdenum the power is 5 instead of 16/5, since the energies of two rows differ only in the last digits), including decrease for chromium and the limited fall for thulium. The general theorems say that log-log interpolation commutes with power laws. |
| C184 | Heavier atoms attenuate more | refuted, partial | `Props/HeavierAtoms`; interpolation is strictly monotone in the values of the nodes and depends only on the nodes around the energy; the order of the rows of neighbouring elements by evaluation (`Lemmas/ShippedHeavier`), of all pairs by transitivity | `C184_partial`, `C184_refuted`, `C184_tables` | Refuted: the attenuation of an aluminium atom (13) is zero at all energies, the one of a magnesium atom (12) is not, because masses of elements with a single natural isotope are read as zero (C58). Proved for all pairs among the 62 elements with a nonzero mass. |
| C185 | Partitioned quadrature of a resonance on its own grid | proved | the pieces of the grid have equal integrals by C11/C12, the product integrand factorises the iterated integral by induction on the further coordinates, and the error bound of C69 applies; for sums the grid is sorted from the lower to the upper limit (C143) | `C185_limits`, `C185_coverage`, `C185_exact`, `C185_sum` | combination of the resonance grids (C11, C12), the closed-form integral (C19) and the partitioned quadrature (C67, C69) with any number of further coordinates |
| C186 | How much of a resonance lies between limits | proved | arctan x <= x for the Cauchy distribution; the shifted normal density is dominated by the density itself; the Voigt distribution is an average of moved Cauchy distributions over the normal one, cut at half the distance; pseudo-Voigt is a mixture with fraction at most 1.37 Gamma / gamma of the Cauchy component | `C186_breit_wigner`, `C186_gauss`, `C186_voigt`, `C186_pseudo_voigt`, `C186_quadrature` | bounds of the tails for all four shapes; the example of tests/test_integration.py is an instance (Validation.lean) |
| C187 | The quantile search of the pseudo-Voigt distribution converges in floating point | proved | Lemmas/NewtonNoisy: below the centre the CDF is convex; a disturbed Newton step either multiplies residual times density by at most 0.261 or starts close to the quantile, and then the next point is close as well. After 49 steps both alternatives give a step below the tolerance. Quantiles above the median by reflection. Lemmas/NoisySearch, NoisySearchPV: error of a computed step, bounds of the density and of the distance to the quantile for the pseudo-Voigt distribution. Lemmas/NoisyCentre: searches for quantiles next to the median stay within 2e-9 MeV of the centre if the widths add up to 1e-7 MeV or more. The condition on the rounding errors is sufficient, not necessary. | `C187_array`, `C187_number`, `C187_every_array`, `C187_every_number` | Model/RoundedNewton; the fallback is a parameter. Example: double precision, correctly rounded functions, 2.5 MeV, quantiles 0.01, 0.5, 0.99. |
| C188 | Pseudo-Voigt coverage intervals and grids in floating point | proved | C187_every_array applied to the computed quantiles, Lemmas/RoundedPVGrid for the errors of linspace and of the coverage quantiles; shares by the triangle inequality for the distribution function; a positive share means increasing points. | `C188_coverage_interval`, `C188_coverage_grid`, `C188_limits_grid`, `C188_increasing`, `C188_increasing_coverage` | Model/RoundedPVGrid: the same code as in C113 (probGridF_rounded, coverageIntervalF_rounded) with the rounded search of C187. Example: double precision, correctly rounded functions, a level at 2 MeV, coverage 0.95. |
| C189 | Integrating a resonance over its own grid in floating point | proved | Construction (C94, C95), grid (C113 with the rounded width; a distribution function changes by at most 0.31 |t - 1| when its argument is scaled by t), values and rounded Darboux sums (C66, C84) are composed; the sums are compared with the integral through the total variation of a peaked function. Pseudo-Voigt: grid from C188 (increasing), values from the accuracy of the density. | `C189_breit_wigner`, `C189_gauss`, `C189_pseudo_voigt` | End-to-end bound of both computed Darboux sums on the computed grid: |L - I| <= G + gamma (I + G), with G the error of m + 1 intervals (including the misplaced grid points) and gamma the relative error of values and summation. Breit-Wigner and Gauss shapes; scipy's distribution functions are assumed to be rounded correctly, as in C113. Pseudo-Voigt shape: distribution with the errors of C187 and C188, exact energy-integrated cross section. |
| C190 | Sums of cross sections integrate correctly over their common grid in floating point | proved | The specification `Resolves` says that computed values have a relative error ε and that every choice of end points on every refinement of the grid of a constituent gives its integral up to B. C190_sum proves by induction on the constituents that weighted sums inherit it (np.unique keeps all points, resolutions add up); C190_integral combines it with the rounded Darboux sums. Constituents: Breit-Wigner, Gauss, pseudo-Voigt (grids and values of C188/C189), Compton scattering (values of C84), constants, any nonresonant cross section of bounded variation. | `C190_sum`, `C190_integral`, `C190_points`, `C190_constant`, `C190_nonresonant`, `C190_compton`, `C190_breit_wigner`, `C190_gauss`, `C190_pseudo_voigt` | C190_sum is the closure of the specification `Resolves` under weighted sums (hence under nesting), C190_integral the error of both Darboux sums, C190_points the size of the common grid; the remaining theorems provide the constituents. |
| C191 | Grids, coverage intervals and integrals of Voigt resonances in floating point | proved | `Model/RoundedVoigt`: the computed distribution object overrides only the density. Grids and intervals are those of the pseudo-Voigt resonance (C188), whose shares differ from the Voigt shares by at most 2.1 w/d (C83, C156); the lengths of the intervals follow from their pseudo-Voigt shares and the smallest pseudo-Voigt density between the limits, and a peaked function is resolved by short intervals (`refined_lengths`); rounding as in C190. Instance: 20 meV level in double precision, 41 points. | `C191_coverage_interval`, `C191_limits_grid`, `C191_resolves`, `C191_integral` | the computed distribution function, densities and the fallback are arbitrary functions with bounded errors; quantiles are those at which the search of C187/C188 converges; C202_density bounds the error of the computed densities |
| C192 | Tabulated attenuation in floating point is the interpolation of the table | proved | The rounded interpolation formula is within 12 u M of the exact formula through the computed nodes (`lerpR_close`), and that formula moves by at most dy + 2 dx S when the nodes move by dx and dy (`lerp_stable`): the interpolation weight times the distance of the nodes changes by at most 2 dx. The steepness S is at most 100 in all shipped tables (`shipped_steep`, kernel evaluation of all rows, Bernoulli's inequality). Above the last edge, energies that rounding moves across a row are compared through the power law bounds of C183 with exponent 100. Instances: three rows on a power law, hydrogen at 5/4096 MeV, lead between 1 and 4 MeV. | `C192_table`, `C192_shipped`, `C192_above`, `C192_resolves` | computed logarithm and power are arbitrary functions with relative errors of at most 1e-15 (the logarithm monotone); no overflow or underflow; conversion of units by a factor is not part of the rounded model |
| C193 | The attenuated photon flux and the absorption rates are reliable for thick targets, also where the flux underflows | proved | Rounded versions of `Phi`, `alpha`, `dN_*` and `BeamInTarget` (Model/RoundedFlux); an error of the optical thickness s relative to s changes exp(-s) by at most that relative error since s exp(-s) <= 1/2; factors in [0, 1] are multiplied with absolute errors, boundaries are monotone and idempotent under rounding. | `C193_flux`, `C193_rate`, `C193_beam`, `C193_layers` | Floating point with underflow as a monotone rounding with relative error u plus absolute error omega; overflow excluded. In the layers, the depth has to lie behind both the exact and the computed boundary. |
| C194 | The self absorption is as accurate as the quadrature relative to the number of absorbed photons | proved | `Model/RoundedSelfAbs` with an arbitrary quadrature; `Spec/Quadrature` states the promise; error of a ratio of two integrals, of which one is not larger than the other; sharpness with the upper integral, changed by the tolerance at one integrand. | `C194_quadrature`, `C194_sharp`, `C194_thin`, `C194_li6` | scipy's quad is represented by its documented tolerances, for integrands evaluated with bounded errors; what its rule of 21 points does for a given integrand is not modelled. The absolute tolerance of quad, 1.49e-8 MeV, is part of the bound. |
| C195 | From the shipped tables and level data to the transmitted flux, in floating point | proved | Composition of C192 (table), C94 or C202 (resonance) and C193 (attenuation): the relative errors of the cross sections enter the absolute error of the flux once, for any thickness. | `C195_transmission`, `C195_voigt`, `C195_gauss` | Levels with (4N+34)u <= 4.9e-12 for N decay channels (thousands in double precision); no underflow in the cross sections themselves; tables without conversion of units. C195_voigt: the same for Voigt resonances, with an accurate routine for the Voigt profile as a parameter and the bound of C202 on the roundings. C195_gauss: the same for Gauss resonances with the bound of C95, met within 30 Doppler widths. |
| C196 | The measured self absorption determines the width | refuted, partial | For thick targets 1 - R decays with the smallest cross section between the limits (C196_thick). With the width 0.008 standard deviations of the thermal motion, the pseudo-Voigt coverage interval ends below 3.515 standard deviations (Mills' bound for the normal tail, bound of arctan), where the Voigt profile is at least 0.997 of the normal one (symmetrized convolution); with the width 1e4 MeV it ends beyond 316 half widths, where the profile is smaller. C135 gives the narrow side. | `C196_refuted`, `C196_partial`, `C196_thick` | False of the code: for every diameter, enrichment and effective temperature there are a target mass and three widths of which the middle one has the largest R (thick targets: the coverage interval grows faster than the cross section at its ends, so that R falls). Proved for all targets and coverages: every width has a smaller one below which all R are smaller. For thick targets of any resonances, the larger minimum of the cross section between the limits decides. |
| C197 | A width found without a warning is the width of the level | refuted, partial | Monte Carlo loop with the function `R` of the notebook; uniform bound of the self absorption by the attenuation at the undisturbed maximum (C135) and limit for thick absorbers (C105), with the exact result of the simplex search when it stops at once (C139). What holds follows from the exact criterion of the warning (C138) and a lower bound of the slope. | `C197_refuted`, `C197_thick`, `C197_partial` | False of the code: for a thin absorber, and for a thick one, the notebook finds the start value (or 5 % more) for every width of the level and prints no warning. Proved for every run: samples without a warning are as close to the width of the level as the sum of the tolerance, the error of the computed self absorption and the error of the measured value, divided by the slope of the self absorption. |
| C198 | Differential Compton cross sections are accurate in floating point | refuted, partial | New model of the differential cross sections with a rounding after every operation and trigonometric functions with an error of four roundings. Relative errors counted in multiples of (E/me + 1) roundings; the bracket of the unpolarized formula is at least half of its positive part. Energies: error of the cosine by the cancellation, then continuity of the exact cross section in the cosine. Witness evaluated in double precision. | `C198_refuted`, `C198_angle`, `C198_energy`, `C198_polarized_partial`, `C198_polarized_energy_partial` | True of unpolarized photons, with an error that grows with E/me, also with overflow and underflow by C155 (and with me/E for the energy-differential cross section, which may also be nan at its ends, see C114). False of polarized photons: along the polarization, perpendicular to the beam, the computed value of a photon of low energy is zero. The error is always small compared with the cross section perpendicular to the polarization. |
| C199 | Computed scattering angles and energies are inverse to each other | refuted, partial | Model of C198. Error of the computed cosine, continuity of the energy ratio in the cosine, and the exact inverse (C41). Witness: the cosine of a small angle is rounded to one. | `C199_refuted`, `C199_partial` | True of energies, up to 38 roundings times (E/me + 1 + me/E), unless the angle is nan (C114). False of angles: at every energy, all angles below 2^-28 come back as zero. |
| C200 | Numerical integrals of differential Compton cross sections agree with the total one | refuted, partial | Model of C198 and of C84. Pointwise relative errors carry over to sums with nonnegative weights; exact integrals by C42 and C43, accuracy of the total cross section by C84. | `C200_refuted`, `C200_angle_partial`, `C200_energy_partial`, `C200_polarized_partial`, `C200_polarized_energy_partial` | True between a hundredth and a thousand electron masses, for quadratures with an error of 1e-7. False of photons of about 2 eV: the integrals are positive and the computed total cross section is negative (C84). The choice of the nodes by QUADPACK is not modelled; all rules with nonnegative weights are covered, with a rounded summation. |
| C201 | Narrow resonances are integrated as well as broad ones on their own grid, and are missed without it | proved | Model of quad_partition, darboux and of the grids. Quantiles and densities of a location-scale family are affine images of the standard ones, so that the partitioned sums only differ by the energy-integrated cross section. Without the grid: the density at distance d is at most s/d^2 and the probability farther than d at most s/d; a width is chosen after the nodes. | `C201_breitWigner`, `C201_gauss`, `C201_missed`, `C201_missed_voigt`, `C201_without_grid` | Integrators are parameters: covariance under shifts, stretching and factors for the positive statements (rules with fixed relative nodes have it), a first step with any finite set of nodes for the negative ones. The absolute tolerance and the underflow checks of QUADPACK are not covariant; C185 covers integrators that are accurate to their reported error. For limits instead of a coverage see C185 and C189, for pseudo-Voigt resonances C189. |
| C202 | Voigt cross sections are accurate in floating point | proved | Rounded model of the evaluation with the Voigt routine as a parameter. Sensitivity of the exact convolution: to the Cauchy scale by monotonicity of scaled profiles, to the standard deviation by a weighted mean inequality under the integral (profile grows at most by a small power of peak/value), to the energy by scaling all three arguments. Jensen's inequality bounds the logarithm by the inputs. | `C202_voigt`, `C202_voigt_everywhere`, `C202_density` | scipy.special.voigt_profile is compiled code and a parameter with an assumed relative error. For overflow and underflow see C155. C202_density is the hypothesis of C191 on computed densities. The energy difference of the levels is assumed to be exact, as in C94; otherwise see C203. |
| C203 | Cross sections of nuclei in excited states in floating point | proved | The computed value is close to the exact value for the rounded resonance energy; the exact value depends on the position with a rate of at most 2 / width (as in C181). For the counterexample all inputs are doubles and the difference is rounded by a quarter of a unit. | `C203_breit_wigner`, `C203_voigt`, `C203_voigt_everywhere`, `C203_gauss`, `C203_narrow` | scipy.special.voigt_profile is a parameter with an assumed relative error. Overflow and underflow are not modelled. |
| C204 | Calls with relative energies in floating point | proved | As C203: the computed value is close to the exact value at a shifted distance, and the exact value depends on the distance with a rate of at most 2 / width. The rounding of the resonance energy itself cancels. The counterexample has an energy that is lost in the sum. | `C204_breit_wigner`, `C204_voigt`, `C204_voigt_everywhere`, `C204_gauss`, `C204_narrow` | scipy.special.voigt_profile is a parameter with an assumed relative error. Overflow and underflow are not modelled. |

## 5. Trusted base

* Lean 4.33.0's kernel and the Mathlib that comes with the sandbox (definitions of the reals, integrals, `arctan`, ... in the
  statements). Axioms: only `propext`, `Classical.choice`, `Quot.sound`, for every theorem (`axioms.txt`; `tools/axioms.py` fails on any
  other). No `sorry`, no own axioms, no `native_decide`/`bv_decide`.
* The model: that the definitions in `Model/` say what the Python code does was checked by reading only, since the code cannot be
  run here. Section 2 and 3 list the idealisations.
* The transcription of the data files by the generators in `tools/` (the element list and density list are kept as character
  lists and parsed inside Lean by the modelled readers; the attenuation tables likewise).
* Finite tables (C39, C58, C59, C60, C72–C74) are evaluated by the kernel (`decide +kernel`); these are statements about the
  shipped files, over all their entries. All other theorems are general.

## 6. Wrong programs

`tools/mutate.py seeded/mutations.json RESULTS.jsonl` applies each edit to a scratch copy of `lean/` outside this directory, replaces
declarations whose proof fails by `sorry` until the copy builds, and reports the theorems of the manifest that
then depend on `sorry`; these are compared with the claims the edit makes false. `seeded/LOG.jsonl` has one line per attempt.

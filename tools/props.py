# Generates properties.jsonl.  Each entry: id, title, statement, quantifier, why_tests_cant, anchors.
import json
P=[]
def p(id,title,statement,quantifier,why,anchors):
    P.append(dict(id=id,title=title,statement=statement,quantifier=quantifier,why_tests_cant=why,anchors=anchors))
CSF="ries/cross_section.py"
RES="ries/resonance/resonance.py"
# ---------------- algebra of cross sections
p("C01","Adding cross sections adds their values","For any two operands a, b that are cross sections, weighted sums or plain numbers (not both numbers), the object a + b evaluated at energy E yields a(E) + b(E) (a number c counts as the constant function c); if evaluating an operand raises, evaluating the sum raises.","all operand kinds (plain cross section, constant, weighted sum, nested sum, number on either side), all energies","infinitely many nestings of sums and all energies; a test evaluates a handful",[CSF+": CrossSection.__add__, __radd__, CrossSectionWeightedSum.__add__, __radd__, __call__"])
p("C02","Scaling a cross section scales its values","For any cross section or weighted sum a and number c, both c*a and a*c evaluate at E to c times a(E).","all cross sections, all nested sums, all scalars, all energies","quantifies over all scalars, energies and nesting shapes",[CSF+": CrossSection.__mul__, __rmul__, CrossSectionWeightedSum.__mul__, __rmul__, __call__"])
p("C03","Any arithmetic expression evaluates compositionally","Every expression built from cross sections and numbers by +, scalar * (either side) and the built-in sum() evaluates at E to the number obtained by replacing each cross section by its value at E; hence +, * obey commutativity, associativity and distributivity at the level of values.","all expression trees of any depth, all energies","induction over unbounded expression trees",[CSF+": CrossSection, ConstantCrossSection, CrossSectionWeightedSum"])
p("C04","Arithmetic never mutates its operands","In any history of +, * operations on cross-section objects, every object that existed before an operation has the same reactions and scale factors after it.","all heaps and all finite histories of add/multiply operations","ranges over all histories and sharing patterns",[CSF+": CrossSectionWeightedSum.__add__, __mul__, CrossSection.__add__, __mul__"])
p("C05","A sum or product is independent of its operands after construction","The documentation stresses that addition returns a NEW weighted sum: later in-place edits of an operand's reaction list or scale factor list must not change the value of a previously built sum or product.","all heaps, all operands, all later list mutations","ranges over all later mutations; no test mutates an operand",[CSF+": CrossSectionWeightedSum.__add__ docstring l.236-239, CrossSection.__add__ l.79-86"])
p("C06","Array evaluation is pointwise","Evaluating a weighted sum on an array of energies gives, at each index, the value the same sum gives on that energy alone (so the result has the array's shape).","all weighted sums, all array lengths, all energies","all lengths and all mixtures of constant and energy-dependent terms",[CSF+": CrossSectionWeightedSum.__call__, ConstantCrossSection.__call__"])
p("C07","Scale-factor list must cover the reaction list","Evaluating a weighted sum constructed with explicit lists succeeds and is the weighted sum over paired entries when there are at least as many scale factors as reactions (extra factors are ignored), and raises IndexError when there are fewer; omitting the scale factors means weight 1 for every reaction.","all list lengths and contents","all pairs of list lengths",[CSF+": CrossSectionWeightedSum.__init__, __call__"])
p("C08","Every constructor default is usable","CrossSectionWeightedSum declares both arguments optional, so calling it with none of them must produce the empty (identically zero) sum.","the constructor call with omitted arguments, all energies","no test constructs it without arguments; the claim is about every evaluation of the result",[CSF+": CrossSectionWeightedSum.__init__ l.215-226"])
p("C09","A cross section evaluates to a number","Whatever objects were combined with the overloaded operators without raising, calling the result on a number returns a number or raises; it never silently returns another cross-section object.","all objects that can be built with the operators, including products of two cross sections","all ill-typed combinations that Python accepts",[CSF+": CrossSection.__mul__ l.95-102, CrossSectionWeightedSum.__call__ l.318-323"])
# ---------------- grids
p("C10","Equidistant energy grid","equidistant_energy_grid((a,b), n) has exactly n points; for n >= 2 it starts at a, ends at b, consecutive differences are all equal to (b-a)/(n-1), and for a <= b it is nondecreasing and stays in [a,b]; n = 1 gives just a; negative n raises ValueError.","all limits, all n","all n and limits",[CSF+": CrossSection.equidistant_energy_grid, CrossSectionWeightedSum.equidistant_energy_grid, ConstantCrossSection.equidistant_probability_grid","ries/nonresonant/nonresonant.py: Nonresonant.equidistant_probability_grid"])
p("C11","Equal-probability grid over given limits","For a resonance with a continuous strictly increasing CDF (Breit-Wigner, Gauss), equidistant_probability_grid((a,b), n) with a < b, n >= 2 has n points, starts exactly at a, ends exactly at b, is strictly increasing, and each of the n-1 intervals carries the same integrated cross section.","all resonances, all limits a<b, all n>=2","all n, limits and resonance parameters",[RES+": Resonance.equidistant_probability_grid"])
p("C12","Equal-probability grid for a requested coverage","For 0 < c < 1 and n >= 2, equidistant_probability_grid(c, n) has n strictly increasing finite points, the first and last enclose exactly the fraction c of the integrated cross section (equal tails), and every interval carries c/(n-1) of it.","all c in (0,1), all n, all resonance parameters","all coverages and sizes",[RES+": Resonance.equidistant_probability_grid"])
p("C13","Grid points stay ordered and inside the limits for every resonance shape","For every resonance, including the default box shape, equidistant_probability_grid((a,b), n) with a < b returns a nondecreasing grid inside [a,b].","all resonances including the base class, all limits","limits far from the resonance are untested",[RES+": Resonance.__init__ l.238-239, equidistant_probability_grid l.351-366"])
p("C14","Grid of a sum is the sorted duplicate-free union","The equal-probability grid of a weighted sum is strictly increasing, contains exactly the energies that occur in the grid of at least one constituent, and (for explicit limits, n >= 2 and at least one constituent that is not an empty sum) contains both limits.","all weighted sums, limits, sizes","all constituents and all sizes",[CSF+": CrossSectionWeightedSum.equidistant_probability_grid"])
p("C15","A coverage request works on sums","The grid method of a weighted sum accepts the same coverage argument as its resonant constituents.","all sums that mix resonant and non-resonant constituents","tests never request coverage of a mixed sum",[CSF+": CrossSectionWeightedSum.equidistant_probability_grid","ries/nonresonant/nonresonant.py"])
p("C16","Coverage interval carries the requested probability","coverage_interval(c) for 0<=c<1 returns (lo, hi) with CDF(hi)-CDF(lo) = c, with (1-c)/2 on each side, centred on the median, and grows with c.","all coverages, all resonances of the analytic shapes","all c and parameters",[RES+": Resonance.coverage_interval"])
p("C17","Coverage interval never has a negative lower limit","The documentation promises: if a negative lower limit is encountered it will be set to 0 (and a warning is issued). So the returned lower limit is always >= 0, and a warning is issued exactly in the negative case.","all coverages, all resonances","tests only look at the warning, not at the returned value",[RES+": Resonance.coverage_interval l.270-307"])
p("C18","The warning reports the reachable coverage","The warning issued for a negative lower limit states the maximum coverage reachable with positive energies for this cross section, i.e. 100*(1-CDF(0)).","all resonances and coverages that trigger the warning","tests match only the first words of the message",[RES+": Resonance.coverage_interval l.295-301"])
# ---------------- resonances
p("C19","Integrated cross section equals its closed form","For every resonance model (box, Breit-Wigner, Gauss, pseudo-Voigt, Voigt) with valid parameters the integral of the cross section over all energies equals energy_integrated_cross_section.","all states, widths, masses, temperatures","an integral identity for all parameters",[RES+": Resonance.__call__, get_energy_integrated_cross_section","ries/resonance/breit_wigner.py","ries/resonance/gauss.py","ries/resonance/pseudo_voigt.py","ries/resonance/voigt.py"])
p("C20","Cross section over physical energies","The module documentation says the shape integrates to 1 over [0, infinity), i.e. the physical (E >= 0) integral of the cross section is the integrated cross section.","all Breit-Wigner, Gauss, pseudo-Voigt and Voigt resonances","tests use narrow resonances where the defect is below the tolerance",[RES+": module docstring l.26-36","ries/resonance/breit_wigner.py: docstring l.57-65"])
p("C21","Branching ratios partition the excitation cross section","Restricting a resonance to a final state multiplies the cross section by Gamma_f/Gamma; summed over all decay channels of the intermediate state this gives back the unrestricted cross section at every energy, and each ratio lies in [0,1].","all partial-width tables with nonnegative widths, all energies","all tables of any size",[RES+": get_final_state_branching_ratio, get_energy_integrated_cross_section","ries/constituents/state.py: State.__init__"])
p("C22","Total width is the sum of the partial widths","State.width equals the sum of all partial widths, does not depend on the dictionary order, and is at least each single nonnegative partial width; the ground state has excitation energy 0.","all dictionaries of partial widths","all sizes and orders",["ries/constituents/state.py: State.__init__, GroundState.__init__"])
p("C23","Integrated cross section formula","energy_integrated_cross_section = (pi*hbar*c/E_r)^2 * (2J_2+1)/(2J_0+1) * Gamma_0 * branching ratio; it is linear in the ground-state width, positive for positive widths, and scales like 1/E_r^2.","all states with nonzero energy difference","all states",[RES+": Resonance.__init__, get_energy_integrated_cross_section, get_statistical_factor"])
p("C24","Resonance construction fails exactly on bad states","Constructing a resonance of any of the five models succeeds exactly when the initial state (and the final state, if given) has an entry among the partial widths of the intermediate state, the intermediate state is not a ground state, the resonance energy is nonzero, 2J+1 of the initial state is nonzero, the width is nonzero if a final state is given, and the mass is nonzero where the Doppler width is needed. Otherwise the error of one of the violated conditions is raised: KeyError, AttributeError or ZeroDivisionError.","all pairs/triples of states, all models","all error combinations",[RES+": Resonance.__init__, get_final_state_branching_ratio, get_energy_integrated_cross_section"])
p("C25","Breit-Wigner closed form","BreitWigner(E) equals pi*(hbar c/E_r)^2 * (2J_2+1)/(2(2J_0+1)) * Gamma_0*Gamma/((E-E_r)^2+(Gamma/2)^2) for every E.","all states with positive width, all energies","all energies",["ries/resonance/breit_wigner.py: BreitWigner, docstring l.25"])
p("C26","Resonance shapes are symmetric with their maximum at the resonance energy","For Breit-Wigner, Gauss and pseudo-Voigt: the value at E_r+d equals the value at E_r-d, values decrease strictly with |d|, Breit-Wigner is at half maximum exactly at E_r +- Gamma/2; relative-energy mode equals absolute mode shifted by E_r.","all parameters, all offsets d","all offsets",[RES+": Resonance.__call__","ries/resonance/*.py"])
p("C27","Recoil correction conserves energy and momentum","FreeNucleusRecoil(amu)(dE) is the unique photon energy E_r with E_r + M = sqrt((M+dE)^2 + E_r^2); it exceeds dE by exactly dE^2/(2M); the default NoRecoil changes nothing.","all masses > 0, all energy differences","all reals",["ries/resonance/recoil.py: Recoil, NoRecoil, FreeNucleusRecoil"])
p("C28","Every resonance model can be recoil-corrected","The resonance energy of each model equals the recoil-corrected level difference for the recoil correction chosen by the user.","all models, all recoil corrections","no test combines a model with a recoil correction",["ries/resonance/breit_wigner.py: BreitWigner.__init__","ries/resonance/gauss.py: Gauss.__init__","ries/resonance/pseudo_voigt.py: PseudoVoigt.__init__","ries/resonance/voigt.py: Voigt.__init__"])
p("C29","Doppler width and effective temperature are inverse","get_effective_temperature(get_doppler_width(E), amu, E) = T for every T >= 0, amu > 0, E != 0, and conversely, for E > 0, for every nonnegative Doppler width.","all temperatures, masses and energies","all reals",["ries/resonance/maxwell_boltzmann.py: MaxwellBoltzmann.get_doppler_width, get_effective_temperature"])
p("C30","Doppler width scaling laws","The Doppler width is proportional to E and to sqrt(T/amu), hence increasing in T and decreasing in amu.","all temperatures, masses and energies","all reals",["ries/resonance/maxwell_boltzmann.py: MaxwellBoltzmann.get_doppler_width"])
p("C31","Pseudo-Voigt mixing is a convex combination","For every nonnegative Doppler width and width (not both 0): total Gamma >= max(Gamma_G, Gamma_L), 0 <= eta <= 1, the PDF is nonnegative, the CDF is strictly increasing from 0 to 1, and the PDF is the derivative of the CDF.","all widths, masses, temperatures, energies","inequality over a 2-parameter continuum",["ries/resonance/pseudo_voigt.py: PseudoVoigtDistribution.__init__, get_Gamma, get_eta, pdf, cdf"])
p("C32","Pseudo-Voigt limiting cases are exact","The documentation says the approximation is exact in the limits sigma>>Gamma and Gamma>>sigma: with zero natural width the pseudo-Voigt distribution is the Gauss shape, and with zero Doppler width it is the Breit-Wigner shape.","all energies, all parameters at the two limits","tests compare only at high temperature with a 1% tolerance",["ries/resonance/pseudo_voigt.py: pseudo_voigt_expression l.165-173, docstring l.28-30"])
p("C33","Pseudo-Voigt PPF inverts the CDF","ppf(q) returned by the converged root search satisfies |CDF(E)-q| <= tol * PDF(E_r), lies between E_r and the exact quantile; the values returned for a sorted array are sorted; ppf(1/2) is the resonance energy; if the search fails the fallback weighted mean of the PPFs is returned with a warning.","all quantiles in (0,1), all parameters","all quantiles and all iteration histories",["ries/resonance/pseudo_voigt.py: PseudoVoigtDistribution.ppf"])
p("C34","Pseudo-Voigt PPF always returns quantiles","ppf returns numbers for every array of quantiles: either the converged roots or the documented fallback.","all arrays of quantiles and all convergence outcomes of the root finder","a mixed outcome (some quantiles converge, some do not) is not tested",["ries/resonance/pseudo_voigt.py: PseudoVoigtDistribution.ppf l.218-247"])
p("C35","Voigt resonance is the Doppler convolution","The Voigt cross section uses the normal width Delta/sqrt2 and the Lorentz half width Gamma/2 around E_r, is the convolution of both shapes, integrates to I, is symmetric about E_r, and at zero temperature equals Breit-Wigner.","all parameters, all energies","all parameters",["ries/resonance/voigt.py: SemiPseudoVoigtDistribution.pdf, Voigt.__init__"])
# ---------------- Debye
p("C36","Debye effective temperature bounds","For T > 0, T_D > 0: max(T, 3/8 T_D) < T_eff < T + 3/8 T_D.","all positive temperatures","all reals",["ries/resonance/debye_model.py: effective_temperature_debye_approximation"])
p("C37","Debye effective temperature is monotone and homogeneous","T_eff is strictly increasing in T and in T_D, and T_eff(l*T, l*T_D) = l*T_eff(T,T_D) for l > 0.","all positive temperatures and factors","all reals",["ries/resonance/debye_model.py: effective_temperature_debye_approximation"])
p("C38","Debye limits","T_eff tends to 3/8 T_D as T -> 0+, and T_eff/T tends to 1 (T_eff - T tends to 0) as T -> infinity; T = 0 raises ZeroDivisionError.","limits over all temperatures","limits",["ries/resonance/debye_model.py: effective_temperature_debye_approximation"])
p("C39","Debye temperature table is keyed by element symbols","Every key of room_temperature_T_D is the symbol of a chemical element, and every element in the handbook list can be looked up by its symbol.","all keys of the shipped table","tests look up one key",["ries/resonance/debye_model.py: room_temperature_T_D l.95-181","ries/constituents/element.py: X"])
# ---------------- Klein-Nishina
p("C40","Compton kinematics","For E > 0: Ep_over_E(E,theta) lies in [1/(1+2E/m), 1], is 1 at theta=0, strictly decreases on [0,pi], and compton_edge(E) is the smallest possible scattered energy, always below m/2.","all energies and angles","all reals",["ries/nonresonant/klein_nishina.py: Ep_over_E, compton_edge"])
p("C41","Scattering angle and scattered energy are inverse","theta(E, E*Ep_over_E(E,t)) = t for t in [0,pi], and E*Ep_over_E(E,theta(E,E')) = E' for every E' between the Compton edge and E.","all energies and angles","all reals",["ries/nonresonant/klein_nishina.py: theta, Ep_over_E"])
p("C42","Angular integrals reproduce the total cross section","For the electron mass: integrating cs_diff_dOmega*sin(theta) over phi and theta, and cs_diff_dtheta over theta, gives cs_total(E) for every E > 0.","all energies E>0, all Z","an integral identity for all E; tests use 4 energies",["ries/nonresonant/klein_nishina.py: cs_diff_dOmega, cs_diff_dtheta, cs_total"])
p("C43","Energy integrals reproduce the total cross section","Integrating cs_diff_dEp over E' from the Compton edge to E, and cs_diff_dEp_dphi over E' and phi, gives cs_total(E) for every E > 0.","all energies E>0, all Z","an integral identity for all E",["ries/nonresonant/klein_nishina.py: cs_diff_dEp, cs_diff_dEp_dphi, cs_total"])
p("C44","Compton cross sections are positive and fall with energy","All differential cross sections are nonnegative for all angles; cs_total is positive, strictly decreasing in E, bounded by the Thomson cross section 8*pi/3*scale_factor and tends to it as E -> 0. It falls more slowly than 1/E: E*cs_total(E) is strictly increasing.","all energies and angles, Z>0","all reals",["ries/nonresonant/klein_nishina.py: cs_total, cs_diff_*"])
p("C45","Unpolarized solid-angle cross section is the azimuthal average","cs_diff_dOmega_unpolarized is documented as the azimuthal average of cs_diff_dOmega.","all energies and angles","tests never compare the unpolarized solid-angle cross section with the average",["ries/nonresonant/klein_nishina.py: cs_diff_dOmega_unpolarized l.224-248, docstring l.47-50"])
p("C46","Differential and total cross sections agree for any mass","KleinNishina accepts the mass of the charged particle; integrals of the differential cross sections equal cs_total for every mass.","all masses mc2 > 0, all E > 0","tests use the default mass only",["ries/nonresonant/klein_nishina.py: __init__ mc2, theta, Ep_over_E use the electron mass"])
p("C47","Compton cross sections are proportional to Z","All (differential and total) cross sections for Z scattering centres are Z times those for one.","all Z, E, angles","all reals",["ries/nonresonant/klein_nishina.py: scale_factor"])
# ---------------- XRMAC
p("C48","Interpolation reproduces the table","At every tabulated energy the cross section equals the tabulated value (at an absorption edge: the last entry for that energy).","all tables with nondecreasing positive energies and positive values","all tables; tests check one node",["ries/nonresonant/xrmac.py: XRMAC.__call__, interpolate_log_log"])
p("C49","Interpolation stays between neighbouring entries and follows a power law","Between two consecutive distinct energies the value lies between the two tabulated values and is y0*(E/E0)^k; it is always positive.","all tables, all nonnegative energies","all nonnegative energies",["ries/nonresonant/xrmac.py: XRMAC.__call__, interpolate_log_log"])
p("C50","Outside the table the boundary values are used","For energies below the smallest / above the largest tabulated energy the result is the value at the smallest / largest energy.","all tables (sorted or not), all energies","tests never leave the table",["ries/nonresonant/xrmac.py: interpolate_log_log fill_value l.164-169"])
p("C51","The two unit systems contain the same data","For every element, xrmac_fm2_per_atom at E equals xrmac_cm2_per_g at E times the constant conversion factor, for all nonnegative energies (interpolation commutes with a positive unit factor).","all tables, all positive factors, all nonnegative energies; all 92 shipped elements","tests check lead at one energy",["ries/nonresonant/xrmac.py: XRMAC, module loop l.237-246"])
p("C52","Table lines are parsed exactly","Reading a file in the documented fixed-column format (with or without the label column) returns exactly the numbers written in it, for every number of lines.","all files in the documented format","all files",["ries/nonresonant/xrmac.py: XRMAC.read_nist_xrmac"])
p("C53","The last line of a table is read like every other line","Also when the file does not end with a newline, the three numbers of the last line are read completely.","all files, in particular the shipped 82.txt","no test looks at the third column",["ries/nonresonant/xrmac.py: read_nist_xrmac l.216-224","ries/nonresonant/nist_xrmac/82.txt"])
p("C54","A stored unit conversion belongs to its element","xrmac_fm2_per_atom[X].xrmac_conversion converts with the mass of element X at any later time.","all elements, all values","tests never call the stored conversion",["ries/nonresonant/xrmac.py: module loop l.237-246"])
# ---------------- elements
p("C55","Element mass is the abundance-weighted mean","Element.amu is sum of isotope mass times abundance over the isotopes, independent of dictionary order; extra abundances are ignored, a missing abundance raises KeyError; for abundances that are nonnegative and sum to 1 it lies between the lightest and heaviest isotope.","all isotope/abundance tables","all tables",["ries/constituents/element.py: Element.amu_from_isotopic_composition"])
p("C56","NIST reader returns exactly the isotopes of the element","For any file of paragraphs sorted by atomic number in the documented format, read_nist_element_data(Z) returns exactly the isotopes listed under Z with their masses and abundances, and nothing for other Z.","all files, all Z","all files",["ries/constituents/natural_element_data.py: NISTElementDataReader.read_nist_element_data"])
p("C57","NIST values are read with or without an uncertainty","The documented line formats are 'PROPERTY = VALUE' and 'PROPERTY = VALUE(UNCERTAINTY)'; an abundance in either format is read as VALUE.","all values; the shipped file has 22 entries without uncertainty","tests check only lead and carbon",["ries/constituents/natural_element_data.py: read_nist_element_property_with_uncertainty l.177-179","ries/constituents/nist_elements/elements.txt"])
p("C58","Natural elements have a physical mass","Every natural element with a tabulated isotopic composition has a positive effective mass within the range of its isotope masses.","all elements of the shipped file","tests check two elements",["ries/constituents/element.py: natural_elements","ries/constituents/nist_elements/elements.txt"])
p("C59","Element symbol table","X maps every atomic number that occurs in the file to the first symbol given for it, and nothing else.","all files","all files",["ries/constituents/natural_element_data.py: read_nist_element_symbols"])
p("C60","Density lookup returns the density of the requested element","read_density_data(X) returns the density on the line whose symbol is X, and None if there is none.","all files in the documented format, all symbols","tests check lead only",["ries/constituents/natural_element_data.py: Geant4DensityDataReader.read_density_data","ries/constituents/geant4_densities/element_densities.txt"])
# ---------------- integration
p("C61","Darboux sums bracket the integral","For a function monotone on every interval of a nondecreasing partition, darboux returns (L, D) with L <= integral <= L + D, D >= 0.","all partitions of any length, all piecewise monotone functions","all functions and partitions",["ries/integration/darboux.py: darboux"])
p("C62","Darboux gap formula","D equals the sum of |f(x_{i+1})-f(x_i)|*(x_{i+1}-x_i); for a monotone function on an equidistant grid D = h*|f(b)-f(a)|; constant functions give D = 0 and the exact integral.","all partitions and functions","all partitions",["ries/integration/darboux.py: darboux"])
p("C63","Darboux refinement","Adding points to the partition (keeping the function monotone on each interval) never decreases the lower sum and never increases the upper sum.","all partitions, all refinements","all refinements",["ries/integration/darboux.py: darboux"])
p("C64","Passing the function or its values is equivalent","darboux(f, x) equals darboux(f(x), x); reversing the orientation of x flips the sign of the returned lower sum and keeps the gap; shifting x changes nothing, scaling x or f scales the results, negating f exchanges lower and upper sum, and adding a constant to f adds the constant times the length of the range.","all functions and partitions","all inputs",["ries/integration/darboux.py: darboux"])
p("C65","Darboux rejects mismatched input","darboux raises when the number of function values does not match the number of grid points, and when a callable returns a scalar.","all lengths","all length pairs",["ries/integration/darboux.py: darboux l.69-78"])
p("C66","Lower sum never exceeds upper sum in floating point","With any monotone rounding and any order of summation, the computed lower sum is at most the computed upper sum on a nondecreasing partition, so the reported gap needs no sign correction.","all monotone roundings, all summation trees, all inputs","all rounding behaviours",["ries/integration/darboux.py: darboux l.77-82"])
p("C67","Partitioned quadrature is the whole integral","If the underlying integrator is exact on each piece, quad_partition returns the integral over the whole range, for any partition of the first coordinate and any number of further coordinates.","all continuous integrands, all partitions, all dimensions","all partitions and dimensions",["ries/integration/quad_partition.py: quad_partition"])
p("C68","Partition error estimate","The returned error is sqrt(sum e_i^2): nonnegative, at least the largest and at most the sum of the absolute piece errors, and 0 only if all are 0.","all piece errors","all lists",["ries/integration/quad_partition.py: quad_partition l.68-77"])
p("C69","The returned error bounds the true error","If every piece is accurate to its reported absolute error, the total is accurate to the returned absolute error.","all integrands and partitions","worst case alignment of piece errors never occurs in tests",["ries/integration/quad_partition.py: docstring l.40-48"])
p("C70","Integration limits of further coordinates may be an array","x1_to_xn_minus_1 is documented as an (n_d-1, 2) array; a numpy array is accepted like a list.","all arrays of limits","tests pass lists only",["ries/integration/quad_partition.py: l.70"])
# ---------------- extensions
p("C71","Quantile accuracy does not depend on the width of the resonance","When the pseudo-Voigt ppf reports convergence, the CDF at the returned energy agrees with the requested quantile to a fixed accuracy (say 0.01), for broad and narrow resonances alike.","all quantiles, all widths and Doppler widths","tests use one resonance; widths of real resonances range over many orders of magnitude around the absolute tolerance of the root search",["ries/resonance/pseudo_voigt.py: PseudoVoigtDistribution.ppf"])
p("C72","One element object per atomic number","Importing the element module with data files in the documented format gives exactly one element object for every atomic number 1..118, stored under its symbol, with exactly the isotopes of the file.","all files in the documented format; the shipped files","tests look at two elements; the files may be exchanged",["ries/constituents/element.py: X, natural_elements l.115-121","ries/constituents/natural_element_data.py"])
p("C73","Attenuation per atom is mass attenuation times the mass of the atom, and positive","For each of the 92 elements and every nonnegative energy, xrmac_fm2_per_atom is xrmac_cm2_per_g times the mass of an atom in the documented units, and it is positive.","all 92 shipped elements, all nonnegative energies","tests check lead at one energy",["ries/nonresonant/xrmac.py: module loop l.231-246","ries/constituents/element.py: natural_elements"])
p("C74","All shipped attenuation tables are usable at every nonnegative energy","Importing the module reads all 92 shipped tables without an exception; energies ascend from 1 keV to 20 MeV, values are positive, and xrmac_cm2_per_g returns a positive number at every nonnegative energy for every element.","all 92 shipped elements, all nonnegative energies","tests read one element at one energy",["ries/nonresonant/xrmac.py: module loop l.231-246, XRMAC","ries/nonresonant/nist_xrmac/01.txt .. 92.txt"])
KN_="ries/nonresonant/klein_nishina.py"
p("C75","Doppler broadening is that of a thermal gas","The Gauss resonance integrated over any energy range is the energy-integrated cross section times the probability that a nucleus of an ideal gas of the given temperature and mass has its Doppler-shifted resonance energy in that range; the Voigt resonance is the mean of the Breit-Wigner resonance over the velocities of that gas.","all masses, temperatures > 0, states and energy ranges","an identity of measures; fixes the absolute width, which the tests only compare between models",["ries/resonance/maxwell_boltzmann.py: MaxwellBoltzmann.get_doppler_width","ries/resonance/gauss.py: Gauss.__init__","ries/resonance/voigt.py: Voigt.__init__"])
p("C76","Compton scattering conserves energy and momentum","A scattering off a particle at rest with the mass of the object conserves energy and momentum if and only if the scattered energy is E*Ep_over_E(E,theta).","all momenta before and after the scattering, all masses","all momenta",[KN_+": Ep_over_E, __init__ mc2"])
p("C77","Energy-differential Compton cross section","cs_diff_dEp(E,E') = pi*Z*alpha^2*(hbar c)^2/(m c^2 E^2)*(E'/E + E/E' - sin(theta)^2), with cos(theta) = 1 - m c^2 (1/E' - 1/E), for every mass of the target.","all masses, Z, E > 0 and possible E'","all reals; tests use the electron only",[KN_+": cs_diff_dEp, cs_diff_dOmega_unpolarized, theta"])
p("C78","Impossible scattered energies have cross section zero","cs_diff_dEp and cs_diff_dEp_dphi are nonnegative numbers for every scattered energy, and zero outside the range between the Compton edge and E.","all E > 0, all nonzero E'","tests only use possible energies",[KN_+": cs_diff_dEp, cs_diff_dEp_dphi, theta (arccos)"])
p("C79","Rounding errors of composed cross sections stay small","If every addition and multiplication is rounded with a relative error of at most u (as IEEE arithmetic does), the value of a composed cross section differs from the exact combination of the operands' values by at most ((1+u)^n - 1) times the combination of the absolute values, where n is three times the number of operators in the expression at most; for operands of the same sign this is a relative error of at most n u / (1 - n u).","all well-typed expressions, all energies, all roundings with relative error u","tests compare a few sums with a fixed tolerance and cannot bound the error of arbitrary nested combinations",[CSF+": CrossSection.__add__, __mul__, __call__ of CrossSectionWeightedSum"])
p("C80","The quantile search converges for all but extreme quantiles","For every pseudo-Voigt distribution whose widths add up to at most 2.5e22*eps**4 MeV (e.g. 250 MeV for eps = 1e-5), ppf returns numbers without falling back or warning for every nonempty array of quantiles between eps and 1-eps, and for every single such quantile; each value lies between E_r and the exact quantile, the CDF misses the quantile by at most 1.9e-8 MeV divided by the larger of the two widths, and sorted quantiles give sorted energies.","all eps > 0, all widths and Doppler widths up to that bound, all arrays of quantiles in [eps, 1-eps]","convergence of the iteration within 50 steps for all parameters is not settled by samples",["ries/resonance/pseudo_voigt.py: PseudoVoigtDistribution.ppf"])
p("C81","Pseudo-Voigt coverage intervals are symmetric and carry the requested fraction","coverage_interval(c) of a pseudo-Voigt resonance is symmetric about E_r; for widths that add up to at most 2.5e22*((1-c)/2)**4 MeV it carries the fraction c of the cross section, with a deficit of at most 3.8e-8 MeV divided by the larger of the two widths; for larger widths this holds as well unless the fallback warning was issued, in which case the ends are the mixture of the ends for the two components.","all pseudo-Voigt resonances, all coverages in [0,1)","integral over all parameters and coverages",[RES+": Resonance.coverage_interval","ries/resonance/pseudo_voigt.py: PseudoVoigtDistribution.ppf, PseudoVoigt"])
p("C82","Pseudo-Voigt grids have equal shares","For a coverage c < 1 (widths as in C81), or limits around E_r with a fraction of at least eps outside on either side (widths as in C80), equidistant_probability_grid of a pseudo-Voigt resonance returns n sorted points (starting and ending exactly at explicit limits, never outside them), and every interval carries the same share of the cross section up to 3.8e-8 MeV divided by the larger of the two widths.","all pseudo-Voigt resonances with widths up to the bound, all such coverages or limits, all n >= 2","all parameters and grid sizes",[RES+": Resonance.equidistant_probability_grid","ries/resonance/pseudo_voigt.py: PseudoVoigtDistribution.ppf, PseudoVoigt"])
p("C83","Voigt coverage intervals carry the requested fraction","coverage_interval(c) of a Voigt resonance carries the fraction c of its cross section, up to a few percent.","all Voigt resonances, all coverages","tests do not integrate the cross section over the interval",[RES+": Resonance.coverage_interval","ries/resonance/voigt.py: SemiPseudoVoigtDistribution, Voigt"])
p("C84","The computed Compton cross section is accurate","The total Compton cross section computed in double precision is positive and agrees with the Klein-Nishina formula up to a small relative error.","all photon energies, all masses and numbers of scattering centers, every rounding behaviour","tests evaluate a few energies above 1 keV; the loss of accuracy grows with the inverse third power of the energy",[KN_+": KleinNishina.cs_total l.302-322, KleinNishina.__init__ l.114-119"])
p("C85","The total Compton cross section can be evaluated at every nonnegative energy","Calling a Compton cross section, or a sum that contains one, at an energy E >= 0 returns a number, for a float as well as for an element of an array.","all nonnegative energies, all masses, all sums","tests start at positive energies",[KN_+": KleinNishina.__call__, cs_total l.302-322","ries/cross_section.py: CrossSectionWeightedSum.__call__"])
p("C86","Darboux sums converge","For a function continuous on [a, b], the lower sum and the upper sum returned by darboux come as near to the integral as desired on every sufficiently fine partition of [a, b].","all continuous functions, all partitions below a step size, all tolerances","tests use a few fixed grids and functions",["ries/integration/darboux.py: darboux"])
p("C87","A resonance can be integrated with Darboux sums on its own grid","The lower sum and the lower sum plus gap returned by darboux for a resonance on its own equal-probability grid bracket the integral of the cross section over the grid.","all Breit-Wigner, Gauss and pseudo-Voigt resonances, all coverages and limits, all numbers of points","tests check the bracket for single parameter sets with a tolerance",["ries/integration/darboux.py: darboux",RES+": Resonance.equidistant_probability_grid"])
p("C88","The energy grid for a coverage covers the requested fraction","equidistant_energy_grid(c, n) of a resonance returns n ordered, equally spaced energies between which the cross section integrates to the fraction c of the whole, with equal parts below and above.","all Breit-Wigner, Gauss and pseudo-Voigt resonances, all coverages from 0 to 1, all n from 2","tests look at the length and the end points for a few coverages",[RES+": Resonance.equidistant_energy_grid",RES+": Resonance.coverage_interval",CSF+": CrossSection.equidistant_energy_grid"])
p("C89","Numpy scalars can be used like Python numbers","Adding a numpy scalar to a cross section, or multiplying by it, on either side, gives a cross section whose value is the sum or product with the number.","all well-formed cross sections, all numpy integer scalars, both operand orders","tests use Python floats; the failure appears only when the sum is evaluated later",[CSF+": CrossSection.__add__",CSF+": CrossSection.__mul__",CSF+": CrossSectionWeightedSum.__add__"])
p("C90","Elements can be built from lists, arrays or dictionaries","The constructor of Element accepts isotopes and abundances as documented, namely as arrays (or lists), and also as dictionaries with common keys, which is how the data reader and the tests pass them; the mass of the element is the sum of isotope mass times abundance.","all compositions of all three kinds","tests build elements from dictionaries only",["ries/constituents/element.py: Element.__init__"])
p("C91","Unit conversions are applied to tabulated data","The conversion functions for energies and mass attenuation coefficients are applied to the data, whether they are given as a file or as an array.","all tables, all files, all pairs of conversion functions","tests use the identity as conversion of array data",["ries/nonresonant/xrmac.py: XRMAC.__init__","ries/nonresonant/xrmac.py: read_nist_xrmac"])
p("C92","The width of a state is the sum of its partial widths","At any time the width of a state equals the sum of its partial widths, and the branching ratios of a resonance built from it sum to one.","all sequences of building states and assigning partial widths","tests never change a state after it was built",["ries/constituents/state.py: State.__init__",RES+": Resonance.get_final_state_branching_ratio"])
p("C93","Energy grids are well-formed in floating point","In floating-point arithmetic the equidistant energy grid between two floats a <= b starts exactly at a, ends exactly at b, never decreases, stays inside the limits, and each point deviates from the exact one by a few units in the last place of the larger limit.","all pairs of limits, all numbers of points up to 1/(4u) (2e15 for double precision), every monotone rounding of relative accuracy u","tests compare a few grids with a tolerance",[CSF+": CrossSection.equidistant_energy_grid",RES+": Resonance.equidistant_energy_grid"])
p("C94","Breit-Wigner values are accurate in floating point","Computed in floating point from the level energies and partial widths, the value of a Breit-Wigner cross section has a relative error of about 4N+34 roundings for a level with N decay channels, at every energy.","all levels with nonnegative partial widths, all energies, every arithmetic of relative accuracy u, with and without final state","tests compare at a few energies with a loose tolerance",["ries/resonance/breit_wigner.py: BreitWigner.__init__",RES+": Resonance.__call__",RES+": Resonance.get_energy_integrated_cross_section"])
p("C95","Gauss values are accurate in floating point","Computed in floating point from level energies, partial widths, mass and temperature, the value of a Gauss cross section has a relative error of about N+41 roundings plus 31 per squared distance from the resonance energy in Doppler widths. Relative to the maximum of the cross section, the error is at most about N+53 roundings at all energies.","all levels with nonnegative partial widths, all masses and temperatures above 0, all energies, every arithmetic of relative accuracy u","tests compare at a few energies with a loose tolerance",["ries/resonance/gauss.py: Gauss.__init__","ries/resonance/maxwell_boltzmann.py: MaxwellBoltzmann.get_doppler_width",RES+": Resonance.__call__"])
p("C96","Voigt profile and temperature","The Voigt cross section of given states is a continuous function of the temperature down to 0 K, where it is the Breit-Wigner cross section. Its maximum decreases strictly with the temperature, and at no temperature and energy does it exceed the maximum of the Breit-Wigner cross section.","all pairs of states with positive width and strength, all masses, all temperatures from 0, all energies","a statement about all temperatures and energies",["ries/resonance/voigt.py: Voigt.__init__, SemiPseudoVoigtDistribution.pdf","ries/resonance/maxwell_boltzmann.py: MaxwellBoltzmann.get_doppler_width"])
p("C97","Narrow resonances look Gaussian","When all partial widths of the excited state shrink by a common factor at fixed temperature, the Voigt and the pseudo-Voigt cross sections divided by this factor converge at every energy to the Gauss cross section, while resonance energy and relative strength stay the same.","all pairs of states with positive width, all masses and temperatures above 0, all energies","a limit, which no test evaluates",["ries/resonance/voigt.py: Voigt","ries/resonance/pseudo_voigt.py: PseudoVoigt","ries/resonance/gauss.py: Gauss"])
p("C98","Tabulated cross sections are continuous except at absorption edges","The cross section interpolated in a table sorted by energy is a continuous function of the energy (from 0 on), except at absorption edges, i.e. energies that are listed twice. There it tends from below to the first listed value, and takes the last listed value at the edge and continuously above it.","all tables with positive values, sorted by energy; all energies from 0 on","continuity is a statement about all energies",["ries/nonresonant/xrmac.py: XRMAC.__call__, interpolate_log_log"])
p("C99","Effective temperatures of arrays","The effective temperature can be computed for arrays of temperatures, Debye temperatures or both: entry by entry, combined with numbers and among arrays of equal length, with as many results as entries. ZeroDivisionError is raised if an entry is zero.","all numbers and arrays of any shape","tests call the function with numbers and a few arrays",["ries/resonance/debye_model.py: effective_temperature_debye_approximation"])
p("C100","Grids of arithmetic expressions","The equal-probability grid of any arithmetic expression of cross sections (sums, multiples, built-in sum, nested in any way) exists exactly if the grids of all cross sections in it exist for the request, is sorted without duplicates, and consists of the points of these grids (numbers that are added count as constant cross sections, with an equidistant grid). Order, grouping and scaling of the summands do not matter.","all expression trees, all grid methods of their constituents, all requests and numbers of points","tests build a few sums by hand",[CSF+": CrossSectionWeightedSum.equidistant_probability_grid",CSF+": CrossSection.__add__, __mul__, __radd__, __rmul__",CSF+": CrossSectionWeightedSum.__add__, __mul__"])
p("C101","The built-in sum behaves like addition","The built-in function sum, applied to two or more cross sections, gives the same cross section as adding them one by one: same values, same grids.","all nonempty lists of expressions, all energies, all grid requests","tests compare values of sums only",[CSF+": CrossSection.__radd__",CSF+": CrossSectionWeightedSum.__radd__",CSF+": ConstantCrossSection.equidistant_probability_grid"])
NB1 = "notebooks/layer_target.ipynb"
NB2 = "notebooks/6Li.ipynb"
p("C102","Photon flux in a layered target","The photon-flux density of the layer-target notebook is 1 at the surface, positive, never above 1, falls with the depth and factorizes over consecutive pieces. The reaction rates in the four layers are those of the beam that solves the attenuation law in each layer and is continuous at the boundaries.","all cross sections, abundances and areal densities, all depths and energies","the notebook only plots the functions; uniqueness of the solution is needed",[NB1+": Phi, alpha, dN_dE_drho_I, dN_dE_drho_II, dN_dE_drho_III, dN_dE_drho_IV"])
p("C103","Photon balance of a layered target","At each energy, the photons absorbed resonantly in the four layers plus those lost nonresonantly are those that do not leave the target; no photon is absorbed twice.","all cross sections, abundances and areal densities, all energies","the notebook only plots the functions",[NB1+": dN_dE_drho_I, dN_dE_drho_II, dN_dE_drho_III, dN_dE_drho_IV"])
p("C104","Thin-target approximation","The thin-target count rate is areal density times abundance times the integrated cross section, is never smaller than the extended-target count rate, and exceeds it by at most the fraction (largest total cross section times areal density / 2).","all nonnegative integrable cross sections, all energy limits and areal densities","the notebook compares two numbers",[NB1+": alpha, count_rates, count_rates_thin_target"])
p("C105","Self absorption","The self absorption R computed by the 6Li notebook is the relative decrease of the absorption in the scatterer caused by the absorber. It is a number for all masses, 0 without an absorber, increases strictly with the absorber mass, stays below 1 and tends to 1, and does not increase with the scatterer mass.","all widths, masses, diameters, enrichments, temperatures from 0 and coverages below 1 (above the error of the numerical inversion)","the notebook plots R for a few parameters",[NB2+": R, photon_flux_density, resonance_absorption_density, areal_density","ries/resonance/voigt.py: Voigt",RES+": Resonance.coverage_interval"])
p("C106","Molar mass for a given enrichment","molar_mass(enrichment) of the 6Li notebook is the molar mass of lithium carbonate with the given enrichment, and the areal density computed from it is the number of 6Li nuclei per area.","all enrichments and atomic masses","the notebook calls the function only with the mean enrichment",[NB2+": molar_mass, areal_density"])
p("C107","Broader levels absorb more","If all partial widths of the excited state are multiplied by the same factor, the Voigt cross section at a positive temperature increases strictly at every energy; the Breit-Wigner cross section increases strictly except at the resonance energy, where it does not depend on the factor; the Gauss cross section is proportional to it.","all pairs of states with positive width and strength, all masses and temperatures above 0, all energies and factors","a statement about all energies and factors",["ries/resonance/voigt.py: Voigt","ries/resonance/breit_wigner.py: BreitWigner","ries/resonance/gauss.py: Gauss"])
p("C108","Expansions of the effective temperature","At low temperature the effective temperature exceeds 3/8 of the Debye temperature by an amount that is less than (pi^4/5) T^4/T_D^3 and asymptotically equal to it. At high temperature it exceeds the temperature by an amount between T_D^2/(20 T) - T_D^4/(1680 T^3) and T_D^2/(20 T), asymptotically equal to the latter.","all positive temperatures and Debye temperatures","a test compares the value at one temperature with the limit, with a tolerance",["ries/resonance/debye_model.py: effective_temperature_debye_approximation"])
p("C109","Compton scattering at low and high energies","With x = E/(m c^2): at low energy the total cross section is Z times the Thomson cross section times 1 - 2x, up to a relative 7 x^2; the differential one tends to the Thomson one in every direction, and in the forward direction does not depend on the energy. At high energy x times the total cross section in units of pi Z r^2 differs from ln(2x) by an amount that tends to 1/2; so the cross section tends to zero, but slower than 1/E.","all charges and masses, all energies (low-energy bound), limits in the energy","a test evaluates at one energy, where the closed formula subtracts nearly equal numbers at low energy",["ries/nonresonant/klein_nishina.py: cs_total, cs_diff_dOmega"])
p("C110","Evaluation on arrays changes no array and works entry by entry","Calling a cross section on an array of energies changes neither this array nor any other existing array, also if the call raises; an array returned by a weighted sum is a new one, so it can be overwritten; the entries are the values at the single energies. The same holds for equal-probability grids (limits given as an array are not changed) and for Darboux sums.","all cross sections (sums nested in any way, constituents that themselves change nothing), all stores of arrays, all arguments","tests compare values and do not look at the arguments afterwards",[CSF+": CrossSectionWeightedSum.__call__",RES+": Resonance.__call__, equidistant_probability_grid","ries/resonance/pseudo_voigt.py: pseudo_voigt_expression","ries/resonance/voigt.py: SemiPseudoVoigtDistribution.pdf","ries/nonresonant/klein_nishina.py: cs_total","ries/nonresonant/xrmac.py: XRMAC.__call__","ries/integration/darboux.py: darboux"])
p("C111","Lists of energies are accepted like arrays","The energy argument of all cross sections is documented as array_like: a plain list of numbers gives the same values as the array with these entries.","all classes, modes and lists","tests pass numbers and numpy arrays only",[RES+": Resonance.__call__","ries/resonance/voigt.py: SemiPseudoVoigtDistribution.pdf","ries/nonresonant/klein_nishina.py: cs_total","ries/nonresonant/xrmac.py: XRMAC.__call__"])
p("C112","Relative energies as documented","With input_is_absolute_energy=False, a resonance called with E returns the cross section at E - E_r, as the documentation says.","all resonances and energies","a test evaluates at one energy with a formula written by hand",[RES+": Resonance.__call__"])
p("C113","Equal-probability grids in floating point","Also with the rounding of double precision, the equal-probability grid of a Breit-Wigner or Gauss resonance between two limits consists of finite numbers in ascending order between the limits, with nearly equal probabilities per interval.","all such resonances, all pairs of representable limits, all numbers of points","tests use limits on both sides of the resonance, or a coverage",[RES+": Resonance.equidistant_probability_grid"])
p("C114","The Compton edge has a scattering angle","For every photon energy, the scattering angle of a photon at the computed Compton edge and the energy-differential cross section there are numbers also in floating point; angles at other energies are accurate.","all photon energies, all scattered energies up to the photon energy, double precision","15% of all energies are affected at the edge, tests use a few energies and tolerances",[KN_+": compton_edge, theta, cs_diff_dEp"])
p("C115","Isotopes keep their excited states","An isotope refers to the container of excited states that it was given (documented as an array of states); without one it has an empty list of its own, so that states added to one isotope do not appear at another.","all containers (lists, dictionaries, arrays), all sequences of constructions","sharing of objects is not visible in the values that tests compare",["ries/constituents/isotope.py: Isotope.__init__"])
p("C116","Darboux sums bracket the integral in floating point","With rounding, inexact function values and any order of summation, the integral of a piecewise monotone function lies between the computed lower sum and lower sum plus gap, up to a small relative error that grows with the depth of the summation only.","all functions, grids, numbers of points, summation orders and roundings","tests compare with tolerances for a few functions",["ries/integration/darboux.py: darboux"])
p("C117", "Tabulated cross sections in floating point",
  "Evaluated with floating-point arithmetic, a tabulated cross section returns the tabulated value at a tabulated energy, and at an energy between two neighbouring rows a value between those of the two rows, up to a relative error of 1e-12.",
  "all tables of positive numbers, all shipped tables, all energies, every arithmetic with small relative errors",
  "the error bound must hold at every energy, and the exception (energies a few units in the last place below an absorption edge) has probability zero in random tests",
  ["ries/nonresonant/xrmac.py: XRMAC.__call__, interpolate_log_log"])
p("C118", "Compton kinematics and differential cross sections work entry by entry on arrays", "The Compton edge, the energy ratio, the scattering angle and the differential cross sections accept numbers and arrays of equal length in any combination (angles also as lists); the result is a new array with the values for the entries, no argument changes, and arrays of different lengths are rejected with a ValueError.", "all stores, all arrays of equal length, all combinations of numbers and arrays, all constants", "tests call the functions with a few numbers; in-place effects and mixed calls are not compared", ["ries/nonresonant/klein_nishina.py: KleinNishina.Ep_over_E, KleinNishina.theta, KleinNishina.compton_edge, KleinNishina.cs_diff_dOmega, KleinNishina.cs_diff_dOmega_unpolarized, KleinNishina.cs_diff_dtheta, KleinNishina.cs_diff_dEp, KleinNishina.cs_diff_dEp_dphi"])
p("C119", "One quantile in an array is treated like the number", "The quantile function of the pseudo-Voigt distribution returns, for an array with a single quantile, the array with the value that it returns for the number.", "all distributions, all quantiles, all supported versions of scipy", "tests call the function with numbers and with longer arrays, and with one version of scipy", ["ries/resonance/pseudo_voigt.py: PseudoVoigtDistribution.ppf"])
p("C120", "Quantiles of the pseudo-Voigt distribution are accurate in floating point", "If no warning is given, the probability below a returned energy differs from the requested quantile by no more than the tolerance of the search, the resolution of floating-point energies and the error of the distribution function allow.", "all distributions, all numbers and arrays of quantiles, every arithmetic with small relative errors", "tests check a few quantiles with tolerances; the bound must hold for every run of the iteration", ["ries/resonance/pseudo_voigt.py: PseudoVoigtDistribution.ppf"])
p("C121", "The documented value of hbar c is used throughout", "All cross sections are computed with the documented value hbar c = 197.3269804 MeV fm.", "all Compton cross sections (charges, masses, energies), all resonances, all editions of the tables of constants that come with scipy", "the deviation (1.6e-8) is below the tolerance of the tests, which take the constants from the same table", ["README.md", "ries/resonance/resonance.py: Resonance.__init__", "ries/nonresonant/klein_nishina.py: KleinNishina.__init__"])
p("C122", "An installation contains what the library needs and nothing else", "Installing ries with its setup script installs all modules and all data files that the library opens, and no modules outside of the package ries.", "all modules, all data files, all source directories that contain the repository", "the tests run in the source directory, where all files are present", ["setup.py", "MANIFEST.in", "ries/constituents/element.py", "ries/nonresonant/xrmac.py"])
p("C123", "The examples in the documentation work", "The examples in the documentation of the modules run as they are written and print the quantity that the text announces.", "all examples of scripts in the documentation, all data files with which the modules can be imported", "documentation is not executed by the tests", ["ries/constituents/element.py", "ries/resonance/debye_model.py", "ries/nonresonant/xrmac.py"])
p("C124", "Attributes changed after construction", "An object whose attributes have been changed after construction behaves like a new object that is constructed with these attributes.", "all Compton, thermal-motion, element, state and resonance objects, all sequences of assignments", "needs comparing objects after arbitrary edits with freshly constructed ones; the tests construct an object once and never change it", ["ries/nonresonant/klein_nishina.py: KleinNishina.__init__", "ries/resonance/maxwell_boltzmann.py: MaxwellBoltzmann.get_doppler_width", "ries/constituents/element.py: Element.__init__", "ries/constituents/state.py: State.__init__", "ries/resonance/resonance.py: Resonance.get_final_state_branching_ratio"])
p("C125", "Pseudo-Voigt values are accurate in floating point", "Evaluated in floating point, from level data, mass and temperature to the value at an energy, the pseudo-Voigt cross section has a relative error of a few hundred roundings near the resonance, and everywhere an error of a few hundred roundings of the value plus about a hundred roundings of the maximum.", "all levels, masses, temperatures and energies, all roundings with a given relative error (no overflow, no underflow)", "rounding errors of a formula with cancellations, fifth roots and exponentials; tests compare a few values with a tolerance", ["ries/resonance/pseudo_voigt.py: PseudoVoigtDistribution.get_Gamma", "ries/resonance/pseudo_voigt.py: PseudoVoigtDistribution.get_eta", "ries/resonance/pseudo_voigt.py: PseudoVoigtDistribution.pdf", "ries/resonance/pseudo_voigt.py: PseudoVoigt.__init__"])
p("C126", "Pseudo-Voigt and Voigt cross sections agree within 1.2 %", "The pseudo-Voigt cross section deviates from the Voigt cross section of the same states by less than 1.2 %, and the approximation is exact in the limits of a narrow and of a broad resonance.", "all levels, masses, temperatures and energies", "a bound over a continuum of widths, temperatures and energies; the tests compare the two at a few energies with a tolerance", ["ries/resonance/pseudo_voigt.py: PseudoVoigtDistribution.pdf", "ries/resonance/pseudo_voigt.py: PseudoVoigtDistribution.get_Gamma", "ries/resonance/pseudo_voigt.py: PseudoVoigtDistribution.get_eta", "ries/resonance/voigt.py: SemiPseudoVoigtDistribution.pdf"])
p("C127", "Grids with one point or none", "For the same limits and number of points, the energy grid and the probability grid have the same first point and the same number of points, also if only one point or none is requested; this holds alike for resonances, constants and sums.", "all resonances, limits, coverages and numbers of points including 1, 0 and negative ones", "tests request grids with several points only; the claim is about every number of points and every distribution", ["ries/resonance/resonance.py: Resonance.equidistant_probability_grid", "ries/resonance/resonance.py: Resonance.equidistant_energy_grid", "ries/cross_section.py: CrossSectionWeightedSum.equidistant_probability_grid", "ries/cross_section.py: ConstantCrossSection.equidistant_probability_grid"])
p("C128", "The Darboux sums returned are true lower and upper sums", "The pair (L, D) returned by the Darboux integration brackets like genuine Darboux sums: for a bounded function L is at least the true lower sum of the grid and L + D at most its true upper sum, with equality exactly if the extrema of each interval are taken at its ends; for a function monotone on every interval L and L + D are the true lower and upper sums.", "all functions bounded on bounded intervals and all nonempty ordered grids; all functions monotone on each interval", "a test compares with a known integral for a few functions, it does not compute infima and suprema over intervals", ["ries/integration/darboux.py: darboux"])
p("C129", "All cross-section classes can be called with the same argument names", "Every cross-section class offers the same methods with the same parameter names, so that a call with keyword arguments that works for one class works for all of them.", "all classes of the cross-section hierarchy and of the weighted sums, all methods and all combinations of positional and keyword arguments", "tests call methods positionally on single classes; nobody enumerates calls over classes", ["ries/cross_section.py: CrossSection.__call__", "ries/cross_section.py: CrossSectionWeightedSum.__call__", "ries/cross_section.py: CrossSectionWeightedSum.equidistant_energy_grid", "ries/cross_section.py: CrossSectionWeightedSum.equidistant_probability_grid"])
p("C130", "The partitioned quadrature accepts the documented shape of the partition", "A partition given as an array of the documented shape (1, n) gives the integral over the whole range, as a one-dimensional array with the same entries does.", "all integrands, all quadrature routines, all partitions and ranges of further coordinates", "a test passes a one-dimensional array or list; a silent result (0, 0) raises no error", ["ries/integration/quad_partition.py: quad_partition"])
p("C131", "Rounding errors of partitioned quadratures are bounded by the number of pieces", "If every operation is rounded with relative error at most u, the integral over n pieces deviates from the exact sum of the pieces by at most ((1+u)^n - 1) times the sum of their magnitudes, and the error estimate is exact up to factors (1±u)·(1±u)^((n+1)/2); together with accurate pieces the true error is bounded by these quantities.", "all rounding functions with relative error u, all integrands, quadrature routines and partitions", "tests use few pieces and a tolerance; a bound for all partitions needs induction over the loop", ["ries/integration/quad_partition.py: quad_partition"])
p("C132", "Reactions in a thick target", "The number of reactions in a target grows with its thickness, but two targets in a row give fewer reactions than both separately (so twice the thickness gives less than twice the reactions). Behind a target the photon flux has a single minimum at the resonance energy. The absorption density at a given depth has its maximum at the resonance energy exactly if the resonant optical depth there is at most one.", "all integrable cross sections, thicknesses and energy limits; for the minimum and maximum all four line shapes, all energies and depths", "the test and the notebook plot the functions for a few depths", [NB1+": alpha, count_rates", "tests/test_Phi_alpha_plot.py: BeamInTarget", "README.md: target"])
p("C133", "Order of the limits of a grid", "Exchanging the two limits of an equidistant energy or probability grid with more than one point gives the same points in reverse order, or the same exception. Grids of weighted sums do not depend on the order at all.", "all line shapes and levels that can be constructed, all limits, all numbers of points other than 1, all nested sums", "a test exchanges the limits of one resonance", ["ries/resonance/resonance.py: Resonance.equidistant_probability_grid", "ries/resonance/resonance.py: Resonance.equidistant_energy_grid", "ries/cross_section.py: CrossSectionWeightedSum.equidistant_probability_grid"])
p("C134", "Finer grids contain the coarser ones", "Refining an equidistant grid by an integer factor k (k(n-1)+1 instead of n points) keeps every old point: the old grid consists of every k-th point of the new one, or both calls raise the same exception. Grids of sums are nested as well. Consequently the Darboux sums of a coverage grid get better when the grid is refined: the lower sum does not decrease, the upper sum does not increase, and both enclose the integral.", "all box, Breit-Wigner and Gauss resonances and constant cross sections, all limits and coverages, all factors and numbers of points; for energy grids all resonances; for the Darboux sums all odd numbers of points (the resonance energy is a grid point)", "tests compare one grid size at a time", ["ries/resonance/resonance.py: Resonance.equidistant_probability_grid", "ries/resonance/resonance.py: Resonance.equidistant_energy_grid", "ries/cross_section.py: CrossSectionWeightedSum.equidistant_probability_grid", "ries/integration/darboux.py: darboux"])
p("C135", "Limits of the self absorption", "The self absorption R calculated in the notebook lies between the absorption of photons at the minimum and at the maximum of the cross section in the integration interval. For 6Li it is positive and at most 1 - exp(-s0 rho_A) with a peak cross section s0 that does not depend on the width of the level, the temperature, the scatterer or the coverage; with thermal motion it is at most proportional to the width, so it vanishes for narrow levels.", "all continuous positive cross sections and intervals; for 6Li all widths, temperatures, enrichments, diameters, masses and coverages for which the interval can be searched", "the notebook evaluates one absorber and one scatterer", [NB2+": R, width", RES+": Resonance.coverage_interval"])
p("C136", "Without Doppler broadening the self absorption does not depend on the width", "For a Breit-Wigner cross section integrated over a coverage interval, multiplying all widths of the excited state by any positive factor does not change the self absorption R, so any relation between width and R, which the notebook relies on, is a consequence of the thermal motion alone (C196: it need not be monotonic).", "all levels with positive width, all coverages strictly between 0 and 1, all targets, all positive factors", "the notebook inverts the relation numerically for a single target; no test compares widths", [NB2+": R, width", "ries/resonance/breit_wigner.py: BreitWigner", RES+": Resonance.coverage_interval"])
p("C137", "Recoil, Doppler widths, temperatures and element masses are accurate in floating point", "With a relative error of at most u per operation, the recoil-corrected energy of a free nucleus is accurate to five roundings (and the correction is not lost if it exceeds seven roundings), the Doppler width to eight, the effective temperature to nine; converting a temperature to a width and back returns the temperature up to 25 roundings. The mass of an element, calculated from the rounded tabulated numbers with any order of summation, raises the same exceptions as the exact calculation and otherwise has a relative error of at most (1+u)^(depth of the summation + 3) - 1.", "all masses, energies, temperatures and widths for which the functions are defined, all compositions with nonnegative masses and abundances, all orders of summation, all rounding functions with relative error u", "tests compare few values up to a tolerance", ["ries/resonance/recoil.py: FreeNucleusRecoil.__call__", "ries/resonance/maxwell_boltzmann.py: MaxwellBoltzmann.get_doppler_width", "ries/resonance/maxwell_boltzmann.py: MaxwellBoltzmann.get_effective_temperature", "ries/constituents/element.py: Element.amu_from_isotopic_composition"])
p("C138", "A failed inversion is reported", "When the Monte Carlo loop of the 6Li notebook has finished, every sampled width whose self absorption misses the sampled measured value by more than the stated absolute tolerance (1e-4) has been reported by a warning with the three numbers, and no other sample has.", "all sequences of random numbers, all numbers of samples, all self-absorption functions", "the outcome depends on random numbers and on a numerical minimization; a test can only look at a few runs", [NB2+": R_exp_tolerance, isclose"])
p("C139", "The inversion by minimization finds the width", "If the self absorption is a continuous and strictly monotonic function of the width, and takes the measured value near the start value, then the width found by the minimization of the 6Li notebook reproduces the measured value within the stated tolerance.", "all continuous strictly monotonic functions, all measured values in their range", "needs an argument about all runs of the simplex search; a test tries a few values", [NB2+": minimize, Nelder-Mead"])
p("C140", "Progress messages keep up", "In every pass of the Monte Carlo loop of the 6Li notebook, the fraction of processed samples exceeds the last printed percentage by at most one percent, and no percentage is printed before it is reached.", "all numbers of samples, all passes", "an invariant of a loop; tests do not look at the messages", [NB2+": update_percentage, current_percentage"])
p("C141", "Documented formulas are what the functions compute", "The formulas printed in the documentation of the Compton cross sections, of the thermal motion, of the effective temperature, of the recoil and of the integrated cross section give the numbers that the functions return, and the documented probability distributions are normalized.", "all constants, charges, energies, angles, masses, temperatures and states", "documentation is text; no test reads it, and comparing numbers for some inputs does not show agreement", ["ries/nonresonant/klein_nishina.py: KleinNishina", "ries/resonance/debye_model.py: effective_temperature_debye_approximation", "ries/resonance/maxwell_boltzmann.py: MaxwellBoltzmann", "ries/resonance/pseudo_voigt.py: PseudoVoigtDistribution", "ries/resonance/recoil.py: FreeNucleusRecoil", "ries/resonance/resonance.py: Resonance"])
p("C142", "Coverages and limits of every numeric type", "A coverage may be any number, of Python or of numpy, and limits may be any pair of numbers; anything else is rejected, by all cross sections in the same way.", "all resonance shapes, constants and nonresonant processes, all numbers, all numeric types, all sequences of limits, all numbers of points", "the behaviour depends on the type of the argument, of which tests use one or two", ["ries/resonance/resonance.py: Resonance.equidistant_energy_grid, Resonance.equidistant_probability_grid", "ries/cross_section.py: ConstantCrossSection.equidistant_probability_grid, CrossSection.equidistant_energy_grid"])
p("C143", "Integrals over the grid of a sum of cross sections converge", "If one of the constituents of a (nested) sum is a constant, a nonresonant process, or a Breit-Wigner or Gauss resonance, and no constituent has grid points outside of the limits, then the lower sum and the lower sum plus gap of every function continuous between the limits, on the equal-probability grid of the sum, tend to the integral when the number of points grows; the error is at most inversely proportional to the number of intervals if the function has a bounded slope.", "all limits, all such sums, all continuous functions, all accuracies, all numbers of points", "a limit for all functions and all sums; tests evaluate a few grids", ["ries/cross_section.py: CrossSectionWeightedSum.equidistant_probability_grid", "ries/integration/darboux.py: darboux"])
p("C144","Reaction rates in the layers of a target","The double integrals over depth and energy that the layer-target notebook computes numerically equal integrals over the energy alone: fraction passing the layers in front, times share of the resonance in the total cross section, times fraction not passing the layer. Hence all rates are positive, a layer in the shadow of an equally thick or thicker layer of the same material has a smaller rate, and all four rates together do not exceed the number of photons removed from the beam.","all nonnegative integrable cross sections, abundances, thicknesses and energy ranges","statement about double integrals of arbitrary functions",[NB1+": dN_dE_drho_I, dN_dE_drho_II, dN_dE_drho_III, dN_dE_drho_IV, N_116Sn_I, N_112Sn_II, N_116Sn_III, N_112Sn_IV, count_rates"])
p("C145","Widths from half lives, areal densities from masses","The width that the layer-target notebook assigns to a half life is the one for which the population is halved after every half life; the areal density it assigns to a mass, times area and mass of one nucleus, is the mass.","all half lives, times, masses","real-valued identities for all inputs",[NB1+": half_life_to_lifetime, sn112_II_areal_density, sn112_IV_areal_density, sn116_I_areal_density, sn116_III_areal_density"])
p("C146","Effective temperatures of all elements in the Debye table","For each element in the dictionary of Debye temperatures and each positive temperature the effective temperature can be computed from the entry, and is larger than the temperature.","all keys of the dictionary, all positive temperatures","all temperatures; the entries of the table are not tested",["ries/resonance/debye_model.py: effective_temperature_debye_approximation, room_temperature_T_D"])
p("C147","Dictionaries named in the documentation can be imported","Each dictionary with shipped data that the documentation names can be imported from a module of the package.","all named dictionaries, all modules with data, all contents of the data files","existence of a name for all data files; no test imports it",["ries/constituents/natural_element_data.py: NISTElementDataReader, Geant4DensityDataReader","ries/constituents/element.py: natural_elements","ries/nonresonant/xrmac.py: xrmac_cm2_per_g, xrmac_fm2_per_atom"])
p("C148","Darboux sums accept a partition in either direction","For a partition given in descending order the first number returned by darboux is still a lower bound of the integral from the first to the last point, and the first plus the second an upper bound, if the function is monotone on every interval.","for all functions monotone on the intervals and all descending partitions","tests use ascending grids; the sign of the increments matters for all descending ones",["ries/integration/darboux.py: darboux"])
p("C149","Every cross section can be integrated with Darboux sums over its own grid","Calling a cross section on the array of its own equal-probability grid and passing the values to darboux gives the Darboux sums, for every cross section built from constants, resonances and other cross sections.","for all cross sections, all arrays of energies","tests integrate resonances; which expressions return an array and which a number depends on their structure",["ries/integration/darboux.py: darboux",CSF+": ConstantCrossSection",CSF+": CrossSectionWeightedSum"])
p("C150","Equal-probability grids of nonresonant cross sections have equal shares","The intervals of the equal-probability grid of a nonresonant cross section, such as Compton scattering, contribute the same part of the integrated cross section.","for all charged particles, all energy ranges, all numbers of points","the shares are integrals over a continuum; tests only compare grid points",["ries/nonresonant/nonresonant.py: Nonresonant","ries/nonresonant/klein_nishina.py: KleinNishina"])
p("C151","User-defined probability distributions","A resonance whose probability distribution is replaced by any continuous distribution with pdf, cdf and ppf has the integrated cross section times the density as its value, integrates to the integrated cross section, has equal-probability grids and coverage grids with equal shares, and coverage intervals with equal tails.","for all continuous distributions (any support, with or without shape parameters), all limits, coverages and numbers of points","there are infinitely many distributions",[RES+": Resonance"])
p("C152","A weighted sum does not depend on the lists it was built from","After CrossSectionWeightedSum(reactions, scale_factors) the caller may change the two lists without changing the sum.","for all lists and all later edits","sharing shows only for particular sequences of edits",[CSF+": CrossSectionWeightedSum"])
p("C153","Coverage intervals are finite in floating point","For every coverage below 1 the coverage interval computed in floating point is finite and carries the requested fraction up to rounding errors.","for all Breit-Wigner and Gauss resonances and all floating-point coverages in [0,1)","2^62 coverages; the failure is at the largest of them",[RES+": Resonance"])
p("C154","Number of points of the grid of a sum","With n points per constituent between common limits, the grid of a sum of k constituents has at least n and at most k (n - 2) + 2 points; a sum of constants and nonresonant cross sections has exactly the n points of the equidistant grid.","for all sums, limits and numbers of points","depends on coincidences between the grids of arbitrary constituents",[CSF+": CrossSectionWeightedSum"])
p("C155","No overflow or underflow spoils a physical cross section","For constants, masses, temperatures, level energies, partial widths and photon energies in ranges that include everything physical (widths from 2^-100 to 2^100 MeV, transition energies from 2^-60 to 2^60 MeV, temperatures from 2^-60 to 2^60 K, distances from the resonance from 2^-100 to 2^60 MeV or zero), no intermediate result of the Breit-Wigner, Gauss, pseudo-Voigt and Voigt cross sections, the recoil correction, the Doppler width, the effective temperature, the total Klein-Nishina cross section and the Klein-Nishina cross sections per solid angle, polar angle and energy of the scattered photon leaves the range of double precision numbers, so that the computed values have the same small relative errors (for polarized photons, relative to the cross section perpendicular to the polarization) as if the range of exponents was unlimited.","all arithmetics that are accurate only where the exact result is zero or between 2^-1022 and 2^1023 in absolute value, all inputs in the ranges","Overflow and underflow occur in intermediate results (squares, fifth powers, reciprocals) for combinations of extreme inputs; tests use a handful of moderate values.",[RES,"ries/resonance/breit_wigner.py: BreitWigner","ries/resonance/gauss.py: Gauss","ries/resonance/pseudo_voigt.py: PseudoVoigtDistribution, PseudoVoigt","ries/resonance/voigt.py: SemiPseudoVoigtDistribution.pdf, Voigt","ries/resonance/recoil.py: FreeNucleusRecoil","ries/resonance/maxwell_boltzmann.py: MaxwellBoltzmann","ries/nonresonant/klein_nishina.py: KleinNishina.cs_total, cs_diff_dOmega, cs_diff_dOmega_unpolarized, cs_diff_dEp_dphi, cs_diff_dEp, cs_diff_dtheta"])
p("C156","Equal-probability grids of Voigt resonances have equal shares","equidistant_probability_grid(c or limits, n) of a Voigt resonance returns n sorted points (with explicit limits, from the lower to the upper one), and every interval between two neighbours carries the same share of the cross section, c/(n-1) of the total for a coverage c, up to a few percent of the total.","all Voigt resonances, all coverages in [0,1) or limits around E_r, all n >= 2","tests check the number of points of a grid; the shares would have to be integrated, for all widths and temperatures",[RES+": Resonance.equidistant_probability_grid","ries/resonance/voigt.py: SemiPseudoVoigtDistribution, Voigt"])
p("C157","Thermal motion spreads a resonance","For given states, a higher ratio of temperature and mass changes neither the resonance energy nor the integrated cross section of Gauss, pseudo-Voigt and Voigt resonances, but strictly lowers the cross section at the resonance energy, which is its maximum. For Gauss and Voigt resonances it also strictly lowers the amount of the cross section in every interval that is symmetric about the resonance energy.","all pairs of states with positive width and strength, all masses and temperatures (from 0 K for pseudo-Voigt and Voigt, above 0 K for Gauss), all interval lengths","a comparison for all pairs of temperatures and all intervals",["ries/resonance/gauss.py: Gauss","ries/resonance/pseudo_voigt.py: PseudoVoigt","ries/resonance/voigt.py: Voigt","ries/resonance/maxwell_boltzmann.py: MaxwellBoltzmann.get_doppler_width"])
p("C158","Full widths at half maximum","The cross section of a resonance is above one half of its maximum exactly closer than f/2 to the resonance energy and equal to it exactly at that distance. f is the width of the level for Breit-Wigner, 2 sqrt(ln 2) times the Doppler width for Gauss, and the documented width of Thompson et al. for pseudo-Voigt. For Voigt f is larger than the width of the level and larger than that of the Doppler broadening, and equal to the former at temperature zero.","all pairs of states with positive width and strength, all masses and temperatures, all energies","a statement about all energies and all parameters; the widths of a convolution have no closed form",["ries/resonance/breit_wigner.py: BreitWigner","ries/resonance/gauss.py: Gauss","ries/resonance/pseudo_voigt.py: PseudoVoigtDistribution.get_Gamma","ries/resonance/voigt.py: Voigt"])
p("C159", "Arrays of factors act entry by entry, from either side", "Multiplying a cross section (or an expression of cross sections, numbers and such products) by a one-dimensional numpy array, from the left or from the right, gives a cross section whose value at an energy is the array of the values with the single factors; at an array of energies of the same length entries are paired up, and the order of summands does not matter.", "for all expressions, all arrays of equal length n, all energies (numbers or arrays of length n)", "Tests multiply by single numbers only; the outcome depends on which operand's method Python calls, on broadcasting and on in-place accumulation, for expressions of any depth.", ["ries/cross_section.py: CrossSection.__mul__", "ries/cross_section.py: CrossSection.__rmul__", "ries/cross_section.py: CrossSectionWeightedSum.__mul__", "ries/cross_section.py: CrossSectionWeightedSum.__add__", "ries/cross_section.py: CrossSectionWeightedSum.__call__"])
p("C160", "Arrays of any shape are evaluated entry by entry", "A cross section (a sum nested in any way) called with an array of energies of any number of dimensions returns the values at the single energies in an array of the same shape (a single number if it consists of constants only). The Compton kinematics and differential cross sections, called with several arrays, follow the broadcasting rules: if the shapes can be stretched to a common one, the result has the smallest such shape and holds the values for the stretched arguments, otherwise ValueError is raised.", "for all classes, all expressions of them, all numbers of dimensions, all shapes (also with axes of length 0 or 1), all entries in the domain of the functions", "Tests use one-dimensional arrays or single numbers; shapes are infinitely many, and an operation that mixes axes shows up for some of them only.", ["ries/cross_section.py: CrossSectionWeightedSum.__call__", "ries/resonance/resonance.py: Resonance.__call__", "ries/resonance/pseudo_voigt.py: PseudoVoigtDistribution.pdf", "ries/nonresonant/klein_nishina.py: KleinNishina.cs_total", "ries/nonresonant/klein_nishina.py: KleinNishina.cs_diff_dEp_dphi", "ries/nonresonant/xrmac.py: XRMAC.__call__"])
p("C161", "Photon flux on a table of depths and energies", "Photon flux and absorption density in a target, evaluated on the two arrays of np.meshgrid(z, e), form a table whose entry in row i and column k is the value at the energy e[i] and the depth z[k]. The depths z and the column e[:, None] give the same table. One-dimensional arrays of different lengths raise ValueError unless one has a single entry.", "for all resonant cross sections that work entry by entry, all nonresonant ones that may also return a single number, all lists of depths and energies", "The test draws one table and asserts nothing about it.", ["tests/test_Phi_alpha_plot.py: BeamInTarget.photon_flux_density", "tests/test_Phi_alpha_plot.py: BeamInTarget.resonance_absorption_density"])
p("C162", "Absorption densities add up to the self absorption", "In the 6Li notebook, the resonance-absorption density is the rate at which the photon-flux density falls with the areal density, so its integral over a layer is the loss of flux in that layer, and the self absorption R, in which this integral has been solved by hand, equals the ratio of the two-dimensional integrals of the plotted densities in either order of integration. Up to the depth where the flux on resonance has fallen to 1/e the absorption density is largest at the resonance energy; deeper in the target it has a minimum there.", "all resonance shapes with positive integrated cross section, all energies, depths, absorbers, scatterers and energy limits", "integrals over two continuous variables; the notebook only plots the densities", [NB2+": photon_flux_density, resonance_absorption_density, R"])
p("C163", "Names in a program behave like values", "In any program made of assignments, +=, *=, loops over lists and try blocks that adds cross sections and numbers and multiplies them by numbers, every name stands for a number or a function of the energy of its own: it has the value that the same assignments give in mathematics, names that refer to the same object do not influence each other, no existing object changes, and a failing statement (a name without value, a difference, quotient or negative of a cross section) leaves all names as they are. Adding up a list with += gives the sum; a + (-1)*b is the difference that a - b refuses to form.", "all programs, all initial objects, all aliases, all energies, all recursion limits above 1", "programs and ways of sharing objects are infinitely many; an in-place += would only show when a second name is inspected", ["ries/cross_section.py: CrossSection.__add__", "ries/cross_section.py: CrossSection.__mul__", "ries/cross_section.py: CrossSectionWeightedSum.__add__", "ries/cross_section.py: CrossSectionWeightedSum.__mul__"])
p("C164","Darboux sums respect the arithmetic of cross sections","Darboux sums of adjacent intervals add up: if a partition is cut at one of its points, the lower sum of the whole is the sum of the lower sums of the pieces, and on an ordered partition the gaps add up too. On an ordered array of energies the interval [lower sum, upper sum] of a + b lies inside the sum of the intervals of a and b; adding a number c adds exactly c times the length of the range and leaves the gap; a factor c >= 0 multiplies lower sum and gap, a factor c <= 0 exchanges lower and upper sum; and a cross section that is nowhere smaller has a lower and an upper sum that are not smaller.","for every function, every partition and every point of it; for all cross sections composed of sums, factors, constants and other cross sections that contain something else than constants, all arrays of energies at which they can be evaluated, and all real numbers c","A test integrates a few functions; that integrals of composed cross sections are consistent with those of their parts concerns all of them and all grids.",["ries/integration/darboux.py: darboux","ries/cross_section.py: CrossSectionWeightedSum"])
p("C165","Scaling all energies scales the cross sections","If all excitation energies and partial widths of the states are multiplied by a number c > 0 (same mass and temperature), the construction of a resonance raises the same exception or gives a resonance whose energy is c times as large, whose energy-integrated cross section is 1/c times as large, and whose value at c E is 1/c^2 times the value at E. The coverage intervals and grids of Breit-Wigner and Gauss resonances are multiplied by c. The total Compton cross section at c E for a particle of mass c m is 1/c^2 times that at E for the mass m.","for every resonance class, all states, final states, masses, temperatures, energies, coverages, limits and numbers of points, and all c > 0","A dimensional error (an energy or a width entering with a wrong power) in any formula violates this for almost all inputs but may not show at the energies of a test; the law relates infinitely many pairs of inputs.",["ries/resonance/resonance.py: Resonance","ries/resonance/breit_wigner.py: BreitWigner","ries/resonance/gauss.py: Gauss","ries/resonance/pseudo_voigt.py: PseudoVoigt","ries/resonance/voigt.py: Voigt","ries/resonance/maxwell_boltzmann.py: MaxwellBoltzmann","ries/nonresonant/klein_nishina.py: KleinNishina"])
p("C166","Attenuation against energy: edges jump up, and it falls from the last edge to 4 MeV","For every element from hydrogen to uranium, the shipped mass attenuation coefficient is continuous in the photon energy except for jumps, and every jump leads to a larger value. From 0.115606 MeV (the highest absorption edge of all elements) to 4 MeV the coefficient decreases strictly with the energy; for the elements up to phosphorus this holds from 0.0022 MeV to 20 MeV. Beyond 4 MeV it can increase again.","for all elements with Z from 1 to 92 and all real photon energies, tabulated or not; for all sorted tables with decreasing rows","Tests evaluate the interpolation at some energies of some elements; that a continuum of energies between the rows keeps the order needs a proof about the interpolation, and all 469 edges of 92 files have to be covered.",["ries/nonresonant/xrmac.py: XRMAC","ries/nonresonant/xrmac.py: xrmac_cm2_per_g"])
p("C167","Angular distribution of Compton scattering","Linearly polarized photons are scattered least along the direction of polarization and most perpendicular to it, with the documented symmetries of the azimuthal angle, and two perpendicular directions together always give the same. Straight ahead is the most probable direction at every energy, whatever the polarization. In every other direction the unpolarized cross section falls strictly with the energy; the polarized one does so exactly if (sin(theta) cos(phi))^4 <= 3/4, and along the polarization at a right angle it grows from zero up to twice the electron mass.","for all positive numbers of electrons and masses, all nonnegative photon energies and all real angles","Extrema and monotonicity over continuous angles and energies; the exact set of directions in which the cross section is monotone cannot be found by sampling.",["ries/nonresonant/klein_nishina.py: KleinNishina"])
p("C168","Darboux sums of arrays with several axes","The function for Darboux sums is documented for one-dimensional partitions. A partition or values with another shape are rejected, never combined silently to a number that is not an integral.","for all finite real vectors, matrices and arrays with more axes as partition and as values, and all functions that work entry by entry","Shapes and entries are arbitrary; a test with a few shapes sees only errors and misses the broadcast between a column and a row.",["ries/integration/darboux.py: darboux"])
p("C169","Resonances far from their maximum","Thermal motion does not change the wings of a resonance: far from the resonance energy, Voigt and pseudo-Voigt cross sections approach the Breit-Wigner cross section of the same states, and for levels that are broad compared with the Doppler width they are close to it at every energy. A Gauss cross section has no wings.","for all states with a positive width and strength, all positive masses, all nonnegative temperatures and all energies","A limit at infinite distance and inequalities over all energies and widths; the improper convolution integral can only be sampled.",["ries/resonance/voigt.py: Voigt","ries/resonance/pseudo_voigt.py: PseudoVoigt","ries/resonance/breit_wigner.py: BreitWigner","ries/resonance/gauss.py: Gauss"])
p("C170","Compton spectra can be integrated with Darboux sums","The Darboux sums of the energy-differential Compton cross section over a partition of the energies between 0 and the energy of the photon converge to the total cross section as the partition gets finer, and so do those of the angle-differential cross section between 0 and pi.","for all photon energies, numbers of electrons and partitions","The claim is about a limit over all partitions; tests use partitions of the possible energies, where no nan occurs.",["ries/nonresonant/klein_nishina.py: KleinNishina","ries/integration/darboux.py: darboux"])
p("C171","States given in the wrong order are rejected","If the partial widths of all states belong to lower-lying states, as documented, then every resonance that can be constructed leads from a lower state to a higher one and (with a final state) down again, has a positive resonance energy, and the same two states in the opposite order raise an exception.","for all level schemes, classes of resonances, parameters and optional final states","No code compares two energies, the order follows from the keys of dictionaries; tests use single correct pairs.",["ries/resonance/resonance.py: Resonance","ries/constituents/state.py: State"])
p("C172","Self absorption of thin targets","For thin targets the self absorption R of the 6Li notebook divided by the areal density of the absorber is the mean cross section (integral of the squared cross section over integral of the cross section between the energy limits). R is never larger than this, for targets of any thickness, and smaller by explicit amounts. Over all energies the mean is 1/2 of the maximum for a Breit-Wigner and 1/sqrt(2) of it for a Gauss resonance.","for all continuous positive cross sections, energy limits and areal densities","A limit, and bounds for all thicknesses; the notebook evaluates single values.",[NB2+": R","ries/resonance/resonance.py: Resonance"])
p("C173","Every unphysical coverage interval is announced to the user","Whenever coverage_interval returns a negative lower limit (or an infinite upper limit) the user sees a warning about it, in whatever order and however often resonances are asked for their intervals in one program.","for all sequences of calls of coverage_interval, with any resonances and coverages, under Python's usual treatment of repeated warnings and under the action 'always'","a test captures warnings with pytest.warns, which switches the filter to 'always', so it cannot see that warnings are suppressed in a program; and the claim is about all sequences of calls",["ries/resonance/resonance.py: coverage_interval"])
p("C174","No cross section exceeds the unitarity limit","The cross section of a single resonance, for any channel, temperature and energy, never exceeds lambda^2/(2 pi) (2J+1)/(2J0+1), the largest cross section that unitarity allows for exciting a state of spin J from a state of spin J0 with photons of the wavelength lambda of the resonance.","for all states with nonnegative partial widths, all channels, masses, temperatures and energies, all line shapes","the tests compare single values of the shapes with each other; a bound at all energies, temperatures and widths is a statement about maxima of functions",["ries/resonance/breit_wigner.py: BreitWigner","ries/resonance/gauss.py: Gauss","ries/resonance/pseudo_voigt.py: PseudoVoigt","ries/resonance/voigt.py: Voigt","ries/resonance/resonance.py: get_energy_integrated_cross_section"])
p("C175","A reaction and its reverse obey reciprocity","For a reaction from state a to state b through an intermediate state, and the reverse reaction from b to a: (2Ja+1) Ea^2 times the energy-integrated cross section of the reaction equals (2Jb+1) Eb^2 times that of its reverse, where Ea and Eb are the photon energies of the resonances; the same holds for Breit-Wigner cross sections at every distance from the resonance energy.","for all states, all partial widths (also negative ones, which the code accepts) and all line shapes; for Breit-Wigner and Gauss at all energies","a relation between two objects with exchanged roles of the states for all spins, energies and widths; no test constructs a reverse reaction",["ries/resonance/resonance.py: get_energy_integrated_cross_section","ries/resonance/resonance.py: get_final_state_branching_ratio","ries/resonance/resonance.py: get_statistical_factor"])
p("C176","Tabulated attenuation and Compton scattering are consistent","For every natural element, the attenuation cross section of an atom given by xrmac_fm2_per_atom is at least the Klein-Nishina cross section KleinNishina(Z) of its electrons at energies where binding is negligible, up to the precision of the tables; for hydrogen, where nothing else contributes, the two agree between 20 keV and 2 MeV.","for all elements from hydrogen to uranium, all tabulated energies and all energies in between or outside, and all values of the physical constants that agree with CODATA in six digits","The two classes get their numbers from different sources (tables in MeV and cm2/g, isotopic masses, CODATA constants), so that a wrong unit, a wrong mass or a wrong formula shows only in the comparison of thousands of numbers; the existing tests check each class on its own at single energies.",["ries/nonresonant/xrmac.py: XRMAC", "ries/nonresonant/xrmac.py: xrmac_fm2_per_atom", "ries/nonresonant/klein_nishina.py: KleinNishina", "ries/constituents/natural_element_data.py: NISTElementDataReader"])
p("C177","Tables that contain the energy zero","A table given by the user may tell the cross section at zero energy by a row: XRMAC then returns this value at zero, and between zero and the next energy a number between the two tabulated values.","for all tables that start with any number of rows for energy zero and continue with positive energies in ascending order, all nonnegative values at zero, and all energies; for tables of positive energies in any order, with any values","The interpolation works with logarithms, so that the row becomes a point at minus infinity; what comes out is decided by the treatment of infinities and nan in numpy's interpolation formula, at all energies below the first positive one. No test uses such a table.",["ries/nonresonant/xrmac.py: XRMAC.interpolate_log_log", "ries/nonresonant/xrmac.py: XRMAC.__call__"])
p("C178","Coverages outside the interval from 0 to 1","coverage_interval(coverage) documents its argument as a float between 0 and 1. A call with a number that is no probability (for example 95, meant as a percentage, or a negative number) is rejected by an exception, and so are the grids built from it; no limits are returned.","for all resonances of all classes and all real coverages below 0 or above 1","The answer depends on the quantile functions of the distributions and, for pseudo-Voigt and Voigt resonances, on the behaviour of a Newton iteration towards a value that does not exist, for all widths and all coverages; tests try a few valid coverages.",["ries/resonance/resonance.py: Resonance.coverage_interval","ries/resonance/resonance.py: Resonance.equidistant_energy_grid","ries/resonance/pseudo_voigt.py: PseudoVoigtDistribution.ppf"])
p("C179","Masses of natural elements agree with the standard atomic weights","For every element with a tabulated isotopic composition, the isotopic abundances of the element offered by the library add up to one, and its mass agrees with the standard atomic weight that the data file lists for the element (lies in the listed interval, or differs from the listed value by at most 2.5 times the listed uncertainty).","for all 118 elements of the shipped data file","A unit test compares the masses of chosen elements with typed-in numbers; the claim compares all elements with an independent column of the data file, which the library itself does not read",["ries/constituents/element.py: Element.amu_from_isotopic_composition","ries/constituents/natural_element_data.py: NISTElementDataReader"])
p("C180","Effective temperatures are accurate in floating point","The effective temperature that is computed for a temperature and a Debye temperature in floating-point arithmetic with a numerical quadrature differs from the exact effective temperature by a small multiple of the relative error of the quadrature and of the rounding unit, as long as the temperature is not many orders of magnitude above the Debye temperature; it is positive and obeys the physical bounds up to this error.","for all positive temperatures and Debye temperatures with T <= T_D/(1000 u), all accurate arithmetics and all quadratures with nonnegative weights","A test compares a few temperatures with reference values; it says nothing about the cancellation in exp(t) - 1 at small t, which could spoil the result at other temperatures",["ries/resonance/debye_model.py: effective_temperature_debye_approximation"])
p("C181","Small errors of the input cause small relative errors of the cross sections","Relative errors of energies, widths, temperatures and masses are not blown up. If the energy is off by h, the Breit-Wigner and Voigt cross sections of a level of total width w change by at most the factor exp(2|h|/w), at every energy; for a Gauss cross section there is no such bound. If all partial widths of the excited level are multiplied by a factor between 1 and f, these cross sections grow by a factor between 1 and f squared. If the ratio of temperature and mass grows by a factor f, the Gauss and Voigt cross sections fall by at most the square root of f anywhere, and at the resonance energy they do not grow. For f up to 2, a Voigt cross section grows nowhere by more than the power 2(1 - 1/f) of the ratio of the maximum of the Breit-Wigner cross section to the value (times the square root of 2), so that small changes of the temperature have small effects in the wings, too. If the energy of a photon grows by a factor f, the total Compton cross section and the differential cross section of unpolarized photons at a fixed angle fall by a factor between 1 and f.","All levels with a lower initial energy and a positive width, all energies and energy shifts, all factors, all positive masses and temperatures, all photon energies and scattering angles.","Tests evaluate a handful of parameter sets; a bound on the sensitivity is a statement about all pairs of nearby inputs, including far wings.",["ries/resonance/breit_wigner.py: BreitWigner","ries/resonance/voigt.py: Voigt","ries/resonance/gauss.py: Gauss","ries/nonresonant/klein_nishina.py: KleinNishina"])
p("C182","Unphysical parameters are not turned into a cross section","A resonance with a mass that is not positive, a negative temperature or a width that is not positive is refused: constructing or evaluating it raises an exception or yields nan, never a number that could be mistaken for a cross section.","All levels, masses, temperatures, energies and resonance classes.","A test can try some wrong parameters; that no combination of wrong parameters slips through is a statement about all of them.",["ries/resonance/maxwell_boltzmann.py: MaxwellBoltzmann.get_doppler_width","ries/resonance/gauss.py: Gauss","ries/resonance/pseudo_voigt.py: PseudoVoigt","ries/resonance/voigt.py: Voigt","ries/resonance/breit_wigner.py: BreitWigner"])
p("C183","Attenuation beyond the last absorption edge follows a tame power law","Beyond its last absorption edge, the shipped mass attenuation coefficient of every element decreases with the energy up to 4 MeV, never faster than the power -16/5 of the energy, and never rises faster than the cube root of the energy up to 20 MeV, so that a small relative error of the photon energy changes the attenuation by at most about three times as much.","for all elements with Z from 1 to 92 and all pairs of photon energies between the last edge and 20 MeV, tabulated or not","Two wrong-looking rows in 92 files (thulium and chromium at the K edge) break the statement; a test at selected energies does not meet them, and between the rows it is a statement about a continuum of energies.",["ries/nonresonant/xrmac.py: XRMAC","ries/nonresonant/xrmac.py: xrmac_cm2_per_g"])
p("C184","Heavier atoms attenuate more","At every photon energy from 0.15 MeV on (above all absorption edges), the attenuation cross section of an atom given by xrmac_fm2_per_atom increases strictly with the atomic number from hydrogen to uranium.","for all pairs of elements with Z from 1 to 92 and all real photon energies from 0.15 MeV on, tabulated or not","The order of 92 cross sections at a continuum of energies combines the tables, the masses computed from the isotope data and the interpolation; a wrong mass, unit or row of a single element breaks it, and tests look at single elements and energies.",["ries/nonresonant/xrmac.py: XRMAC","ries/nonresonant/xrmac.py: xrmac_fm2_per_atom","ries/constituents/natural_element_data.py: NISTElementDataReader"])
p("C185","Partitioned quadrature of a resonance on its own grid","For a Breit-Wigner or Gauss resonance and n >= 2, quad_partition of an integrand that is the cross section times a continuous function of further coordinates, with the resonance's own equidistant_probability_grid(limits, n) as the partition, gives the integral of the cross section between the limits times the integral of the other factor; with a coverage c instead of limits it gives c times energy_integrated_cross_section times that integral. If the integrator is accurate on every piece to the error that it reports, this holds up to sqrt(n - 1) times the returned error, and every piece contributes the same amount; with an exact integrator it holds exactly with returned error zero. For (nested) weighted sums of such resonances, nonresonant processes and constants with limits, the result is the integral of the sum between the limits, up to the square root of the number of pieces times the returned error.","all Breit-Wigner and Gauss resonances, all limits a < b and coverages 0 < c < 1, all n >= 2, any number of further coordinates with any limits, all continuous factors, all integrators that are accurate on the pieces; all sums built from such objects whose value is continuous","the combination of grid and quadrature is tested for one resonance against a numerical integral with a tolerance; that the result is a fixed fraction of the closed-form integral for every resonance, coverage and number of points is a statement about all of them",["ries/integration/quad_partition.py: quad_partition","ries/resonance/resonance.py: Resonance","ries/resonance/breit_wigner.py: BreitWigner","ries/resonance/gauss.py: Gauss","ries/cross_section.py: CrossSectionWeightedSum"])
p("C186","How much of a resonance lies between limits","If limits reach to at least the distance L > 0 on both sides of the resonance energy, the integral of the cross section between them is at most energy_integrated_cross_section and at least (1 - x) times it, where the fraction x left out is bounded by the widths: Gamma / (pi L) for Breit-Wigner (exactly (2/pi) arctan(Gamma / (2 L)) for limits at the distance L), exp(-(L/Delta)^2) for Gauss, 2 Gamma / (pi L) + exp(-(L/Delta)^2 / 4) for Voigt, and 0.69 Gamma / (pi L) + 2^(-(2 L / (2 sqrt(ln 2) Delta + Gamma))^2) for pseudo-Voigt cross sections, with the total width Gamma and the Doppler width Delta. Hence quad_partition of a Gauss resonance on its own grid between such limits gives energy_integrated_cross_section up to sqrt(n - 1) times the returned error plus the fraction above.","all resonances of the four shapes with positive widths and nonnegative integrated cross section, all L > 0, all enclosing limits, all n >= 2, all integrators that are accurate on the pieces, any further coordinates","tests check one resonance and one pair of limits with a tolerance; how far the limits must reach for a desired accuracy is a statement about all distances and widths",["ries/resonance/resonance.py: Resonance","ries/resonance/breit_wigner.py: BreitWigner","ries/resonance/gauss.py: Gauss","ries/resonance/voigt.py: Voigt","ries/resonance/pseudo_voigt.py: PseudoVoigt","ries/integration/quad_partition.py: quad_partition"])
p("C187","The quantile search of the pseudo-Voigt distribution converges in floating point","In floating-point arithmetic (relative error u per operation, computed CDF off by at most eta, computed PDF off by at most eta relative to its value in the searched region) `PseudoVoigtDistribution.ppf` returns numbers without a warning, for every nonempty array of quantiles between eps and 1-eps and for every single such quantile, if u (|E_r| + 2 G/eps) + 3 (eta+u) G <= 5e-11 eps^2 with G the sum of Doppler and natural width; the CDF at each returned energy misses the quantile by no more than C120 allows. If G is smaller than 1e-7 MeV, the quantiles must be the median or differ from it by at least 1e-9 MeV / G.","all centres, all widths that are not both zero, all arithmetics and computed functions with these error bounds, all eps > 0, all quantiles and arrays of quantiles","Whether Newton's iteration ends within 50 steps depends on rounding errors at every step; a test tries single quantiles on one machine.",["ries/resonance/pseudo_voigt.py: PseudoVoigtDistribution.ppf"])
p("C188","Pseudo-Voigt coverage intervals and grids in floating point","For a pseudo-Voigt resonance whose widths add up to G >= 1e-7 MeV, in floating-point arithmetic with the errors u, eta of C187 (small compared to eps): for coverages between 0 and 1 - 2.002 eps, `coverage_interval` returns two finite energies within G/eps of the resonance that enclose the requested fraction of the cross section up to 7.8e-8 MeV / max(width) + 2 eta + 4 u, and warns about a negative limit exactly if the lower limit is negative. `equidistant_probability_grid` with a coverage, or with limits whose probabilities keep a distance 1.001 eps from 0 and 1, returns a grid of the requested number of finite points whose neighbours enclose equal shares of the cross section up to errors of this size; with limits, the first and last point are exactly the limits. The points increase strictly as soon as these shares exceed their errors.","all pseudo-Voigt resonances with widths in the stated range, all arithmetics and computed distribution functions with these error bounds, all eps, coverages, limits, and numbers of points","The result combines rounding errors of linspace, of the quantiles, and of every step of an iterative search; a test compares one grid with one tolerance.",["ries/resonance/resonance.py: Resonance.coverage_interval, Resonance.equidistant_probability_grid","ries/resonance/pseudo_voigt.py: PseudoVoigtDistribution.ppf, PseudoVoigt"])
p("C189","Integrating a resonance over its own grid in floating point","A Breit-Wigner or Gauss resonance is built from two levels, asked for its grid of equal probability between two energies, evaluated on that grid and integrated with the Darboux sums, as the documentation suggests. With every operation rounded, from the partial widths to the last addition, the returned lower sum, and lower sum plus uncertainty, agree with the integral of the exact cross section up to the error of a sum over n - 1 intervals plus a small multiple of the machine precision: the errors of the construction, of the grid, of the values and of the summation do not amplify each other. The same holds for pseudo-Voigt resonances, whose grids come from an iterative search, with the accuracy of that search in place of the machine precision.","all pairs of levels with nonnegative partial widths and exact energy difference, positive total width or temperature and mass, all limits a < b that are floating-point numbers and enclose more than a few n times the machine precision of the resonance, all numbers of points, all arithmetics with monotone and accurate rounding, all orders of summation","A test compares one resonance on one grid with a tolerance; that the rounded width, the rounded quantiles, the rounded values and the rounded sums stay compatible for all levels, limits and numbers of points is a statement about all of them together.",["ries/resonance/breit_wigner.py: BreitWigner","ries/resonance/gauss.py: Gauss","ries/resonance/resonance.py: Resonance.equidistant_probability_grid","ries/integration/darboux.py: darboux"])
p("C190","Sums of cross sections integrate correctly over their common grid in floating point","If resonances, Compton scattering, constants and other nonresonant cross sections are combined with nonnegative factors to a weighted sum (also of sums), the points of equal probability of the sum between two limits are computed, the sum is evaluated on them and the Darboux sums are formed, every operation rounded, then both sums differ from the integral of the exact weighted sum by no more than the weighted sum of what each constituent would lose on its own grid, plus a relative error of a few units in the last place per constituent and per level of the summation.","all lists of constituents and nonnegative factors, all limits and numbers of points for which each constituent is resolved by its own grid, all monotone roundings of relative error u, all orders of summation, nested sums to any depth","a test compares single sums of two resonances with a tolerance; how the resolution of every constituent carries over to the union of the grids, and how errors accumulate for any number of constituents, needs a proof",["ries/cross_section.py: CrossSectionWeightedSum.__call__","ries/cross_section.py: CrossSectionWeightedSum.equidistant_probability_grid","ries/integration/darboux.py: darboux","ries/nonresonant/nonresonant.py: Nonresonant.equidistant_probability_grid"])
p("C191","Grids, coverage intervals and integrals of Voigt resonances in floating point","The program run in floating point finds grids and coverage intervals of a `Voigt` resonance with the pseudo-Voigt distribution of the same arguments and evaluates the exact profile on them. Nevertheless: a coverage interval contains the requested fraction of the Voigt cross section, a grid between two limits consists of strictly increasing points with both limits exact and nearly equal shares of the Voigt cross section, in both cases up to the accuracy of the search and 2.1 times the ratio of natural width and Doppler width; and both Darboux sums of the resonance over its own grid, alone or in a sum of cross sections, approximate the integral of the Voigt cross section with an error that decreases like one over the number of points until the accuracy of the search and the rounding errors dominate - without any error of the order of the ratio of the widths.","all Voigt resonances with positive natural width and temperature, all arithmetics with bounded relative error, all computed profiles and distribution functions with bounded error, all limits or coverages whose quantiles the search can find, all numbers of points whose shares exceed the accuracy of the search, all orders of summation","Tests compare a grid or an integral for one resonance and one tolerance; they cannot show that a grid made for one line shape resolves another one, for all widths, limits and numbers of points and for every rounding behaviour.",["ries/resonance/voigt.py: SemiPseudoVoigtDistribution.pdf","ries/resonance/voigt.py: Voigt","ries/resonance/pseudo_voigt.py: PseudoVoigtDistribution.ppf","ries/resonance/resonance.py: Resonance.coverage_interval","ries/resonance/resonance.py: Resonance.equidistant_probability_grid","ries/integration/darboux.py: darboux"])
p("C192","Tabulated attenuation in floating point is the interpolation of the table","The cross section that the program computes from a table in floating point (decimal logarithms, interpolation operation by operation, power of ten, numbers of the file rounded when they are stored) is the exact log-log interpolation of the numbers in the file: for each of the 92 shipped elements the two differ by a relative error of at most 5e-12 at every floating-point energy between two rows, except directly below an absorption edge (where C117 is refuted), and at every energy between 0.116 and 19 MeV without exception. The error does not grow when rows lie close to each other, only with the steepness of the cross section. A table can thus be a constituent of the integrals of sums of C190.","for all tables of positive numbers sorted by energy, all roundings, logarithms and powers with bounded relative errors, all shipped elements and all energies as stated","tests evaluate a few energies; that cancellation in the differences of logarithms (rows at almost equal energies) cannot spoil a value is a statement about all energies and all admissible libraries",["ries/nonresonant/xrmac.py: XRMAC","ries/nonresonant/xrmac.py: read_nist_xrmac"])
p("C193","The attenuated photon flux and the absorption rates are reliable for thick targets, also where the flux underflows","The photon flux computed from nonresonant and resonant cross sections, an enrichment and a depth lies between 0 and 1, is 1 at the surface, does not increase with the depth, and differs from the exact exponential attenuation by a few units of roundoff (plus the relative error of the cross sections), no matter how thick the target is and also where the exponential underflows. The rate of resonance absorption differs from the exact one by a correspondingly small fraction of the rate without attenuation. The rates in the four layers of the layered target have the same accuracy; only the rounded positions of the boundaries add an error in proportion to the optical thickness.","all arithmetics with monotone rounding and gradual or abrupt underflow, all cross sections that are not negative with any relative error up to 1/100, all enrichments, depths and layer thicknesses that are not negative, all energies","the tests and notebooks plot the functions for a few parameters; that rounding errors in the exponent do not add up with the thickness needs an argument about all inputs",["notebooks/layer_target.ipynb: Phi","notebooks/layer_target.ipynb: alpha","notebooks/layer_target.ipynb: dN_dE_drho_I, dN_dE_drho_II, dN_dE_drho_III, dN_dE_drho_IV","tests/test_Phi_alpha_plot.py: BeamInTarget"])
p("C194","The self absorption is as accurate as the quadrature relative to the number of absorbed photons","If the numerical quadrature meets the tolerances that it promises (the larger of an absolute and a relative one, 1.49e-8 each by default), the self absorption R of the 6Li notebook differs from the exact one by at most three times the relative error of the integrals, i.e. the relative tolerance or the absolute tolerance (in MeV) divided by the integral of the absorbed share, plus rounding errors of the integrand times the length of the range of energies divided by this integral. No better accuracy follows from the promise: for thin scatterers and narrow resonances, where the integral is below the absolute tolerance, an error of more than 1 is permitted.","all quadratures that meet their tolerances, all arithmetics with underflow, all continuous cross sections that are not negative (with any relative error up to 1/100), all areal densities and ranges of energies","the notebook computes a few values with one implementation of the quadrature; how far its result can be trusted depends on the tolerances, which are absolute in MeV",["notebooks/6Li.ipynb: R","notebooks/6Li.ipynb: photon_flux_density"])
p("C195","From the shipped tables and level data to the transmitted flux, in floating point","For every element and every Breit-Wigner, Voigt or Gauss resonance, the photon flux and the rate of resonance absorption that are computed in floating point from the lines of the shipped attenuation tables and the data of the levels agree with the exact ones (exact power-law interpolation, exact cross section, exact exponential) within 6e-12 of the incoming flux and 1.2e-11 of the rate without attenuation, for energies between 0.116 and 19 MeV and targets of any thickness; the computed flux is 1 at the surface and never increases with the depth.","all 92 elements, all levels with nonnegative partial widths, all energies from 0.116 to 19 MeV, all depths and enrichments that are not negative, every arithmetic of double precision or better (with underflow in the attenuation)","a test compares single values with a reference that is itself computed in floating point; the chain from the text file to the transmitted flux has no exact reference",["ries/nonresonant/xrmac.py: XRMAC.__call__","ries/resonance/breit_wigner.py: BreitWigner", "ries/resonance/voigt.py: Voigt","ries/resonance/resonance.py: Resonance.__call__","notebooks/layer_target.ipynb: Phi","notebooks/layer_target.ipynb: alpha"])
p("C196", "The measured self absorption determines the width", "The 6Li notebook finds the width of the level from a measured self absorption R by inverting R(Gamma). This presupposes that R increases with the width: of two widths the larger one gives the larger R, for all targets, with the coverage interval of the notebook (0.999) as the range of integration.", "all target masses, diameters and enrichments, all effective temperatures with a Doppler width between 0.1 eV and 1 MeV, all widths", "Monotonicity over a continuum of widths and target thicknesses; a test compares a few widths for one target, for which R may well increase.", ["notebooks/6Li.ipynb", "ries/resonance/voigt.py: Voigt", "ries/resonance/resonance.py: Resonance.coverage_interval"])
p("C197", "A width found without a warning is the width of the level", "If the measured self absorption is the one of a level of a certain width, and the Monte Carlo loop of the 6Li notebook prints no warning for the sample, then the width that is stored is close to the width of the level.", "all target dimensions, all widths of the level, all runs", "relates the criterion of the warning (a difference of self absorptions) to a difference of widths, for all targets; a test tries a few targets for which the relation is steep", [NB2+": minimize, R_exp_tolerance, isclose, R"])
p("C198", "Differential Compton cross sections are accurate in floating point", "The Klein-Nishina cross sections per solid angle, per polar angle and per energy of the scattered photon have a small relative error in floating-point arithmetic, for polarized and unpolarized photons.", "all arithmetics, all photon energies, all angles and scattered energies", "1 - cos(theta) and E/Ep - 1 cancel, and the bracket of the polarized formula can vanish; a test compares with values from the same formula or integrates over the angles", ["ries/nonresonant/klein_nishina.py: KleinNishina.cs_diff_dOmega, cs_diff_dOmega_unpolarized, cs_diff_dEp, cs_diff_dtheta, theta, Ep_over_E"])
p("C199", "Computed scattering angles and energies are inverse to each other", "In floating-point arithmetic, the energy ratio at the computed scattering angle of a photon of some energy gives this energy back, and the scattering angle of the computed energy at some angle gives this angle back, up to a small relative error.", "all arithmetics, all photon energies, all scattered energies and angles", "the test of the project tries half of the energy for four energies; the cosine cancels for small angles and low energies", ["ries/nonresonant/klein_nishina.py: KleinNishina.theta, Ep_over_E", "tests/test_klein_nishina.py: test_klein_nishina"])
p("C200", "Numerical integrals of differential Compton cross sections agree with the total one", "In floating-point arithmetic, the numerical integrals of the four differential cross sections (per angle and per energy of the scattered photon, for polarized and unpolarized photons) agree with the total cross section within a relative tolerance of 1e-5, for all energies of the photon and not only for the four energies of the tests.", "all arithmetics, all quadratures with nonnegative weights, all energies", "the test tries 0.5, 1, 5 and 10 MeV with one quadrature", ["ries/nonresonant/klein_nishina.py: KleinNishina.cs_diff_dtheta, cs_diff_dEp, cs_diff_dOmega, cs_diff_dEp_dphi, cs_total", "tests/test_klein_nishina.py: test_klein_nishina"])
p("C201", "Narrow resonances are integrated as well as broad ones on their own grid, and are missed without it", "The documentation recommends to guide the numerical integration of narrow peaks by a partition. On the grid of equal probability of a Breit-Wigner or Gauss resonance for a given coverage, the partitioned quadrature returns the same multiple of the energy-integrated cross section, with the same relative error, for all resonances of the shape, however narrow, and so do the Darboux sums. Without the grid this is not so: whatever the points at which an integrator looks first, there is a resonance that it misses, returning less than a thousandth of the integral with a reported error that is arbitrarily smaller than the actual one.", "all Breit-Wigner and Gauss resonances, all coverages and numbers of points, all integrators without a scale of their own; for the negative part all shapes of resonances, all finite sets of nodes with weights, error estimates bounded by the values, tolerances, continuations and limits", "a test integrates one resonance with one integrator", ["ries/integration/quad_partition.py: quad_partition", "ries/integration/darboux.py: darboux", "ries/resonance/resonance.py: Resonance.equidistant_probability_grid, Resonance.__call__"])
p("C202", "Voigt cross sections are accurate in floating point", "Evaluated in floating-point arithmetic, from the level energies and partial widths to the value at an energy, a Voigt cross section has a small relative error at every energy and every effective temperature from 0 on, provided that the routine for the Voigt profile has a small relative error for its own arguments. The rounding errors of resonance energy difference, Doppler width and natural width are not amplified in the wings or for strong Doppler broadening: the error counts about 2 N + 35 roundings for N decay channels, plus 88 times the logarithm of the ratio of the maximum of the Breit-Wigner cross section to the value.", "all states with nonnegative partial widths and a positive width, masses, temperatures, energies, final states, arithmetics with relative error u, Voigt routines with relative error v", "a test compares a few values with a tolerance", ["ries/resonance/voigt.py: SemiPseudoVoigtDistribution.pdf, Voigt", "ries/resonance/pseudo_voigt.py: PseudoVoigtDistribution.__init__", "ries/resonance/resonance.py: Resonance.__call__", "ries/resonance/maxwell_boltzmann.py: MaxwellBoltzmann.get_doppler_width"])
p("C203", "Cross sections of nuclei in excited states in floating point", "If both levels of a transition are excited, the difference of their energies is rounded, and the whole resonance is shifted. For Breit-Wigner and Voigt cross sections the resulting relative error, at every energy and temperature, is at most about two roundings times the number of natural widths that fit into the resonance energy, in addition to the errors for a nucleus in its ground state. For Gauss cross sections the Doppler width takes the place of the natural width, and the error grows with the distance from the resonance. For the former nothing better can be promised: in double precision there are levels with a lifetime of less than a millisecond where the computed cross section is more than a thousand times too large.", "all pairs of states with nonnegative partial widths and a positive width, masses, temperatures, energies, final states, arithmetics with relative error u, Voigt routines with relative error v", "the tests use nuclei in their ground state with excitation energy zero, where the difference is exact", ["ries/resonance/resonance.py: Resonance.__init__", "ries/resonance/resonance.py: Resonance.__call__", "ries/resonance/breit_wigner.py: BreitWigner", "ries/resonance/gauss.py: Gauss", "ries/resonance/voigt.py: SemiPseudoVoigtDistribution.pdf, Voigt"])
p("C204", "Calls with relative energies in floating point", "Called with input_is_absolute_energy=False at the distance E from the resonance, a Breit-Wigner or Voigt cross section first adds the resonance energy and later subtracts it again. In floating point the resulting relative error, at every temperature, is at most about two roundings times the number of natural widths in |E| + E_r, in addition to the errors of calls with absolute energies. For Gauss cross sections the Doppler width takes the place of the natural width, and the error grows with the distance. For the former nothing better can be promised: in double precision, also for a nucleus in its ground state, there are levels with a lifetime of less than a millisecond where the value at a small distance is more than a thousand times too large, although the same distance is exactly representable.", "all pairs of states with nonnegative partial widths and a positive width, masses, temperatures, relative energies, final states, arithmetics with relative error u, Voigt routines with relative error v", "a test evaluates at a few energies of one broad resonance", ["ries/resonance/resonance.py: Resonance.__call__", "ries/resonance/breit_wigner.py: BreitWigner", "ries/resonance/voigt.py: SemiPseudoVoigtDistribution.pdf, Voigt"])
open("/verif/properties.jsonl","w").write("".join(json.dumps(x,ensure_ascii=False)+"\n" for x in P))
print(len(P))

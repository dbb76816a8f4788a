#!/usr/bin/env python3
"""Rewrites the property table of DESIGN.md from properties.jsonl, MANIFEST.json and the notes below."""
import json, os, re
root = os.path.join(os.path.dirname(os.path.abspath(__file__)), "..")
HOW = {
"C01": "expression meaning by induction over nested sums (`CrossSection`)",
"C02": "as C01", "C03": "specification `Expr.denote` of any expression tree; induction over the tree",
"C04": "store model `Heap`; frame invariant by induction over histories of operations",
"C05": "`Heap`; edit of an operand after construction; nested operand is shared: refuted",
"C06": "`callArr` with broadcasting; induction over the sum", "C07": "case analysis of the evaluation loop",
"C08": "constructor with `Option` arguments", "C09": "products of two cross sections are values of `Obj`; refuted by evaluating one",
"C10": "closed form of `linspace`", "C11": "`Resonance.probGrid` over an arbitrary distribution with inverse pair cdf/ppf",
"C12": "as C11, for a coverage", "C13": "order of cdf/ppf; exact criterion for the box; pseudo-Voigt by C82, refuted for narrow ones (root search stops after one step)",
"C14": "`npUnique`: sorted, duplicate-free, same members; induction over nested sums", "C15": "evaluation of the constant's grid method; refuted",
"C16": "cdf of the returned limits; integral of the pdf", "C17": "witness: broad Breit-Wigner", "C18": "the call `cdf(0.0)` without parameters is in the model",
"C19": "integrals over the real line of normal, Cauchy, uniform, mixtures, convolution (Fubini)", "C20": "strict positivity of the tail integral; arctan formula",
"C21": "sum over the dictionary of partial widths", "C22": "list sums", "C23": "algebra", "C24": "case analysis of `mkResonance`: success iff conditions",
"C25": "algebra", "C26": "monotonicity of the densities; Voigt by unimodality of the convolution", "C27": "algebra: conservation laws as specification",
"C28": "constructor signatures; refuted", "C29": "algebra with `sqrt`", "C30": "algebra, monotonicity",
"C31": "polynomial inequalities for eta and the width (fifth root)", "C32": "evaluation at zero width / zero temperature; refuted at zero temperature",
"C33": "explicit Newton loop; a converged value is a fixed point up to the tolerance", "C34": "array Newton with flags; witness with one converging and one diverging quantile",
"C35": "convolution integral", "C36": "series-free bounds on the Debye integrand", "C37": "substitution, monotone integrals", "C38": "squeeze arguments, limits of filters",
"C39": "`decide +kernel` over the table; refuted", "C40": "algebra and `cos`", "C41": "`arccos`/`cos`", "C42": "fundamental theorem of calculus with explicit antiderivative",
"C43": "substitution from C42", "C44": "derivative sign / integrand monotone in the energy", "C45": "azimuthal integral computed; refuted", "C46": "exact condition on the mass; refuted", "C47": "algebra",
"C48": "induction over the sorted table", "C49": "piecewise power law; induction", "C50": "fill values; refuted by an unsorted table", "C51": "linearity of the conversion under interpolation",
"C52": "print/parse round trip by induction over the file", "C53": "slice `[:-2]` on a line without newline; refuted on the shipped file 82.txt",
"C54": "closures over the global loop variable; refuted on the shipped files", "C55": "list sums, permutation, convexity",
"C56": "print/parse round trip for any sorted list of elements", "C57": "slice up to '('; refuted", "C58": "kernel evaluation over the whole shipped file; refuted", "C59": "general theorem plus shipped file",
"C60": "substring test on two characters; refuted on the shipped file", "C61": "Darboux inequality by induction over the grid", "C62": "list sums", "C63": "induction over inserted points",
"C64": "evaluation", "C65": "broadcasting rules; refuted for two-entry arrays", "C66": "any monotone rounding, any summation tree", "C67": "additivity over the pieces, `nquad` a parameter that is exact",
"C68": "loop invariant", "C69": "Cauchy-Schwarz; refuted", "C70": "truth value of an array; refuted", "C71": "residual bound from the Newton tolerance; refuted by a narrow resonance",
"C72": "invariant of the import loop; shipped file", "C73": "composition of reader, conversion and interpolation; refuted on the shipped files", "C74": "composition of reader and interpolation for the shipped files",
"C75": "Maxwell-Boltzmann velocities as specification; change of variables", "C76": "four-momentum conservation as specification", "C77": "derivative of the angular integral",
"C78": "`np.arccos` outside [-1,1] is nan; refuted", "C79": "rounding after each operation with relative error u; induction over the expression tree",
"C80": "each Newton step on the concave side reduces error times density to a quarter; 50 iterations suffice", "C81": "C80 plus symmetry", "C82": "C80 applied to every grid point",
"C83": "Lorentz quantiles of half the width; refuted at T = 0; proved for narrow widths (probabilities of intervals under Voigt, pseudo-Voigt and normal distribution differ by multiples of w/d)",
"C84": "rounding after each operation; forward error analysis; refuted with rounding to nearest (cancellation)",
"C85": "branches of `x ** -3`, quotient and logarithm; refuted at E = 0",
"C86": "uniform continuity, induction over the partition",
"C87": "peak on the grid: piecewise monotone (C61); error bound by total variation times the largest step; refuted for two points",
"C88": "coverage interval (C22) and spacing of the grid (C10); quantiles 0 and 1 are infinite: refuted",
"C89": "`Model/Inputs` (operator dispatch with numpy scalars); case distinction on the operand",
"C90": "`Model/Inputs` (indexing by loop variable); case distinction on the container",
"C91": "`Model/Inputs`; induction over the lines of the file; a table of three points for the refutation",
"C92": "`Model/Inputs` (states sharing dictionaries); induction over the steps",
"C93": "`Model/RoundedGrid`; relative error bounds, monotone rounding",
"C94": "`Model/RoundedReso`; calculus of relative errors (`Rel`), induction over the partial widths",
"C95": "as C94; perturbation of the exponent",
"C96": "dominated convergence; substitution to a fixed Gaussian; strict antitonicity of the integrand",
"C97": "dominated convergence for the Voigt integral; continuity of the pseudo-Voigt parameters",
"C98": "recursion over the nodes with one-sided limits",
"C99": "broadcasting of lists and of shapes, induction over the entries; refuted",
"C100": "grid methods used by an expression as an inductive relation; induction over the tree",
"C101": "as C100; refuted by two Breit-Wigner resonances and a coverage",
"C102": "spec `Attenuates`: the differential equation; uniqueness by constancy of F exp(c ρ), existence by a piecewise exponential",
"C103": "C102 and the fundamental theorem of calculus in each layer",
"C104": "pointwise bounds on exp, monotonicity of the inner integral in the depth",
"C105": "closed form of the inner integral, strict monotonicity of integrals, minimum of σ on the interval; scatterer: comparison with the cross section at which the absorption equals its average",
"C106": "refuted (argument ignored); `_partial`: identity at the mean, error elsewhere",
"C107": "g·L(E; g) is increasing in g for the Lorentz curve L, strict under the convolution integral",
"C108": "Bose integral as geometric series with zeta(4); coth inequality by four derivatives; limits by squeezing",
"C109": "angular integral expanded with rational bounds of the Klein-Nishina integrand; limits of the closed formula",
"C110": "store of arrays with allocation and in-place addition; frame and freshness invariants of the accumulation loop; pointwise refinement by induction over the tree",
"C111": "same store model with lists: the first operation on a list raises for the refuted classes",
"C112": "C26 at E = 0",
"C113": "rounded linspace between rounded probabilities, quantiles rounded; tail bound of the normal distribution; monotonicity and error bound of the rounded grid (C93)",
"C114": "kinematics with a rounding after every operation; evaluation of rounding to nearest on concrete numbers; error analysis of the computed cosine",
"C115": "store of containers, `x or []` with Python's truth values; freshness by induction over the sequence of constructions",
"C116": "induction over the summation tree with relative errors; exact bracket of C61",
    "C117": "error analysis of log10, linear interpolation and power for any monotone rounding; separation of the shipped energies checked in the kernel",
    "C118": "`Model/KNArrays` writes the functions with numpy operations on the array store of `Model/Arrays`; a small calculus (`Computes`) carries the values of entries, lengths and the freshness of results through each operation",
    "C119": "`PV.ppfOne` follows the scalar branch of `scipy.optimize.newton` and the test `False not in` on its result, with the version of scipy as a parameter",
    "C120": "`Model/RoundedNewton` rounds every operation of the search; a converged step bounds the last correction, which bounds the residual through the slope of the distribution function",
    "C121": "`Model/Constants` has the tables of constants and the names that the code looks up; the cross section scales with the square of the constant",
    "C122": "`Model/Package` models package discovery, the patterns of `MANIFEST.in` and relative paths; the file list is checked by the kernel, larger source directories by monotonicity",
    "C123": "`Model/Docs` interprets the scripts on the module variables of `Model/XrmacModule` and `Model/Elements`",
    "C124": "`Model/Edits` gives the objects all their attributes and lets programs assign them; induction over the assignments",
    "C125": "`Model/RoundedPV` rounds every operation, also the exponent 0.2; relative errors through the fifth root, cancellation in the mixing parameter bounded, Gauss component compared with the Cauchy component",
    "C126": "second differences of the normal density bounded by a rational function whose integral against the Cauchy density is again a Cauchy integral; normal densities of different scale; bounds on the width and mixing polynomials",
    "C127": "`setEnds` and `linspace` for 0 and 1 points; for arbitrary length-preserving distributions",
    "C128": "Spec in Props/DarbouxTrue: partition sums with `sInf`/`sSup` of the image of each closed interval; proof by comparing min/max of end values with infimum/supremum piece by piece, equality by uniqueness of a sum of nonnegative terms.",
    "C129": "Model of Python argument binding (positional, keyword, defaults) and of the signatures along the method resolution order (Model/Signatures); finite tables for the classes, binding proved for all argument values.",
    "C130": "Model/QuadPartition, partition as a vector or a matrix of rows; `len` counts rows. Negation for all inputs, additivity over concatenated partitions.",
    "C131": "Model/QuadPartition, loop with rounded operations; induction over the partition with the accumulated value and its magnitude.",
    "C132": "Model/Beam and the count rate of Model/Notebooks; strict subadditivity of 1 - exp(-x) under the integral; for the maximum, monotonicity of t exp(-tZ) up to t = 1/Z and continuity of the line shape.",
    "C133": "Every distribution used (including the Newton iteration for the pseudo-Voigt quantiles) commutes with reversing its list argument; `np.unique` does not depend on the order.",
    "C134": "`linspace` with k(m+1)+1 points is an array whose every k-th element equals the one of the coarse array (also for infinite ends); the line shapes work element by element; for the sums, every interval of the coarse grid is split and the values on both sides of the maximum are monotone.",
    "C135": "Integrals of the absorption compared pointwise with the value at the minimum and maximum of the cross section; the Voigt profile is bounded by the peak of the Breit-Wigner profile and by the peak of the normal distribution.",
    "C136": "Substitution E - E_r = Γ x: the cross section and the coverage interval scale with Γ.",
    "C137": "Model/RoundedThermal: products of relative errors (no subtraction occurs in these formulas); induction over the list of isotopes and over the summation tree.",
    "C138": "loop over an arbitrary sequence of draws with explicit lists and warnings (`Model/MonteCarlo`); invariant by induction over the passes; refuted without an absorber with the function R of the notebook",
    "C139": "one-dimensional Nelder-Mead search written out (`Simplex`); invariant of the loop; witness: linear self absorption and a measured value in the middle; convergence by a progress measure over the place of the minimum relative to the simplex (`Lemmas/Simplex`)",
    "C140": "invariant of the loop by induction over the passes, exact messages for fewer than 100 samples",
    "C141": "documented formulas transcribed in `Spec/DocFormulas`, compared with the modelled functions for all inputs",
    "C142": "argument by its Python type (`Model/LimitTypes`), case by case for all shapes",
    "C143": "distance of neighbouring points of the union is at most the one of a constituent; induction over the nesting of sums; C86",
    "C144": "Fubini on the range of energies times the layer, the inner integral by its antiderivative; then comparison of the integrands",
    "C145": "real algebra with `exp` and `log`",
    "C146": "table look-up decided in the kernel, the bounds from C36",
    "C147": "names of the modules after import (model of C123); case analysis over modules, for all data files",
    "C148": "exact real Darboux sums; the descending case is reduced to the ascending one by reversal",
    "C149": "array evaluation of `Model/Arrays` composed with `Model/Darboux`",
    "C150": "equidistant grid; the total Compton cross section is strictly decreasing (C44), so shares are compared by translation of the integrals",
    "C151": "contract of a continuous distribution in `Spec/UserDist`; monotone distribution function, measure-theoretic integrals; Student's distribution as counterexample",
    "C152": "store model `Model/Heap`; a weighted-sum cell keeps the addresses of the lists",
    "C153": "rounded arithmetic after every operation, correctly rounded quantile functions",
    "C154": "cardinalities of unions of finite sets; `np.unique` as sorting without duplicates",
    "C155": "The rounded model of C84, C94, C95, C125, C137, C198 and C202 with an arithmetic about which nothing is assumed for results that overflow or underflow. Every intermediate result is bounded by powers of two (`Same`, an interval calculus for exponents), hence the arithmetic can be replaced by one that is accurate everywhere. Differences in the Klein-Nishina brackets, and one minus the mixing parameter of pseudo-Voigt profiles, are multiples of a power of two; so is a computed cosine that is at least one half (an assumption on the arithmetic). Double precision numbers near pi and pi/2 are told apart from them by twenty digits of pi.",
    "C156": "same quantiles as the pseudo-Voigt resonance (C82); probabilities of intervals: Cauchy average of second differences of the normal cdf, Fubini; refuted at T = 0",
    "C157": "probability of a symmetric interval as an average of shifted Cauchy intervals over the normal distribution (Fubini), which shrink with the shift; width and mixing polynomials are monotone",
    "C158": "values of both components at their half widths; for Voigt, averages over shifts of a pointwise inequality (cosh >= 1 for the normal, a rational inequality for the Cauchy density), existence by the intermediate value theorem",
    "C159": "`Model/ArrayFactors`: values are numbers or one-dimensional arrays with numpy broadcasting and in-place addition; induction on the expression with the invariant that every object built is a constituent or a weighted sum whose scale factors fit; negations by computation for all cross sections",
    "C160": "`Model/NdArrays`: arrays are a shape and a function of the index, operators with the broadcasting rules of numpy; shapes form a partial order (can be stretched to) in which the broadcast shape is the join; induction on the function body and on the nesting of sums",
    "C161": "`Model/NdArrays`: the class `BeamInTarget` on arrays; from the join property of broadcasting",
    "C162": "`Model/Notebooks`: derivative of the flux, fundamental theorem, Fubini; monotony of x·exp(-xρ) below and above 1/ρ",
    "C163": "`Model/Programs`: statements executed on names and the store of `Model/Heap`; simulation of a denotational semantics on functions of the energy, by induction on the program, with the frame and refinement lemmas of C04",
    "C164": "sums over consecutive pairs: induction over the partition, inequalities between minima and maxima of sums; composed objects via C149",
    "C165": "substitution in every formula of the model (partial widths, width, Doppler width, pseudo-Voigt parameters, Voigt integral, quantiles); refuted for the box of the base class",
    "C166": "induction over the rows: the piecewise linear interpolation of the logarithms is strictly decreasing where consecutive rows decrease; jumps from C98 and the lexicographic order of the rows; the rows of the 92 shipped tables are compared by kernel evaluation",
    "C167": "the cross sections as polynomials in the energy ratio r; extrema from sin^2 + cos^2 = 1, monotonicity from the factorization of the difference of r^3 + r - 2 q r^2 at two ratios, with two explicit energies where q^2 > 3/4",
    "C168": "numpy's roll, slice, row assignment and broadcast on matrices written out; sum over an outer product factorizes, telescoping of the steps",
    "C169": "pointwise bounds of the average of two mirrored Lorentz curves, integrated with the second and fourth moment of the normal distribution (integration by parts); limits by squeezing",
    "C170": "values that may be nan: one nan makes both sums nan (induction over the partition); with finite values the sums are those of `darboux`, which converge by C86 to the integrals of C42 and C43",
    "C171": "a level scheme as documented (names used once, widths to lower-lying levels only) and the characterisation of construction in C24",
    "C172": "quotient of integrals with x - x^2/2 <= 1 - exp(-x) <= x; the upper bound for thick scatterers from the monotonicity in C105; antiderivative of the squared Cauchy density, the squared normal density is a normal density",
    "C173": "The registry Python keeps of printed warnings as a list of texts, a program as a list of calls; induction over the calls, the number in the text from C18.",
    "C174": "Integrated cross section as the limit times pi/2 times widths; maxima of the shapes; the Voigt maximum falls with the temperature.",
    "C175": "Formulas of both constructions from one dictionary of partial widths; shift or scaling of the densities.",
    "C176": "Import of the shipped files as in C73; the logarithm in the Klein-Nishina formula is enclosed between rational bounds at 36 energies, all rows of all tables are compared with them by the kernel, and the comparison is extended to all energies because the cross section decreases, but more slowly than 1/E (C44), and the tabulated energies are at most a factor 1.5 apart. Refuted for the elements whose mass is read as zero.",
    "C177": "np.interp with its second formula for nan written out in IEEE arithmetic on reals, infinities and nan; cases at a node at minus infinity, induction over the rows for energy zero.",
    "C178": "refuted with concrete resonances; quantile functions outside [0, 1] by cases; no component of the Newton iteration converges for an impossible quantile (invariant of the loop), unless the first step is below the tolerance",
    "C179": "The column of standard atomic weights of the shipped file is parsed by a reader of its own (intervals `[a,b]` and values `v(u)`), and compared by a kernel computation with the exact masses of the elements that the model of the import creates",
    "C180": "The function with every operation rounded. Each computed integrand has nine relative errors and an absolute one from the cancellation, bounded by the integrand over t; the sum of the latter is compared with the integral by monotonicity of t^2 phi(t); the error of the upper limit by the scaling behaviour of the integral",
    "C181": "The logarithm of the Lorentz profile is Lipschitz with constant 1/gamma, its product with gamma grows at most quadratically; both carry over to the convolution with a Gauss profile. For the Doppler width the comparison is made between the Gauss kernels. Compton: E times the cross section increases (C44_growth and its differential version). Upper bound for Voigt wings: weighted mean inequality under the integral, Jensen's inequality.",
    "C182": "Model of construction and evaluation in which the square root of a negative number is nan (Model/Unphysical.lean), shown to agree with the other model where mass and temperature have the same sign (value_eq_build); case analysis on the class",
    "C183": "`Props/XrmacPower`; an affine map of the nodes maps the interpolation, so multiplying rows by powers of the energy reduces the limits of the slope to the decrease of C166; rows of the 92 files by evaluation (`Lemmas/ShippedXrmacEdges`)",
    "C184": "`Props/HeavierAtoms`; interpolation is strictly monotone in the values of the nodes and depends only on the nodes around the energy; the order of the rows of neighbouring elements by evaluation (`Lemmas/ShippedHeavier`), of all pairs by transitivity",
    "C185": "the pieces of the grid have equal integrals by C11/C12, the product integrand factorises the iterated integral by induction on the further coordinates, and the error bound of C69 applies; for sums the grid is sorted from the lower to the upper limit (C143)",
    "C186": "arctan x <= x for the Cauchy distribution; the shifted normal density is dominated by the density itself; the Voigt distribution is an average of moved Cauchy distributions over the normal one, cut at half the distance; pseudo-Voigt is a mixture with fraction at most 1.37 Gamma / gamma of the Cauchy component",
    "C187": "Lemmas/NewtonNoisy: below the centre the CDF is convex; a disturbed Newton step either multiplies residual times density by at most 0.261 or starts close to the quantile, and then the next point is close as well. After 49 steps both alternatives give a step below the tolerance. Quantiles above the median by reflection. Lemmas/NoisySearch, NoisySearchPV: error of a computed step, bounds of the density and of the distance to the quantile for the pseudo-Voigt distribution. Lemmas/NoisyCentre: searches for quantiles next to the median stay within 2e-9 MeV of the centre if the widths add up to 1e-7 MeV or more. The condition on the rounding errors is sufficient, not necessary.",
    "C188": "C187_every_array applied to the computed quantiles, Lemmas/RoundedPVGrid for the errors of linspace and of the coverage quantiles; shares by the triangle inequality for the distribution function; a positive share means increasing points.",
    "C189": "Construction (C94, C95), grid (C113 with the rounded width; a distribution function changes by at most 0.31 |t - 1| when its argument is scaled by t), values and rounded Darboux sums (C66, C84) are composed; the sums are compared with the integral through the total variation of a peaked function. Pseudo-Voigt: grid from C188 (increasing), values from the accuracy of the density.",
    "C190": "The specification `Resolves` says that computed values have a relative error ε and that every choice of end points on every refinement of the grid of a constituent gives its integral up to B. C190_sum proves by induction on the constituents that weighted sums inherit it (np.unique keeps all points, resolutions add up); C190_integral combines it with the rounded Darboux sums. Constituents: Breit-Wigner, Gauss, pseudo-Voigt (grids and values of C188/C189), Compton scattering (values of C84), constants, any nonresonant cross section of bounded variation.",
    "C191": "`Model/RoundedVoigt`: the computed distribution object overrides only the density. Grids and intervals are those of the pseudo-Voigt resonance (C188), whose shares differ from the Voigt shares by at most 2.1 w/d (C83, C156); the lengths of the intervals follow from their pseudo-Voigt shares and the smallest pseudo-Voigt density between the limits, and a peaked function is resolved by short intervals (`refined_lengths`); rounding as in C190. Instance: 20 meV level in double precision, 41 points.",
    "C192": "The rounded interpolation formula is within 12 u M of the exact formula through the computed nodes (`lerpR_close`), and that formula moves by at most dy + 2 dx S when the nodes move by dx and dy (`lerp_stable`): the interpolation weight times the distance of the nodes changes by at most 2 dx. The steepness S is at most 100 in all shipped tables (`shipped_steep`, kernel evaluation of all rows, Bernoulli's inequality). Above the last edge, energies that rounding moves across a row are compared through the power law bounds of C183 with exponent 100. Instances: three rows on a power law, hydrogen at 5/4096 MeV, lead between 1 and 4 MeV.",
    "C193": "Rounded versions of `Phi`, `alpha`, `dN_*` and `BeamInTarget` (Model/RoundedFlux); an error of the optical thickness s relative to s changes exp(-s) by at most that relative error since s exp(-s) <= 1/2; factors in [0, 1] are multiplied with absolute errors, boundaries are monotone and idempotent under rounding.",
    "C194": "`Model/RoundedSelfAbs` with an arbitrary quadrature; `Spec/Quadrature` states the promise; error of a ratio of two integrals, of which one is not larger than the other; sharpness with the upper integral, changed by the tolerance at one integrand.",
    "C195": "Composition of C192 (table), C94 or C202 (resonance) and C193 (attenuation): the relative errors of the cross sections enter the absolute error of the flux once, for any thickness.",
    "C196": "For thick targets 1 - R decays with the smallest cross section between the limits (C196_thick). With the width 0.008 standard deviations of the thermal motion, the pseudo-Voigt coverage interval ends below 3.515 standard deviations (Mills' bound for the normal tail, bound of arctan), where the Voigt profile is at least 0.997 of the normal one (symmetrized convolution); with the width 1e4 MeV it ends beyond 316 half widths, where the profile is smaller. C135 gives the narrow side.",
    "C197": "Monte Carlo loop with the function `R` of the notebook; uniform bound of the self absorption by the attenuation at the undisturbed maximum (C135) and limit for thick absorbers (C105), with the exact result of the simplex search when it stops at once (C139). What holds follows from the exact criterion of the warning (C138) and a lower bound of the slope.",
    "C198": "New model of the differential cross sections with a rounding after every operation and trigonometric functions with an error of four roundings. Relative errors counted in multiples of (E/me + 1) roundings; the bracket of the unpolarized formula is at least half of its positive part. Energies: error of the cosine by the cancellation, then continuity of the exact cross section in the cosine. Witness evaluated in double precision.",
    "C199": "Model of C198. Error of the computed cosine, continuity of the energy ratio in the cosine, and the exact inverse (C41). Witness: the cosine of a small angle is rounded to one.",
    "C200": "Model of C198 and of C84. Pointwise relative errors carry over to sums with nonnegative weights; exact integrals by C42 and C43, accuracy of the total cross section by C84.",
    "C201": "Model of quad_partition, darboux and of the grids. Quantiles and densities of a location-scale family are affine images of the standard ones, so that the partitioned sums only differ by the energy-integrated cross section. Without the grid: the density at distance d is at most s/d^2 and the probability farther than d at most s/d; a width is chosen after the nodes.",
    "C202": "Rounded model of the evaluation with the Voigt routine as a parameter. Sensitivity of the exact convolution: to the Cauchy scale by monotonicity of scaled profiles, to the standard deviation by a weighted mean inequality under the integral (profile grows at most by a small power of peak/value), to the energy by scaling all three arguments. Jensen's inequality bounds the logarithm by the inputs.",
    "C203": "The computed value is close to the exact value for the rounded resonance energy; the exact value depends on the position with a rate of at most 2 / width (as in C181). For the counterexample all inputs are doubles and the difference is rounded by a quarter of a unit.",
    "C204": "As C203: the computed value is close to the exact value at a shifted distance, and the exact value depends on the distance with a rate of at most 2 / width. The rounding of the resonance energy itself cancels. The counterexample has an energy that is lost in the sum.",
}
HOW.update(json.load(open(os.path.join(root, "tools", "how.json"))) if os.path.exists(os.path.join(root, "tools", "how.json")) else {})
props = [json.loads(l) for l in open(os.path.join(root, "properties.jsonl"))]
man = {c["property"]: c for c in json.load(open(os.path.join(root, "MANIFEST.json")))["claims"]}
rows = ["| id | property | status | how modelled and proved | theorems | what is missing / false |", "|---|---|---|---|---|---|"]
for p in props:
    c = man[p["id"]]
    st = c["status"]
    if st == "partial" and any("refuted" in t for t in c["theorems"]):
        st = "refuted, partial"
    rows.append("| %s | %s | %s | %s | %s | %s |" % (p["id"], p["title"], st, HOW[p["id"]],
        ", ".join("`%s`" % t.replace("Ries.", "") for t in c["theorems"]), c["note"]))
f = os.path.join(root, "DESIGN.md")
s = open(f).read()
s = re.sub(r"<!-- table -->.*?(?=\n## 5)", lambda _: "<!-- table -->\n\n" + "\n".join(rows) + "\n", s, flags=re.S)
open(f, "w").write(s)
print(len(rows) - 2, "rows")
